import Verif.Spec.Place
import Verif.Props.Join

/-!
# C90: the place of a mechanism in space does not matter
-/

namespace Arboris
open Matrix Spec Mech Build Sim

noncomputable section

/-! ### a simulation through a change of representation -/

lemma except_map_ok {α β : Type*} (f : α → β) (a : α) : (Except.ok a : Except PyErr α).map f = .ok (f a) := rfl
lemma except_map_error {α β : Type*} (f : α → β) (e : PyErr) : (Except.error e : Except PyErr α).map f = .error e := rfl

/-- If every method commutes with `f`, so does the simulation. -/
lemma loop_commutes {W W' : Type*} {E : Engine W} {E' : Engine W'} {f : W → W'} 
    (hd : ∀ w, E'.dynamic (f w) = (E.dynamic w).map f) (hc : ∀ dt w, 0 < dt → E'.controllers dt (f w) = (E.controllers dt w).map f)
    (hs : ∀ dt w, 0 < dt → E'.constraints dt (f w) = (E.constraints dt w).map f)
    (hg : ∀ dt w, 0 < dt → E'.integrate dt (f w) = (E.integrate dt w).map f)
    (k : ℕ) (tl : List ℝ) (tr : List (Ev W)) (w : W) (t : ℝ) :
    loop E' k tl (tr.map (seeing f)) (f w) t = ((loop E k tl tr w t).1.map (seeing f), (loop E k tl tr w t).2.map fun r => (f r.1, r.2)) := by
  induction tl generalizing tr w t with
  | nil => rfl
  | cons next rest ih =>
    simp only [loop, call, hd]
    cases E.dynamic w with
    | error e => simp only [except_map_error, List.map_append]; rfl
    | ok a =>
    simp only [except_map_ok]
    by_cases hdt : 0 < next - t
    swap
    · simp only [if_neg hdt, except_map_error, List.map_append]; rfl
    simp only [if_pos hdt, hc _ _ hdt]
    cases E.controllers (next - t) a with
    | error e => simp only [except_map_error, List.map_append]; rfl
    | ok b =>
    simp only [except_map_ok, hs _ _ hdt]
    cases E.constraints (next - t) b with
    | error e => simp only [except_map_error, List.map_append]; rfl
    | ok c =>
    simp only [except_map_ok, hg _ _ hdt]
    cases E.integrate (next - t) c with
    | error e =>
      simp only [except_map_error, List.map_append, List.map_map]
      rfl
    | ok d =>
      simp only [except_map_ok]
      rw [← ih]
      simp only [List.map_append, List.map_map]
      rfl

lemma simulate_commutes {W W' : Type*} {E : Engine W} {E' : Engine W'} {f : W → W'} (hi : ∀ w, E'.init (f w) = (E.init w).map f)
    (hd : ∀ w, E'.dynamic (f w) = (E.dynamic w).map f) (hc : ∀ dt w, 0 < dt → E'.controllers dt (f w) = (E.controllers dt w).map f)
    (hs : ∀ dt w, 0 < dt → E'.constraints dt (f w) = (E.constraints dt w).map f)
    (hg : ∀ dt w, 0 < dt → E'.integrate dt (f w) = (E.integrate dt w).map f)
    (w : W) (tl : List ℝ) (obs : Observers) :
    simulate E' (f w) tl obs =
      ((simulate E w tl obs).1.map (seeing f), (simulate E w tl obs).2.map fun r => (f r.1, r.2)) := by
  cases tl with
  | nil => rfl
  | cons t0 rest =>
    simp only [simulate, call, hi]
    cases E.init w with
    | error e => rfl
    | ok a =>
      simp only [except_map_ok]
      have h := loop_commutes hd hc hs hg obs.later rest
        ([] ++ [Ev.worldInit] ++ (List.range obs.first).map fun i => Ev.obsInit i t0 a (t0 :: rest)) a t0
      have e : ([] ++ [Ev.worldInit] ++ (List.range obs.first).map fun i => Ev.obsInit i t0 (f a) (t0 :: rest)) =
          ([] ++ [Ev.worldInit] ++ (List.range obs.first).map fun i => Ev.obsInit i t0 a (t0 :: rest)).map (seeing f) := by
        simp only [List.map_append, List.map_map]
        rfl
      rw [e, h]
      cases loop E obs.later rest ([] ++ [Ev.worldInit] ++ (List.range obs.first).map fun i => Ev.obsInit i t0 a (t0 :: rest)) a t0 with
      | mk tr r =>
        cases r with
        | error x => rfl
        | ok r =>
          simp only [except_map_ok, List.map_append, List.map_map]
          rfl

/-! ### homogeneous matrices -/

lemma hom_mul_iff {Q : Mat4} (hQ : IsRigid Q) (H : Mat4) : ishomogeneousmatrix (Q * H) ↔ ishomogeneousmatrix H := by
  obtain ⟨⟨_, _, hdet⟩, h0, h1, h2, h3⟩ := hQ
  have hrow : ∀ j, (Q * H) 3 j = H 3 j := by
    intro j
    simp [Matrix.mul_apply, Fin.sum_univ_four, h0, h1, h2, h3]
  unfold ishomogeneousmatrix ishomogeneousmatrixTol
  simp only [hrow]
  constructor
  all_goals
    rintro ⟨hd, hr⟩
    refine ⟨?_, hr⟩
    have : rot (Q * H) = rot Q * rot H := by
      ext i j
      fin_cases j <;> simp [rot, Matrix.mul_apply, Fin.sum_univ_four, Fin.sum_univ_three, hr] <;> ring
    have e : (rot (Q * H)).det = (rot H).det := by
      rw [this, Matrix.det_mul, show (rot Q).det = 1 from hdet, one_mul]
    first | (rw [e] at hd; exact hd) | (rw [e]; exact hd)

lemma hom_inv {H : Mat4} (h : ishomogeneousmatrix H) : ishomogeneousmatrix (invBody H) := by
  unfold ishomogeneousmatrix ishomogeneousmatrixTol at h ⊢
  have e : rot (invBody H) = (rot H)ᵀ := by simp only [invBody, rot_mkH]
  rw [e, Matrix.det_transpose]
  refine ⟨h.1, ?_, ?_, ?_, ?_⟩ <;> simp [invBody, mkH]

lemma iadjoint_eq (H : Mat4) : iadjoint H = assertHom H (iadjointBody H) := by
  unfold iadjoint inv adjoint assertHom
  by_cases h : ishomogeneousmatrix H
  · simp only [if_pos h, if_pos (hom_inv h), bind, Except.bind]
    rfl
  · simp only [if_neg h, bind, Except.bind]

lemma assertHom_mul {α : Type} {Q : Mat4} (hQ : IsRigid Q) (H : Mat4) (x : α) : assertHom (Q * H) x = assertHom H x := by
  unfold assertHom
  by_cases h : ishomogeneousmatrix H
  · rw [if_pos h, if_pos ((hom_mul_iff hQ H).mpr h)]
  · rw [if_neg h, if_neg fun h' => h ((hom_mul_iff hQ H).mp h')]

/-! ### the tree -/

/-- a body of the moved mechanism -/
def moved {n : ℕ} (Q : Mat4) (s : BodyDyn n) : BodyDyn n := { s with pose := Q * s.pose }

/-- the raising or not of the checks of `update_dynamic` at a link -/
def linkOk (l : Link) : Prop :=
  ishomogeneousmatrix l.bpose1 ∧ ishomogeneousmatrix (l.bpose0 * (l.joint.pose * invBody l.bpose1)) ∧
    ishomogeneousmatrix l.bpose0 ∧ ishomogeneousmatrix l.joint.ipose

open Classical in
lemma dynStepE_iff {n : ℕ} (s : BodyDyn n) (l : Link) :
    dynStepE s l = if linkOk l then .ok (dynStep s l) else .error .assertion := by
  unfold dynStepE linkOk
  simp only [iadjoint_eq]
  unfold inv adjoint assertHom
  by_cases h1 : ishomogeneousmatrix l.bpose1
  swap
  · simp only [h1, if_false, false_and, bind, Except.bind]
  simp only [h1, if_true, true_and, bind, Except.bind]
  by_cases h2 : ishomogeneousmatrix (l.bpose0 * (l.joint.pose * invBody l.bpose1))
  swap
  · simp only [h2, if_false, false_and]
  simp only [h2, if_true, true_and]
  by_cases h3 : ishomogeneousmatrix l.bpose0
  swap
  · simp only [h3, if_false, false_and]
  simp only [h3, if_true, true_and, hom_inv h3]
  by_cases h4 : ishomogeneousmatrix l.joint.ipose
  swap
  · simp only [h4, if_false]
  simp only [h4, if_true]
  rfl

lemma moved_root {n : ℕ} {Q : Mat4} (hQ : IsRigid Q) (l : Link) :
    dynStepE (groundDyn n) { l with bpose0 := Q * l.bpose0 } = (dynStepE (groundDyn n) l).map (moved Q) := by
  classical
  rw [dynStepE_iff, dynStepE_iff]
  have e : linkOk { l with bpose0 := Q * l.bpose0 } ↔ linkOk l := by
    unfold linkOk
    simp only [Matrix.mul_assoc, hom_mul_iff hQ]
  simp only [e]
  split
  · rw [except_map_ok]
    simp only [dynStep, groundDyn, moved, Matrix.one_mul, Matrix.mul_zero, Matrix.mulVec_zero, add_zero, Matrix.mul_assoc]
  · rfl

lemma moved_step {n : ℕ} (Q : Mat4) (s : BodyDyn n) (l : Link) :
    dynStepE (moved Q s) l = (dynStepE s l).map (moved Q) := by
  classical
  rw [dynStepE_iff, dynStepE_iff]
  split
  · rw [except_map_ok]
    simp only [dynStep, moved, Matrix.mul_assoc]
  · rfl

lemma updateDynamicE_moved {n : ℕ} (Q : Mat4) (F : Forest Link Body) (s : BodyDyn n) :
    updateDynamicE (moved Q s) F = (updateDynamicE s F).map fun d => d.map fun x => (x.1, moved Q x.2) := by
  induction F generalizing s with
  | nil => rfl
  | cons l b ch sib ih1 ih2 =>
    unfold updateDynamicE
    rw [moved_step]
    cases dynStepE s l with
    | error e => rfl
    | ok a1 =>
    simp only [except_map_ok, bind, Except.bind]
    rw [ih1, ih2]
    cases updateDynamicE a1 ch with
    | error e => rfl
    | ok a2 =>
    simp only [except_map_ok]
    cases updateDynamicE s sib with
    | error e => rfl
    | ok a3 =>
    simp only [except_map_ok, pure, Except.pure, List.map_cons, List.map_append]

lemma updateDynamicE_place {n : ℕ} {Q : Mat4} (hQ : IsRigid Q) (F : Forest MLink Body) :
    updateDynamicE (groundDyn n) ((placeTree Q F).map MLink.link id) =
      (updateDynamicE (groundDyn n) (F.map MLink.link id)).map fun d => d.map fun x => (x.1, moved Q x.2) := by
  induction F with
  | nil => rfl
  | cons l b ch sib _ ih2 =>
    simp only [placeTree, Forest.map]
    unfold updateDynamicE
    have h := moved_root (n := n) hQ l.link
    have e : (MLink.link { l with bpose0 := Q * l.bpose0 }) = { l.link with bpose0 := Q * l.link.bpose0 } := rfl
    rw [e, h]
    cases dynStepE (groundDyn n) l.link with
    | error e => rfl
    | ok a1 =>
    simp only [except_map_ok, bind, Except.bind]
    rw [updateDynamicE_moved, ih2]
    cases updateDynamicE a1 (ch.map MLink.link id) with
    | error e => rfl
    | ok a2 =>
    simp only [except_map_ok]
    cases updateDynamicE (groundDyn n) (sib.map MLink.link id) with
    | error e => rfl
    | ok a3 =>
    simp only [except_map_ok, pure, Except.pure, List.map_cons, List.map_append]

lemma world_moved {n : ℕ} (Q : Mat4) (d : List (Body × BodyDyn n)) :
    worldMass (d.map fun x => (x.1, moved Q x.2)) = worldMass d ∧
    worldViscosity (d.map fun x => (x.1, moved Q x.2)) = worldViscosity d ∧
    worldNleffects (d.map fun x => (x.1, moved Q x.2)) = worldNleffects d := by
  simp only [worldMass, worldViscosity, worldNleffects, List.foldl_map, moved]
  exact ⟨trivial, trivial, trivial⟩

lemma dynamic_place {n : ℕ} {σ : Type} {Q : Mat4} (hQ : IsRigid Q) (w : MWorld n σ) :
    dynamic (place Q w) = (dynamic w).map (place Q) := by
  unfold dynamic
  simp only [place, updateDynamicE_place hQ]
  cases updateDynamicE (groundDyn n) (w.tree.map MLink.link id) with
  | error e => rfl
  | ok d =>
    obtain ⟨h1, h2, h3⟩ := world_moved Q d
    simp only [except_map_ok, h1, h2, h3]
    rfl

lemma number_place (Q : Mat4) (s : ℕ) (F : Forest MLink Body) :
    number s (placeTree Q F) = (placeTree Q (number s F).1, (number s F).2) := by
  induction F generalizing s with
  | nil => rfl
  | cons l b ch sib _ ih2 => simp only [placeTree, number, ih2]

lemma gather_place {n : ℕ} (Q : Mat4) (F : Forest MLink Body) :
    (gather (placeTree Q F).links : Fin n → ℝ) = gather F.links := by
  unfold gather
  generalize (0 : Fin n → ℝ) = acc
  induction F generalizing acc with
  | nil => rfl
  | cons l b ch sib _ ih2 =>
    simp only [placeTree, Forest.links, List.cons_append, List.foldl_cons, List.foldl_append, ih2]

lemma init_place {n : ℕ} {σ : Type} (Q : Mat4) (w : MWorld n σ) : Mech.init (place Q w) = (Mech.init w).map (place Q) := by
  simp only [Mech.init, place, number_place, except_map_ok, gather_place]

lemma place_map (Q : Mat4) (f : MLink → MLink) (h : ∀ l, f { l with bpose0 := Q * l.bpose0 } = { f l with bpose0 := Q * (f l).bpose0 })
    (F : Forest MLink Body) : (placeTree Q F).map f id = placeTree Q (F.map f id) := by
  induction F with
  | nil => rfl
  | cons l b ch sib _ ih2 => simp only [placeTree, Forest.map, ih2, h]

lemma integrate_place {n : ℕ} {σ : Type} (Q : Mat4) (dt : ℝ) (w : MWorld n σ) :
    Mech.integrate dt (place Q w) = (Mech.integrate dt w).map (place Q) := by
  simp only [Mech.integrate, place]
  cases integrateGvel w.mass w.ctrl.admittance w.gvel w.ctrl.gforce dt with
  | error e => rfl
  | ok v =>
    simp only [except_map_ok]
    rw [place_map Q _ fun l => rfl]
    rfl

lemma controllers_place {n : ℕ} {σ : Type} {Q : Mat4} {P P' : Plug n σ} (hP : Follows Q P P') (dt : ℝ) (w : MWorld n σ) :
    controllers P' dt (place Q w) = (controllers P dt w).map (place Q) := by
  simp only [controllers, hP.ctrl]
  cases P.ctrl w dt with
  | error e => rfl
  | ok r =>
    simp only [place]
    cases updateControllers w.mass w.viscosity w.nleffects dt r.2 with
    | error e => rfl
    | ok o => rfl

lemma constraints_place {n : ℕ} {σ : Type} {Q : Mat4} {P P' : Plug n σ} (hP : Follows Q P P') (dt : ℝ) (w : MWorld n σ) :
    constraints P' dt (place Q w) = (constraints P dt w).map (place Q) := by
  have e : (place Q w).cons.map (P'.look (place Q w)) = w.cons.map (P.look w) := by
    apply List.map_congr_left
    intro c _
    exact hP.look w c
  simp only [constraints, e]
  have e2 : updateConstraints (place Q w).mass (place Q w).gvel (place Q w).ctrl (w.cons.map (P.look w)) dt =
    updateConstraints w.mass w.gvel w.ctrl (w.cons.map (P.look w)) dt := rfl
  rw [e2]
  cases updateConstraints w.mass w.gvel w.ctrl (w.cons.map (P.look w)) dt with
  | error e => rfl
  | ok r => rfl

/-- C90: the place and orientation of a whole mechanism do not matter: whatever the world (even one whose simulation fails),
the simulation of the world where the mechanism is attached elsewhere to the ground, moved by `Q`, with controllers and
constraints that do there what they did, is the same simulation seen from elsewhere: same calls, same exceptions, same joint
positions and velocities, jacobians, matrices and forces; only the poses of the bodies are moved by `Q`. -/
theorem C90_run {n : ℕ} {σ : Type} {Q : Mat4} (hQ : IsRigid Q) {P P' : Plug n σ} (hP : Follows Q P P') (w : MWorld n σ)
    (tl : List ℝ) (obs : Observers) :
    simulate (engine P') (place Q w) tl obs =
      ((simulate (engine P) w tl obs).1.map (seeing (place Q)), (simulate (engine P) w tl obs).2.map fun r => (place Q r.1, r.2)) :=
  simulate_commutes (init_place Q) (dynamic_place hQ) (fun dt w _ => controllers_place hP dt w)
    (fun dt w _ => constraints_place hP dt w) (fun dt w _ => integrate_place Q dt w) w tl obs

lemma iadjointBody_lin (H : Mat4) (v : Vec3) : iadjointBody H *ᵥ tw 0 v = tw 0 ((rot H)ᵀ *ᵥ v) := by
  simp only [iadjointBody, adjointBody, invBody, rot_mkH, blk_mulVec, Matrix.mulVec_zero, Matrix.zero_mulVec, zero_add]

/-- C90: gravity: a `WeightController` whose vertical direction is turned with the mechanism does there what it did; in
particular (`rot Q *ᵥ up = up`) nothing changes when the mechanism is translated or turned about the vertical. -/
theorem C90_weight {n : ℕ} {σ : Type} {Q : Mat4} (hQ : IsRigid Q) (γ : ℝ) (up : Vec3) :
    Follows Q (weightPlug n σ γ up) (weightPlug n σ γ (rot Q *ᵥ up)) := by
  classical
  refine ⟨fun w dt => ?_, fun _ _ => rfl⟩
  simp only [weightPlug]
  suffices h : weightUpdateE γ (rot Q *ᵥ up) (place Q w).dyn = weightUpdateE γ up w.dyn by
    rw [h]; rfl
  simp only [weightUpdateE, place, List.filter_map, iadjoint_eq]
  have key : ∀ (l : List (Body × BodyDyn n)) (acc : Fin n → ℝ),
      ((l.map fun x => (x.1, ({ x.2 with pose := Q * x.2.pose } : BodyDyn n))).foldlM (init := acc) fun acc x => do
        let A ← assertHom x.2.pose (iadjointBody x.2.pose)
        return acc + x.2.jacᵀ *ᵥ (x.1.mass *ᵥ (A *ᵥ gravityTwist γ (rot Q *ᵥ up))) : Except PyErr (Fin n → ℝ)) =
      l.foldlM (init := acc) fun acc x => do
        let A ← assertHom x.2.pose (iadjointBody x.2.pose)
        return acc + x.2.jacᵀ *ᵥ (x.1.mass *ᵥ (A *ᵥ gravityTwist γ up)) := by
    intro l
    induction l with
    | nil => intro acc; rfl
    | cons x l ih =>
      intro acc
      rw [List.map_cons, List.foldlM_cons, List.foldlM_cons]
      simp only [assertHom_mul hQ]
      by_cases hx : ishomogeneousmatrix x.2.pose
      · have e : iadjointBody (Q * x.2.pose) *ᵥ gravityTwist γ (rot Q *ᵥ up) = iadjointBody x.2.pose *ᵥ gravityTwist γ up := by
          obtain ⟨-, hr⟩ := hx
          have h1 : rot (Q * x.2.pose) = rot Q * rot x.2.pose := by
            ext i j
            fin_cases j <;> simp [rot, Matrix.mul_apply, Fin.sum_univ_four, Fin.sum_univ_three, hr] <;> ring
          have h2 : (rot Q)ᵀ * rot Q = 1 := hQ.1.2.1
          rw [gravityTwist, gravityTwist, iadjointBody_lin, iadjointBody_lin, h1, Matrix.transpose_mul, ← Matrix.mulVec_smul,
            Matrix.mulVec_mulVec, Matrix.mul_assoc, h2, Matrix.mul_one]
        simp only [assertHom, if_pos hx, bind, Except.bind, e]
        exact ih _
      · simp only [assertHom, if_neg hx, bind, Except.bind]
  have hk := key (w.dyn.filter fun x => weightNorm x.1.mass ≠ 0) 0
  simp only [Function.comp_def]
  rw [hk]

/-- the hypotheses of `C90_run` can be met: the top of `C87_example`, moved 3 metres along x, with gravity -/
example (tl : List ℝ) (obs : Observers) :
    simulate (engine (weightPlug 1 Unit (-9.81) ![0, 1, 0])) (place (mkH 1 ![3, 0, 0]) top) tl obs =
      ((simulate (engine (weightPlug 1 Unit (-9.81) ![0, 1, 0])) top tl obs).1.map (seeing (place (mkH 1 ![3, 0, 0]))),
       (simulate (engine (weightPlug 1 Unit (-9.81) ![0, 1, 0])) top tl obs).2.map fun r => (place (mkH 1 ![3, 0, 0]) r.1, r.2)) := by
  have hQ : IsRigid (mkH 1 ![3, 0, 0]) := isRigid_mkH ⟨by simp, by simp, by simp⟩
  have h := C90_weight (n := 1) (σ := Unit) hQ (-9.81) ![0, 1, 0]
  rw [rot_mkH, Matrix.one_mulVec] at h
  exact C90_run hQ h top tl obs

end
end Arboris
