import Verif.Spec.Units
import Verif.Props.Place

/-!
# C91: the units of mass and time do not matter
-/

namespace Arboris
open Matrix Spec Mech Build Sim

noncomputable section

/-- If every method commutes with `f`, time being multiplied by `κ`, so does the simulation. -/
lemma loop_units {W W' : Type*} {E : Engine W} {E' : Engine W'} {f : W → W'} {I : W → Prop} {κ : ℝ} (hκ : 0 < κ)
    (hd : ∀ w, I w → E'.dynamic (f w) = (E.dynamic w).map f ∧ ∀ a, E.dynamic w = .ok a → I a)
    (hc : ∀ dt w, 0 < dt → I w → E'.controllers (κ * dt) (f w) = (E.controllers dt w).map f ∧ ∀ a, E.controllers dt w = .ok a → I a)
    (hs : ∀ dt w, 0 < dt → I w → E'.constraints (κ * dt) (f w) = (E.constraints dt w).map f ∧ ∀ a, E.constraints dt w = .ok a → I a)
    (hg : ∀ dt w, 0 < dt → I w → E'.integrate (κ * dt) (f w) = (E.integrate dt w).map f ∧ ∀ a, E.integrate dt w = .ok a → I a)
    (k : ℕ) (tl : List ℝ) (tr : List (Ev W)) (w : W) (t : ℝ) (hI : I w) :
    loop E' k (tl.map (κ * ·)) (tr.map (seenAt κ f)) (f w) (κ * t) =
      ((loop E k tl tr w t).1.map (seenAt κ f), (loop E k tl tr w t).2.map fun r => (f r.1, κ * r.2)) := by
  induction tl generalizing tr w t with
  | nil => rfl
  | cons next rest ih =>
    have e1 : κ * next - κ * t = κ * (next - t) := by ring
    have e2 : (0 < κ * (next - t)) = (0 < next - t) := propext ⟨fun h => pos_of_mul_pos_right h hκ.le, fun h => mul_pos hκ h⟩
    simp only [loop, call, (hd w hI).1, List.map_cons, e1, e2]
    have hI2 := (hd w hI).2
    cases ha : E.dynamic w with
    | error e => simp only [except_map_error, List.map_append]; rfl
    | ok a =>
    have hIa := hI2 a ha
    simp only [except_map_ok]
    by_cases hdt : 0 < next - t
    swap
    · simp only [if_neg hdt, except_map_error, List.map_append]; rfl
    simp only [if_pos hdt, (hc _ _ hdt hIa).1]
    have hI3 := (hc _ _ hdt hIa).2
    cases hb : E.controllers (next - t) a with
    | error e => simp only [except_map_error, List.map_append]; rfl
    | ok b =>
    have hIb := hI3 b hb
    simp only [except_map_ok, (hs _ _ hdt hIb).1]
    have hI4 := (hs _ _ hdt hIb).2
    cases hcc : E.constraints (next - t) b with
    | error e => simp only [except_map_error, List.map_append]; rfl
    | ok c =>
    have hIc := hI4 c hcc
    simp only [except_map_ok, (hg _ _ hdt hIc).1]
    have hI5 := (hg _ _ hdt hIc).2
    cases hdd : E.integrate (next - t) c with
    | error e =>
      simp only [except_map_error, List.map_append, List.map_map]
      rfl
    | ok d =>
      simp only [except_map_ok]
      rw [← ih _ _ _ (hI5 d hdd), show κ * t + κ * (next - t) = κ * (t + (next - t)) by ring]
      simp only [List.map_append, List.map_map]
      rfl

lemma simulate_units {W W' : Type*} {E : Engine W} {E' : Engine W'} {f : W → W'} {I : W → Prop} {κ : ℝ} (hκ : 0 < κ)
    (hi : ∀ w, I w → E'.init (f w) = (E.init w).map f ∧ ∀ a, E.init w = .ok a → I a)
    (hd : ∀ w, I w → E'.dynamic (f w) = (E.dynamic w).map f ∧ ∀ a, E.dynamic w = .ok a → I a)
    (hc : ∀ dt w, 0 < dt → I w → E'.controllers (κ * dt) (f w) = (E.controllers dt w).map f ∧ ∀ a, E.controllers dt w = .ok a → I a)
    (hs : ∀ dt w, 0 < dt → I w → E'.constraints (κ * dt) (f w) = (E.constraints dt w).map f ∧ ∀ a, E.constraints dt w = .ok a → I a)
    (hg : ∀ dt w, 0 < dt → I w → E'.integrate (κ * dt) (f w) = (E.integrate dt w).map f ∧ ∀ a, E.integrate dt w = .ok a → I a)
    (w : W) (hI : I w) (tl : List ℝ) (obs : Observers) :
    simulate E' (f w) (tl.map (κ * ·)) obs =
      ((simulate E w tl obs).1.map (seenAt κ f), (simulate E w tl obs).2.map fun r => (f r.1, κ * r.2)) := by
  cases tl with
  | nil => rfl
  | cons t0 rest =>
    simp only [simulate, call, (hi w hI).1, List.map_cons]
    have hI2 := (hi w hI).2
    cases ha : E.init w with
    | error e => rfl
    | ok a =>
      simp only [except_map_ok]
      have h := loop_units hκ hd hc hs hg obs.later rest
        ([] ++ [Ev.worldInit] ++ (List.range obs.first).map fun i => Ev.obsInit i t0 a (t0 :: rest)) a t0 (hI2 a ha)
      have e : ([] ++ [Ev.worldInit] ++ (List.range obs.first).map fun i => Ev.obsInit i (κ * t0) (f a) (κ * t0 :: rest.map (κ * ·))) =
          ([] ++ [Ev.worldInit] ++ (List.range obs.first).map fun i => Ev.obsInit i t0 a (t0 :: rest)).map (seenAt κ f) := by
        simp only [List.map_append, List.map_map]
        rfl
      rw [e, h]
      cases loop E obs.later rest ([] ++ [Ev.worldInit] ++ (List.range obs.first).map fun i => Ev.obsInit i t0 a (t0 :: rest)) a t0 with
      | mk tr r =>
        cases r with
        | error x => rfl
        | ok r =>
          simp only [except_map_ok, List.map_append, List.map_map]
          rfl

/-! ### the tree -/

lemma adjacency_smul (r : ℝ) (T : Vec6) : adjacency (r • T) = r • adjacency T := by
  ext i j
  fin_cases i <;> fin_cases j <;> simp [adjacency]

lemma addCols_smul {n : ℕ} (r : ℝ) (A : Matrix (Fin 6) (Fin n) ℝ) (s k : ℕ) (B : Matrix (Fin 6) (Fin k) ℝ) :
    addCols (r • A) s k (r • B) = r • addCols A s k B := by
  ext i c
  simp only [addCols, Matrix.of_apply, Matrix.smul_apply]
  split <;> simp [mul_add]

/-- joints that differ by the unit of time -/
structure SameJoint {k : ℕ} (r : ℝ) (j j' : JointVal k) : Prop where
  pose : j'.pose = j.pose
  ipose : j'.ipose = j.ipose
  twist : j'.twist = r • j.twist
  jac : j'.jac = j.jac
  djac : j'.djac = r • j.djac

lemma dynStepE_units {n k : ℕ} {κ : ℝ} {j j' : JointVal k} (h : SameJoint κ⁻¹ j j') (s : BodyDyn n) (st : ℕ) (b0 b1 : Mat4) :
    dynStepE (dynUnits κ s) ⟨k, st, j', b0, b1⟩ = (dynStepE s ⟨k, st, j, b0, b1⟩).map (dynUnits κ) := by
  classical
  rw [dynStepE_iff, dynStepE_iff]
  have e : linkOk ⟨k, st, j', b0, b1⟩ ↔ linkOk ⟨k, st, j, b0, b1⟩ := by
    simp only [linkOk, h.pose, h.ipose]
  simp only [e]
  split
  · rw [except_map_ok]
    simp only [dynStep, dynUnits, h.pose, h.twist, h.jac, h.djac, JointVal.idadjoint, JointVal.itwist, JointVal.iadjoint, h.ipose,
      Matrix.mulVec_smul, ← smul_neg, adjacency_smul, Matrix.mul_smul, Matrix.smul_mul, ← smul_add, addCols_smul]
  · rfl

lemma djac_smul (k : LinKind) (r : ℝ) (q dq : Fin k.ndof → ℝ) : k.djac q (r • dq) = r • k.djac q dq := by
  obtain ⟨e, he, hd⟩ : ∃ e, e = r • dq ∧ ∀ x, e x = r * dq x := ⟨_, rfl, fun _ => rfl⟩
  rw [← he]
  cases k with
  | RzRyRx =>
    change Fin 3 → ℝ at q dq e
    change ∀ x : Fin 3, e x = r * dq x at hd
    clear he
    simp only [LinKind.djac]
    ext i (j : Fin 3)
    change _ = r * _
    fin_cases i <;> fin_cases j <;> simp [hd] <;> ring
  | RzRy =>
    change Fin 2 → ℝ at q dq e
    change ∀ x : Fin 2, e x = r * dq x at hd
    clear he
    simp only [LinKind.djac]
    ext i (j : Fin 2)
    change _ = r * _
    fin_cases i <;> fin_cases j <;> simp [hd] <;> ring
  | RzRx =>
    change Fin 2 → ℝ at q dq e
    change ∀ x : Fin 2, e x = r * dq x at hd
    clear he
    simp only [LinKind.djac]
    ext i (j : Fin 2)
    change _ = r * _
    fin_cases i <;> fin_cases j <;> simp [hd] <;> ring
  | RyRx =>
    change Fin 2 → ℝ at q dq e
    change ∀ x : Fin 2, e x = r * dq x at hd
    clear he
    simp only [LinKind.djac]
    ext i (j : Fin 2)
    change _ = r * _
    fin_cases i <;> fin_cases j <;> simp [hd] <;> ring
  | _ => simp [LinKind.djac]

lemma linkUnits_step {n : ℕ} (κ : ℝ) (s : BodyDyn n) (l : MLink) :
    dynStepE (dynUnits κ s) (linkUnits κ l).link = (dynStepE s l.link).map (dynUnits κ) := by
  obtain ⟨att, st, b0, b1⟩ := l
  cases att with
  | lin k q dq =>
    exact dynStepE_units (j := k.val q dq) (j' := k.val q (κ⁻¹ • dq))
      ⟨rfl, rfl, by simp [LinKind.val, Matrix.mulVec_smul], rfl, djac_smul k _ q dq⟩ s st b0 b1
  | free H T =>
    exact dynStepE_units (j := freeVal H T) (j' := freeVal H (κ⁻¹ • T)) ⟨rfl, rfl, rfl, rfl, by simp [freeVal]⟩ s st b0 b1
  | fixed => exact dynStepE_units (j := fixedVal) (j' := fixedVal) ⟨rfl, rfl, by simp [fixedVal], rfl, by simp [fixedVal]⟩ s st b0 b1

lemma updateDynamicE_units {n : ℕ} (μ κ : ℝ) (F : Forest MLink Body) (s : BodyDyn n) :
    updateDynamicE (dynUnits κ s) ((F.map (linkUnits κ) (bodyUnits μ κ)).map MLink.link id) =
      (updateDynamicE s (F.map MLink.link id)).map fun d => d.map fun x => (bodyUnits μ κ x.1, dynUnits κ x.2) := by
  induction F generalizing s with
  | nil => rfl
  | cons l b ch sib ih1 ih2 =>
    simp only [Forest.map]
    unfold updateDynamicE
    rw [linkUnits_step]
    cases dynStepE s l.link with
    | error e => rfl
    | ok a1 =>
    simp only [except_map_ok, bind, Except.bind]
    rw [ih1, ih2]
    cases updateDynamicE a1 (ch.map MLink.link id) with
    | error e => rfl
    | ok a2 =>
    simp only [except_map_ok]
    cases updateDynamicE s (sib.map MLink.link id) with
    | error e => rfl
    | ok a3 =>
    simp only [except_map_ok, pure, Except.pure, List.map_cons, List.map_append, id]

lemma bodyNleffects_units {μ : ℝ} (hμ : 0 < μ) (r : ℝ) (M : Mat6) (T : Vec6) (h : μ * M 5 5 ≤ 1e-10 ↔ M 5 5 ≤ 1e-10) :
    bodyNleffects (μ • M) (r • T) = (μ * r) • bodyNleffects M T := by
  have e1 : skew (ang (r • T)) = r • skew (ang T) := by
    ext i j; fin_cases i <;> fin_cases j <;> simp [skew, ang]
  have e2 : b12 (μ • M) = μ • b12 M := by
    ext i j; simp [b12]
  have e3 : (if (μ • M) 5 5 ≤ (1e-10 : ℝ) then 0 else ((μ • M) 5 5)⁻¹ • b12 (μ • M)) =
      (if M 5 5 ≤ (1e-10 : ℝ) then 0 else (M 5 5)⁻¹ • b12 M) := by
    simp only [Matrix.smul_apply, smul_eq_mul, e2, smul_smul]
    by_cases hm : M 5 5 ≤ 1e-10
    · rw [if_pos hm, if_pos (h.mpr hm)]
    · rw [if_neg hm, if_neg fun h' => hm (h.mp h')]
      congr 1
      rw [mul_inv, mul_right_comm, inv_mul_cancel₀ hμ.ne', one_mul]
  unfold bodyNleffects
  simp only
  rw [e3, e1]
  have e4 : ∀ (X A : Mat3), blk (r • A) (X * r • A - r • A * X) 0 (r • A) = r • blk A (X * A - A * X) 0 A := by
    intro X A
    rw [Matrix.mul_smul, Matrix.smul_mul, ← smul_sub]
    ext i j
    simp only [blk, Matrix.smul_apply, Matrix.submatrix_apply]
    rcases e6.symm i with i | i <;> rcases e6.symm j with j | j <;> simp
  rw [e4, Matrix.smul_mul, Matrix.mul_smul, smul_smul, mul_comm r μ]

lemma world_units {n : ℕ} {μ : ℝ} (hμ : 0 < μ) (κ : ℝ) (d : List (Body × BodyDyn n)) (h : ∀ x ∈ d, SameSide μ x.1) :
    worldMass (d.map fun x => (bodyUnits μ κ x.1, dynUnits κ x.2)) = μ • worldMass d ∧
    worldViscosity (d.map fun x => (bodyUnits μ κ x.1, dynUnits κ x.2)) = (μ * κ⁻¹) • worldViscosity d ∧
    worldNleffects (d.map fun x => (bodyUnits μ κ x.1, dynUnits κ x.2)) = (μ * κ⁻¹) • worldNleffects d := by
  simp only [worldMass_eq, worldViscosity_eq, worldNleffects_eq, List.map_map]
  refine ⟨?_, ?_, ?_⟩
  · rw [List.smul_sum, List.map_map]
    congr 1
    apply List.map_congr_left
    intro x _
    simp only [Function.comp, bodyUnits, dynUnits, Matrix.mul_smul, Matrix.smul_mul]
  · rw [List.smul_sum, List.map_map]
    congr 1
    apply List.map_congr_left
    intro x _
    simp only [Function.comp, bodyUnits, dynUnits, Matrix.mul_smul, Matrix.smul_mul]
  · rw [List.smul_sum, List.map_map]
    congr 1
    apply List.map_congr_left
    intro x hx
    simp only [Function.comp, bodyUnits, dynUnits, bodyNleffects_units hμ κ⁻¹ x.1.mass x.2.twist (h x hx), Matrix.mul_smul,
      Matrix.smul_mul, smul_smul]
    rw [mul_comm κ⁻¹ μ, ← smul_add, Matrix.mul_smul]

lemma mem_bodies_of_dynamic {n : ℕ} {F : Forest Link Body} {s : BodyDyn n} {x : Body × BodyDyn n} (h : x ∈ updateDynamic s F) :
    x.1 ∈ F.bodies := by
  induction F generalizing s with
  | nil => cases h
  | cons l b ch sib ih1 ih2 =>
    simp only [updateDynamic, List.mem_cons, List.mem_append] at h
    simp only [Forest.bodies, List.cons_append, List.mem_cons, List.mem_append]
    rcases h with rfl | h | h
    · exact Or.inl rfl
    · exact Or.inr (Or.inl (ih1 h))
    · exact Or.inr (Or.inr (ih2 h))

lemma bodies_map_link {L L' : Type} (f : L → L') (F : Forest L Body) : (F.map f id).bodies = F.bodies := by
  induction F with
  | nil => rfl
  | cons l b ch sib ih1 ih2 => simp only [Forest.map, Forest.bodies, ih1, ih2, id]

/-- the worlds considered -/
def UnitsOk {n : ℕ} {σ : Type} (μ : ℝ) (w : MWorld n σ) : Prop := w.cons = [] ∧ ∀ b ∈ w.tree.bodies, SameSide μ b

lemma dynamic_units {n : ℕ} {σ : Type} {μ : ℝ} (hμ : 0 < μ) (κ : ℝ) (w : MWorld n σ) (hw : UnitsOk μ w) :
    dynamic (units μ κ w) = (dynamic w).map (units μ κ) ∧ ∀ a, dynamic w = .ok a → UnitsOk μ a := by
  unfold dynamic
  have h0 : groundDyn n = dynUnits κ (groundDyn n) := by simp [groundDyn, dynUnits]
  have h := updateDynamicE_units μ κ w.tree (groundDyn n)
  rw [← h0] at h
  have hu : (units μ κ w).tree = w.tree.map (linkUnits κ) (bodyUnits μ κ) := rfl
  rw [hu, h]
  cases hd : updateDynamicE (groundDyn n) (w.tree.map MLink.link id) with
  | error e => exact ⟨rfl, fun a h => by cases h⟩
  | ok d =>
    obtain rfl := updateDynamicE_eq hd
    have hs : ∀ x ∈ updateDynamic (groundDyn n) (w.tree.map MLink.link id), SameSide μ x.1 := fun x hx =>
      hw.2 _ (by simpa [bodies_map_link] using mem_bodies_of_dynamic hx)
    obtain ⟨h1, h2, h3⟩ := world_units hμ κ _ hs
    simp only [except_map_ok, h1, h2, h3]
    exact ⟨rfl, fun a h => by rw [← Except.ok.inj h]; exact hw⟩

/-! ### `init` -/

lemma jointUnits_ndof (κ : ℝ) (j : JAttr) : (jointUnits κ j).ndof = j.ndof := by cases j <;> rfl

lemma number_units (μ κ : ℝ) (s : ℕ) (F : Forest MLink Body) :
    number s (F.map (linkUnits κ) (bodyUnits μ κ)) = ((number s F).1.map (linkUnits κ) (bodyUnits μ κ), (number s F).2) := by
  induction F generalizing s with
  | nil => rfl
  | cons l b ch sib ih1 ih2 =>
    have e : (linkUnits κ l).att.ndof = l.att.ndof := jointUnits_ndof κ l.att
    simp only [Forest.map, number, e, ih1, ih2]
    rfl

lemma bodies_number (s : ℕ) (F : Forest MLink Body) : (number s F).1.bodies = F.bodies := by
  induction F generalizing s with
  | nil => rfl
  | cons l b ch sib ih1 ih2 => simp only [number, Forest.bodies, ih1, ih2]

lemma vel_units (κ : ℝ) (j : JAttr) (i : ℕ) : (jointUnits κ j).vel i = κ⁻¹ * j.vel i := by
  cases j with
  | lin k q dq => simp only [jointUnits, JAttr.vel]; split <;> simp
  | free H T => simp only [jointUnits, JAttr.vel]; split <;> simp
  | fixed => simp [jointUnits, JAttr.vel]

lemma links_units (μ κ : ℝ) (F : Forest MLink Body) : (F.map (linkUnits κ) (bodyUnits μ κ)).links = F.links.map (linkUnits κ) := by
  induction F with
  | nil => rfl
  | cons l b ch sib ih1 ih2 => simp only [Forest.map, Forest.links, List.map_append, List.map_cons, ih1, ih2, List.cons_append]

lemma gather_units {n : ℕ} (κ : ℝ) (ls : List MLink) : (gather (ls.map (linkUnits κ)) : Fin n → ℝ) = κ⁻¹ • gather ls := by
  have key : ∀ acc : Fin n → ℝ, (ls.map (linkUnits κ)).foldl
      (fun acc l d => if l.start ≤ d.val ∧ d.val < l.start + l.att.ndof then l.att.vel (d.val - l.start) else acc d) (κ⁻¹ • acc) =
      κ⁻¹ • ls.foldl (fun acc l d => if l.start ≤ d.val ∧ d.val < l.start + l.att.ndof then l.att.vel (d.val - l.start) else acc d) acc := by
    induction ls with
    | nil => intro acc; rfl
    | cons l ls ih =>
      intro acc
      rw [List.map_cons, List.foldl_cons, List.foldl_cons, ← ih]
      congr 1
      funext d
      simp only [linkUnits, jointUnits_ndof, vel_units, Pi.smul_apply, smul_eq_mul]
      split <;> rfl
  have := key 0
  rw [smul_zero] at this
  exact this

lemma init_units {n : ℕ} {σ : Type} (μ κ : ℝ) (w : MWorld n σ) (hw : UnitsOk μ w) :
    Mech.init (units μ κ w) = (Mech.init w).map (units μ κ) ∧ ∀ a, Mech.init w = .ok a → UnitsOk μ a := by
  refine ⟨?_, fun a h => ?_⟩
  · simp only [Mech.init, units, number_units, except_map_ok, links_units, gather_units, smul_zero]
  · rw [← Except.ok.inj h]
    exact ⟨hw.1, by simpa [bodies_number] using hw.2⟩

/-! ### controllers, integration -/

lemma updateControllers_units {n : ℕ} {μ κ : ℝ} (hμ : 0 < μ) (hκ : 0 < κ) (mass visc nle : Matrix (Fin n) (Fin n) ℝ) {dt : ℝ}
    (hdt : 0 < dt) (vals : List (CtrlVal n)) :
    updateControllers (μ • mass) ((μ * κ⁻¹) • visc) ((μ * κ⁻¹) • nle) (κ * dt) (vals.map (ctrlUnits μ κ)) =
      (updateControllers mass visc nle dt vals).map fun o =>
        ⟨(μ * κ⁻¹ * κ⁻¹) • o.gforce, (μ * κ⁻¹) • o.impedance, (μ * κ⁻¹)⁻¹ • o.admittance⟩ := by
  have hr : μ * κ⁻¹ ≠ 0 := mul_ne_zero hμ.ne' (inv_ne_zero hκ.ne')
  simp only [updateControllers, if_pos hdt, if_pos (mul_pos hκ hdt), sumControllers_eq, zero_add, List.map_map]
  have e1 : (vals.map ((fun x => x.gforce) ∘ ctrlUnits μ κ)).sum = (μ * κ⁻¹ * κ⁻¹) • (vals.map (·.gforce)).sum := by
    rw [List.smul_sum, List.map_map]; rfl
  have e2 : (vals.map ((fun x => x.impedance) ∘ ctrlUnits μ κ)).sum = (μ * κ⁻¹) • (vals.map (·.impedance)).sum := by
    rw [List.smul_sum, List.map_map]; rfl
  have e3 : (κ * dt)⁻¹ • μ • mass + (μ * κ⁻¹) • visc + (μ * κ⁻¹) • nle - (vals.map ((fun x => x.impedance) ∘ ctrlUnits μ κ)).sum =
      (μ * κ⁻¹) • (dt⁻¹ • mass + visc + nle - (vals.map (·.impedance)).sum) := by
    rw [e2, smul_sub, smul_add, smul_add, smul_smul, smul_smul, show (κ * dt)⁻¹ * μ = μ * κ⁻¹ * dt⁻¹ by rw [mul_inv]; ring]
  rw [e1, e3]
  generalize dt⁻¹ • mass + visc + nle - (vals.map (·.impedance)).sum = Z
  have hdet : ((μ * κ⁻¹) • Z).det = 0 ↔ Z.det = 0 := by
    rw [Matrix.det_smul]
    simp [hr]
  by_cases hz : Z.det = 0
  · rw [if_pos hz, if_pos (hdet.mpr hz)]; rfl
  · rw [if_neg hz, if_neg fun h => hz (hdet.mp h), except_map_ok]
    congr 2
    apply Matrix.inv_eq_left_inv
    rw [Matrix.smul_mul, Matrix.mul_smul, smul_smul, inv_mul_cancel₀ hr, one_smul, Matrix.nonsing_inv_mul _ (isUnit_iff_ne_zero.mpr hz)]

lemma controllers_units {n : ℕ} {σ : Type} {μ κ : ℝ} (hμ : 0 < μ) (hκ : 0 < κ) {P P' : Plug n σ} (hP : SameControl μ κ P P') {dt : ℝ}
    (hdt : 0 < dt) (w : MWorld n σ) (hw : UnitsOk μ w) :
    controllers P' (κ * dt) (units μ κ w) = (controllers P dt w).map (units μ κ) ∧ ∀ a, controllers P dt w = .ok a → UnitsOk μ a := by
  unfold controllers
  rw [hP w dt]
  cases P.ctrl w dt with
  | error e => exact ⟨rfl, fun a h => by cases h⟩
  | ok r =>
    simp only [except_map_ok]
    have h := updateControllers_units hμ hκ w.mass w.viscosity w.nleffects hdt r.2
    have e : updateControllers (units μ κ w).mass (units μ κ w).viscosity (units μ κ w).nleffects (κ * dt) (r.2.map (ctrlUnits μ κ)) = _ := h
    rw [e]
    cases updateControllers w.mass w.viscosity w.nleffects dt r.2 with
    | error e => exact ⟨rfl, fun a h => by cases h⟩
    | ok o => exact ⟨rfl, fun a h => by rw [← Except.ok.inj h]; exact hw⟩

lemma part_smul {n : ℕ} (r : ℝ) (v : Fin n → ℝ) (s i : ℕ) : part (r • v) s i = r * part v s i := by
  simp only [part]; split <;> simp

lemma advance_units {n : ℕ} {κ : ℝ} (hκ : κ ≠ 0) (v : Fin n → ℝ) (dt : ℝ) (l : MLink) :
    advance (κ⁻¹ • v) (κ * dt) (linkUnits κ l) = linkUnits κ (advance v dt l) := by
  obtain ⟨att, st, b0, b1⟩ := l
  have e : ∀ {m : ℕ}, (fun i : Fin m => part (κ⁻¹ • v) st i.val) = κ⁻¹ • fun i : Fin m => part v st i.val := by
    intro m; funext i; simp [part_smul]
  have e2 : κ * dt * κ⁻¹ = dt := by field_simp
  cases att with
  | lin k q dq => simp only [advance, linkUnits, jointUnits, JAttr.integrate, e, linIntegrate, smul_smul, e2]
  | free H T => simp only [advance, linkUnits, jointUnits, JAttr.integrate, e, freeIntegrate, smul_smul, e2]
  | fixed => rfl

lemma integrate_units {n : ℕ} {σ : Type} {μ κ : ℝ} (hμ : 0 < μ) (hκ : 0 < κ) {dt : ℝ} (hdt : 0 < dt) (w : MWorld n σ)
    (hw : UnitsOk μ w) :
    Mech.integrate (κ * dt) (units μ κ w) = (Mech.integrate dt w).map (units μ κ) ∧ ∀ a, Mech.integrate dt w = .ok a → UnitsOk μ a := by
  simp only [Mech.integrate, integrateGvel, if_pos hdt, if_pos (mul_pos hκ hdt)]
  have e : (units μ κ w).ctrl.admittance *ᵥ ((units μ κ w).mass *ᵥ ((κ * dt)⁻¹ • (units μ κ w).gvel) + (units μ κ w).ctrl.gforce) =
      κ⁻¹ • (w.ctrl.admittance *ᵥ (w.mass *ᵥ (dt⁻¹ • w.gvel) + w.ctrl.gforce)) := by
    simp only [units, Matrix.smul_mulVec, Matrix.mulVec_smul, smul_smul, Matrix.mulVec_add, smul_add]
    have hr : μ ≠ 0 := hμ.ne'
    have hk : κ ≠ 0 := hκ.ne'
    congr 2
    all_goals field_simp
  refine ⟨?_, fun a h => ?_⟩
  · rw [e]
    simp only [except_map_ok]
    congr 1
    simp only [units]
    congr 1
    rw [forest_map_map, forest_map_map]
    have : ∀ F : Forest MLink Body, F.map (advance (κ⁻¹ • (w.ctrl.admittance *ᵥ (w.mass *ᵥ (dt⁻¹ • w.gvel) + w.ctrl.gforce))) (κ * dt) ∘ linkUnits κ)
        (id ∘ bodyUnits μ κ) = F.map (linkUnits κ ∘ advance (w.ctrl.admittance *ᵥ (w.mass *ᵥ (dt⁻¹ • w.gvel) + w.ctrl.gforce)) dt)
        (bodyUnits μ κ ∘ id) := by
      intro F
      induction F with
      | nil => rfl
      | cons l b ch sib ih1 ih2 => simp only [Forest.map, ih1, ih2, Function.comp, id, advance_units hκ.ne']
    exact this w.tree
  · rw [← Except.ok.inj h]
    exact ⟨hw.1, by simpa [bodies_map_link] using hw.2⟩

/-- C91, proved part: the choice of the units of mass and time does not matter: for every world without constraints (even
one whose simulation fails) where no body is on one side of the threshold 1e-10 for its mass in the old unit and on the other
in the new one, the simulation in the new units of the same world with the same controllers is the same simulation: same
calls at the same times, same exceptions, same worlds shown.  Missing: bodies crossing the threshold (`C91_false`). -/
theorem C91_run_partial {n : ℕ} {σ : Type} {μ κ : ℝ} (hμ : 0 < μ) (hκ : 0 < κ) {P P' : Plug n σ} (hP : SameControl μ κ P P') (w : MWorld n σ)
    (hc : w.cons = []) (hb : ∀ b ∈ w.tree.bodies, SameSide μ b) (tl : List ℝ) (obs : Observers) :
    simulate (engine P') (units μ κ w) (tl.map (κ * ·)) obs =
      ((simulate (engine P) w tl obs).1.map (seenAt κ (units μ κ)),
       (simulate (engine P) w tl obs).2.map fun r => (units μ κ r.1, κ * r.2)) := by
  refine simulate_units (I := UnitsOk μ) hκ (init_units μ κ) (dynamic_units hμ κ) 
    (fun dt w hdt hw => controllers_units hμ hκ hP hdt w hw) (fun dt w hdt hw => ?_)
    (fun dt w hdt hw => integrate_units hμ hκ hdt w hw) w ⟨hc, hb⟩ tl obs
  simp only [engine, constraints_none P hdt w hw.1, constraints_none P' (mul_pos hκ hdt) (units μ κ w) hw.1]
  exact ⟨rfl, fun a h => by rw [← Except.ok.inj h]; exact hw⟩


/-- C91: gravity: in the new units the acceleration of gravity is divided by `κ²`, and a `WeightController` does what it did. -/
theorem C91_weight {n : ℕ} {σ : Type} {μ κ : ℝ} (hμ : 0 < μ) (γ : ℝ) (up : Vec3) :
    SameControl μ κ (weightPlug n σ γ up) (weightPlug n σ (γ * κ⁻¹ * κ⁻¹) up) := by
  classical
  intro w dt
  simp only [weightPlug]
  have hnorm : ∀ b : Body, weightNorm (bodyUnits μ κ b).mass = weightNorm b.mass := by
    intro b
    simp only [weightNorm, bodyUnits, Matrix.smul_apply, smul_eq_mul, mul_pos_iff_of_pos_left hμ]
  suffices h : weightUpdateE (γ * κ⁻¹ * κ⁻¹) up (units μ κ w).dyn = (weightUpdateE γ up w.dyn).map (ctrlUnits μ κ) by
    rw [h]
    cases weightUpdateE γ up w.dyn <;> rfl
  have key : ∀ (l : List (Body × BodyDyn n)) (acc : Fin n → ℝ),
      ((l.map fun x => (bodyUnits μ κ x.1, dynUnits κ x.2)).foldlM (init := (μ * κ⁻¹ * κ⁻¹) • acc) fun acc x => do
        let A ← iadjoint x.2.pose
        return acc + x.2.jacᵀ *ᵥ (x.1.mass *ᵥ (A *ᵥ gravityTwist (γ * κ⁻¹ * κ⁻¹) up)) : Except PyErr (Fin n → ℝ)) =
      (l.foldlM (init := acc) fun acc x => do
        let A ← iadjoint x.2.pose
        return acc + x.2.jacᵀ *ᵥ (x.1.mass *ᵥ (A *ᵥ gravityTwist γ up)) : Except PyErr (Fin n → ℝ)).map ((μ * κ⁻¹ * κ⁻¹) • ·) := by
    intro l
    induction l with
    | nil => intro acc; rfl
    | cons x l ih =>
      intro acc
      rw [List.map_cons, List.foldlM_cons, List.foldlM_cons]
      have e1 : (dynUnits κ x.2).pose = x.2.pose := rfl
      simp only [e1]
      cases iadjoint x.2.pose with
      | error e => rfl
      | ok A =>
        have e : (μ * κ⁻¹ * κ⁻¹) • acc + (dynUnits κ x.2).jacᵀ *ᵥ ((bodyUnits μ κ x.1).mass *ᵥ (A *ᵥ gravityTwist (γ * κ⁻¹ * κ⁻¹) up)) =
            (μ * κ⁻¹ * κ⁻¹) • (acc + x.2.jacᵀ *ᵥ (x.1.mass *ᵥ (A *ᵥ gravityTwist γ up))) := by
          have hg : gravityTwist (γ * κ⁻¹ * κ⁻¹) up = (κ⁻¹ * κ⁻¹) • gravityTwist γ up := by
            funext i
            simp only [gravityTwist, tw, Pi.smul_apply, smul_eq_mul]
            rcases e6.symm i with i | i <;> simp <;> ring
          rw [hg, smul_add]
          simp only [dynUnits, bodyUnits, Matrix.mulVec_smul, Matrix.smul_mulVec, smul_smul]
          congr 2
          ring
        simp only [bind, Except.bind, pure, Except.pure, e]
        exact ih _
  have hk := key (w.dyn.filter fun x => weightNorm x.1.mass ≠ 0) 0
  rw [smul_zero] at hk
  have hf : (units μ κ w).dyn.filter (fun x => decide (weightNorm x.1.mass ≠ 0)) =
      (w.dyn.filter fun x => decide (weightNorm x.1.mass ≠ 0)).map fun x => (bodyUnits μ κ x.1, dynUnits κ x.2) := by
    simp only [units, List.filter_map, Function.comp_def, hnorm]
  unfold weightUpdateE
  simp only [hf]
  rw [hk]
  generalize List.foldlM (m := Except PyErr) _ (0 : Fin n → ℝ) (w.dyn.filter fun x => decide (weightNorm x.1.mass ≠ 0)) = r
  cases r with
  | error e => rfl
  | ok v => simp only [except_map_ok, bind, Except.bind, pure, Except.pure, ctrlUnits, smul_zero]

/-- the hypotheses of `C91_run_partial` can be met: the top of `C87_example` under gravity, in kilograms and seconds, then in
grams and milliseconds -/
example (tl : List ℝ) (obs : Observers) :
    simulate (engine (weightPlug 1 Unit (-9.81 * 1000⁻¹ * 1000⁻¹) ![0, 1, 0])) (units 1000 1000 top) (tl.map (1000 * ·)) obs =
      ((simulate (engine (weightPlug 1 Unit (-9.81) ![0, 1, 0])) top tl obs).1.map (seenAt 1000 (units 1000 1000)),
       (simulate (engine (weightPlug 1 Unit (-9.81) ![0, 1, 0])) top tl obs).2.map fun r => (units 1000 1000 r.1, 1000 * r.2)) := by
  refine C91_run_partial (by norm_num) (by norm_num) (C91_weight (by norm_num) _ _) top rfl ?_ tl obs
  intro b hb
  simp only [top, topTree, Forest.bodies, List.append_nil, List.mem_singleton] at hb
  subst hb
  simp only [SameSide, Matrix.one_apply_eq]
  norm_num

/-! ### the threshold -/

/-- C91, the full claim for `world.update_dynamic()`: in other units it computes the same matrices. -/
def C91_Claim : Prop :=
  ∀ (n : ℕ) (w : MWorld n Unit) (μ κ : ℝ), 0 < μ → 0 < κ → dynamic (units μ κ w) = (dynamic w).map (units μ κ)

/-- a very light body (1e-11 kg) whose centre of mass is not at its origin, spinning freely -/
def dustBody : Body := ⟨blk 1 ((1e-11 : ℝ) • skew ![1, 0, 0]) (-((1e-11 : ℝ) • skew ![1, 0, 0])) ((1e-11 : ℝ) • 1), 0⟩
/-- its tree -/
def dustTree (b : Body) (T : Vec6) : Forest MLink Body := .cons ⟨.free 1 T, 0, 1, 1⟩ b .nil .nil
/-- its world -/
def dust : MWorld 6 Unit := ⟨dustTree dustBody (tw ![0, 1, 0] 0), 0, [], 0, 0, 0, ⟨0, 0, 0⟩, [], ()⟩

lemma dust_dynamic (b : Body) (T : Vec6) :
    ∃ p, updateDynamicE (groundDyn 6) ((dustTree b T).map MLink.link id) = .ok [(b, ⟨p, 1, 0, T⟩)] := by
  have hinv : invBody (1 : Mat4) = 1 := by
    have := isRigid_one.invBody_mul; simpa using this
  have had : adjointBody (1 : Mat4) = 1 := by
    have : (1 : Mat4) = mkH 1 0 := mkH_one.symm
    rw [this, adjointBody_mkH]
    simp [skew_zero, blk_one]
  have hval : ∀ l ∈ ((dustTree b T).map MLink.link id).links, ValidLink l := by
    intro l hl
    simp only [dustTree, Forest.map, Forest.links, List.append_nil, List.mem_singleton] at hl
    subst hl
    exact Spec.RigidLink.valid ⟨isRigid_one, isRigid_one, fun H T h => by cases h; exact isRigid_one⟩
  have h1 := (C20_no_assertion 6 _ hval).2
  refine ⟨1, h1.trans ?_⟩
  have hJ : addCols (0 : Matrix (Fin 6) (Fin 6) ℝ) 0 6 1 = 1 := by
    ext i c
    have := c.isLt
    simp only [addCols, Matrix.of_apply, Matrix.zero_apply, zero_add]
    rw [dif_pos (by omega)]
    congr 1
  have hdJ : addCols (0 : Matrix (Fin 6) (Fin 6) ℝ) 0 6 0 = 0 := by
    ext i c
    simp [addCols]
  have hstep : dynStep (groundDyn 6) ⟨6, 0, freeVal 1 T, 1, 1⟩ = ⟨1, 1, 0, T⟩ := by
    simp only [dynStep, groundDyn, freeVal, had, hinv, Matrix.one_mul, Matrix.mul_zero, add_zero, iadjointBody,
      Matrix.one_mulVec, Matrix.mulVec_zero, zero_add, hJ, hdJ]
  exact congrArg (fun d => (Except.ok [(b, d)] : Except PyErr (List (Body × BodyDyn 6)))) hstep

/-- C91: the full claim is false: `update_dynamic` ignores the position of the centre of mass of bodies lighter than 1e-10, so
the effects of rotation on a body of 1e-11 kg are not those on the same body of 1e-8 g. -/
theorem C91_false : ¬ C91_Claim := by
  intro h
  have h := h 6 dust 1000 1 (by norm_num) (by norm_num)
  obtain ⟨p, hp⟩ := dust_dynamic dustBody (tw ![0, 1, 0] 0)
  obtain ⟨p', hp'⟩ := dust_dynamic (bodyUnits 1000 1 dustBody) ((1 : ℝ)⁻¹ • tw ![0, 1, 0] 0)
  have ht : (units 1000 1 dust).tree = dustTree (bodyUnits 1000 1 dustBody) ((1 : ℝ)⁻¹ • tw ![0, 1, 0] 0) := rfl
  have hd : dust.tree = dustTree dustBody (tw ![0, 1, 0] 0) := rfl
  simp only [dynamic, ht, hd, hp, hp', except_map_ok, Except.ok.injEq] at h
  have hn := congrArg MWorld.nleffects h
  simp only [units, worldNleffects, List.foldl_cons, List.foldl_nil, zero_add, Matrix.transpose_one, Matrix.one_mul, Matrix.mul_zero,
    Matrix.mul_one, inv_one, one_smul, mul_one] at hn
  have hang : ang (tw ![0, 1, 0] 0) = ![0, 1, 0] := by simp
  have h55 : dustBody.mass 5 5 = 1e-11 := by
    have : ∀ A B C D : Mat3, blk A B C D 5 5 = D 2 2 := fun _ _ _ _ => rfl
    simp [dustBody, this]
  have h55' : (bodyUnits 1000 1 dustBody).mass 5 5 = 1e-8 := by
    simp only [bodyUnits, Matrix.smul_apply, h55]; norm_num
  have hb := congrArg b12 hn
  simp only [bodyNleffects, h55, h55', hang] at hb
  rw [if_neg (by norm_num), if_pos (by norm_num)] at hb
  simp only [bodyUnits, dustBody, blk_smul, blk_mul, b12_blk] at hb
  have h01 := congrFun (congrFun hb 0) 1
  simp [skew, Matrix.mul_apply, Fin.sum_univ_three, Matrix.sub_apply] at h01
  norm_num at h01

end
end Arboris
