import Verif.Props.EnergyRun
import Verif.Props.ConvergeFlyRuns

/-!
# C134: energy of the simulations of mechanisms that fly
-/

namespace Arboris
open Matrix Spec Mech Build Sim

/-! ### specification -/

/-- the world at the coordinates `x` and poses `P`, with the velocities `u` -/
noncomputable def Spec.flyWorld {n : ℕ} {σ : Type} (w : MWorld n σ) (x : Fin n → ℝ) (P : Fin n → Fin 4 → Fin 4 → ℝ) (u : Fin n → ℝ) : MWorld n σ :=
  { w with tree := w.tree.map (flyAt x P u) id, gvel := u }

/-- the energy at each time of a path -/
noncomputable def Spec.flyEnergy {n : ℕ} (up : Vec3) (m : Body → ℝ) (c : Body → Vec3) (cs : List LibCtrl) (w : MWorld n Unit) (x : ℝ → Fin n → ℝ)
    (P : ℝ → Fin n → Fin 4 → Fin 4 → ℝ) (u : ℝ → Fin n → ℝ) (t : ℝ) : ℝ :=
  totalEnergy up m c cs (flyWorld w (x t) (P t) (u t))

variable {n : ℕ}

namespace Fly
open Smooth Turn

/-- the exact motion keeps rigid poses rigid -/
lemma rigid_const {P : ℝ → Fin 4 → Fin 4 → ℝ} {V : ℝ → Vec6} {t0 T : ℝ}
    (h : ∀ t ∈ Set.Icc t0 T, ∀ i j, HasDerivAt (fun s => P s i j) ((Matrix.of (P t) * hat (V t)) i j) t) (h0 : IsRigid (Matrix.of (P t0))) :
    ∀ t ∈ Set.Icc t0 T, IsRigid (Matrix.of (P t)) := by
  have hd : ∀ t ∈ Set.Icc t0 T, ∀ i j : Fin 4, HasDerivAt (fun s => P s i 0 * P s j 0 + P s i 1 * P s j 1 + P s i 2 * P s j 2) 0 t := by
    intro t ht i j
    have e := h t ht
    refine HasDerivAt.congr_deriv ((((e i 0).mul (e j 0)).add ((e i 1).mul (e j 1))).add ((e i 2).mul (e j 2))) ?_
    simp [Matrix.mul_apply, Fin.sum_univ_four, hat, mkh, skew, ang, lin]
    ring
  intro t ht
  obtain ⟨⟨r1, r2, r3⟩, hrow⟩ := h0
  have hdet := detRot_const h t ht
  have hR : rot (Matrix.of (P t)) * (rot (Matrix.of (P t)))ᵀ = 1 := by
    have e0 : rot (Matrix.of (P t0)) * (rot (Matrix.of (P t0)))ᵀ = 1 := r1
    rw [← e0]
    ext i j
    have := constant_of_has_deriv_right_zero (f := fun s => P s i.castSucc 0 * P s j.castSucc 0 + P s i.castSucc 1 * P s j.castSucc 1 + P s i.castSucc 2 * P s j.castSucc 2)
      (fun s hs => (hd s hs _ _).continuousAt.continuousWithinAt) (fun s hs => (hd s ⟨hs.1, hs.2.le⟩ _ _).hasDerivWithinAt) t ht
    simp only [Matrix.mul_apply, Fin.sum_univ_three, Matrix.transpose_apply, rot, Matrix.of_apply]
    exact this
  refine ⟨⟨hR, mul_eq_one_comm.mp hR, ?_⟩, row_const h hrow t ht⟩
  have : detRot (P t0) = 1 := r3
  rw [this] at hdet
  exact hdet

/-- the link moving along a path -/
noncomputable def pathLink (x : ℝ → Fin n → ℝ) (P : ℝ → Fin n → Fin 4 → Fin 4 → ℝ) (u : ℝ → Fin n → ℝ) : MLink → LinkT
  | ⟨.lin k _ _, start, b0, b1⟩ => linLink k (fun s i => entry (x s) (start + i)) (fun s i => entry (u s) (start + i)) start b0 b1
  | ⟨.fixed, start, b0, b1⟩ => fixedLink start b0 b1
  | ⟨.free _ _, start, b0, b1⟩ => freeLink (fun s => poseAt (P s) start) (fun s => twistAt (u s) start) start b0 b1

variable {x : ℝ → Fin n → ℝ} {P : ℝ → Fin n → Fin 4 → Fin 4 → ℝ} {u : ℝ → Fin n → ℝ}

lemma path_at (l : MLink) (s : ℝ) : (pathLink x P u l).at s = linkAt (x s, P s, u s) l := by
  obtain ⟨att, start, b0, b1⟩ := l
  cases att <;> rfl

lemma path_k (l : MLink) : (pathLink x P u l).k = l.att.ndof := by
  obtain ⟨att, start, b0, b1⟩ := l
  cases att <;> rfl

lemma tree_at {σ : Type} (w : MWorld n σ) (s : ℝ) : treeAt (w.tree.map (pathLink x P u) id) s = linksOf (flyWorld w (x s) (P s) (u s)) := by
  unfold treeAt linksOf flyWorld
  dsimp only
  rw [map_map', map_map']
  congr 1
  funext l
  exact path_at l s

lemma path_valid {l : MLink} (hl : RigidLink l) {s : ℝ} (hf : ∀ H V, l.att = .free H V → IsRigid (poseAt (P s) l.start)) : ValidLink ((pathLink x P u l).at s) := by
  obtain ⟨att, start, b0, b1⟩ := l
  cases att with
  | lin k q dq => exact (C20_library_valid k _ _ start hl.bpose0 hl.bpose1 s (H := fun _ => 1) isRigid_one fun _ => 0).1
  | fixed => exact (C20_library_valid .Rx (fun _ _ => 0) (fun _ _ => 0) start hl.bpose0 hl.bpose1 s (H := fun _ => 1) isRigid_one fun _ => 0).2.2
  | free H T => exact (C20_library_valid .Rx (fun _ _ => 0) (fun _ _ => 0) start hl.bpose0 hl.bpose1 s (H := fun s => poseAt (P s) start) (hf H T rfl) fun s => twistAt (u s) start).2.1

lemma path_moving {t : ℝ} (h : HasDerivAt x (u t) t) (hP : ∀ d i j, HasDerivAt (fun s => P s d i j) ((Matrix.of (P t d) * hat (twistAt (u t) d)) i j) t) {l : MLink}
    (hb : l.start + l.att.ndof ≤ n) : (pathLink x P u l).Moving t ∧ (pathLink x P u l).MovingJac t := by
  obtain ⟨att, start, b0, b1⟩ := l
  cases att with
  | lin k q dq =>
    have hq : HasDerivV (fun s (i : Fin k.ndof) => entry (x s) (start + i)) (fun i => entry (u t) (start + i)) t := fun i => deriv_entry h _
    exact ⟨(C24_library_moving k _ _ start b0 b1 t hq (H := fun _ => 1) (T := fun _ => 0) (HasTwist.const t)).1,
      (C23_library_movingJac k _ _ start b0 b1 t hq (fun _ => 1) fun _ => 0).1⟩
  | fixed => exact ⟨HasTwist.const t, HasDeriv.const _ t⟩
  | free H T =>
    have hb : start + 6 ≤ n := hb
    have hs : start < n := by omega
    refine ⟨?_, HasDeriv.const _ t⟩
    change HasTwist (fun s => poseAt (P s) start) (twistAt (u t) start) t
    intro i j
    simp only [poseAt, dif_pos hs]
    exact hP ⟨start, hs⟩ i j

lemma path_own (t : ℝ) {l : MLink} (h : SingleAxis l) : (pathLink x P u l).OwnInvariant t := by
  obtain ⟨att, start, b0, b1⟩ := l
  cases att with
  | lin k q dq => exact (C23_library_ownInvariant k h _ _ start t).1
  | fixed => exact (C23_library_ownInvariant .Rx (by decide) (fun _ _ => 0) (fun _ _ => 0) start t).2
  | free H T => exact absurd h id

lemma path_cons (t : ℝ) {l : MLink} (hb : l.start + l.att.ndof ≤ n) : Consistent (u t) ((pathLink x P u l).at t) := by
  obtain ⟨att, start, b0, b1⟩ := l
  cases att with
  | lin k q dq =>
    have hb : start + k.ndof ≤ n := hb
    refine ⟨hb, ?_⟩
    have e : (fun i : Fin k.ndof => entry (u t) (start + i)) = slice (u t) start k.ndof hb := by
      funext i
      simp only [entry, slice]
      rw [dif_pos (by omega)]
    exact congrArg (k.jac (fun i => entry (x t) (start + i)) *ᵥ ·) e
  | fixed =>
    refine ⟨hb, ?_⟩
    exact (Matrix.zero_mulVec _).symm
  | free H T =>
    have hb : start + 6 ≤ n := hb
    refine ⟨hb, ?_⟩
    have e : twistAt (u t) start = slice (u t) start 6 hb := by
      funext i
      simp only [twistAt, entry, slice]
      rw [dif_pos (by omega)]
    change twistAt (u t) start = (1 : Mat6) *ᵥ slice (u t) start 6 hb
    rw [Matrix.one_mulVec, e]

/-- the rate of the kinetic energy -/
lemma kinetic_path {m : Body → ℝ} {c : Body → Vec3} {w0 : MWorld n Unit} (h0 : Fixed m c w0) (hp : PlainTree w0) (hm : ∀ b ∈ w0.tree.bodies, 1e-10 < m b ∨ m b • c b = 0)
    (hP : ∀ s, ∀ l ∈ w0.tree.links, ∀ H V, l.att = .free H V → IsRigid (poseAt (P s) l.start)) {a : Fin n → ℝ} {t : ℝ} (hx : HasDerivAt x (u t) t)
    (hdP : ∀ d i j, HasDerivAt (fun s => P s d i j) ((Matrix.of (P t d) * hat (twistAt (u t) d)) i j) t) (hu : HasDerivAt u a t) :
    HasDerivAt (fun s => 1 / 2 * (u s ⬝ᵥ worldMass (flyBodies w0 (x s) (P s) (u s)) *ᵥ u s))
      (u t ⬝ᵥ (worldMass (flyBodies w0 (x t) (P t) (u t)) *ᵥ a + worldNleffects (flyBodies w0 (x t) (P t) (u t)) *ᵥ u t)) t := by
  have hl : ∀ l ∈ (w0.tree.map (pathLink x P u) id).links, ∃ l0 ∈ w0.tree.links, l = pathLink x P u l0 := by
    intro l hl
    rw [links_map] at hl
    obtain ⟨l0, h1, rfl⟩ := List.mem_map.mp hl
    exact ⟨l0, h1, rfl⟩
  have key := C29_partial (w0.tree.map (pathLink x P u) id) u a t ?_ ?_ ?_ ?_ ?_ ?_ (fun i => hasDerivAt_pi.mp hu i)
  · simp only [tree_at] at key
    exact key
  · intro s l h
    obtain ⟨l0, h1, rfl⟩ := hl l h
    exact path_valid (h0.links l0 h1).2 (hP s l0 h1)
  · intro l h
    obtain ⟨l0, h1, rfl⟩ := hl l h
    exact (path_moving hx hdP (h0.links l0 h1).1).1
  · intro l h
    obtain ⟨l0, h1, rfl⟩ := hl l h
    exact (path_moving hx hdP (h0.links l0 h1).1).2
  · intro l h
    obtain ⟨l0, h1, rfl⟩ := hl l h
    exact path_cons t (h0.links l0 h1).1
  · intro y hy pre l post e
    rw [paths_map] at hy
    obtain ⟨y0, hy0, rfl⟩ := List.mem_map.mp hy
    dsimp only at e
    obtain ⟨pre0, rest0, e1, rfl, e2⟩ := List.map_eq_append_iff.mp e
    obtain ⟨l0, post0, rfl, rfl, rfl⟩ := List.map_eq_cons_iff.mp e2
    rcases hp y0 hy0 pre0 l0 post0 e1 with h | h
    · exact .inl (path_own t h)
    · right
      intro k hk
      obtain ⟨k0, hk0, rfl⟩ := List.mem_map.mp hk
      rw [path_k]
      exact h k0 hk0
  · intro y hy
    rw [paths_map] at hy
    obtain ⟨y0, hy0, rfl⟩ := List.mem_map.mp hy
    have hb : y0.1 ∈ w0.tree.bodies := (Spec.Forest.mem_bodies_iff _ _).mpr ⟨_, hy0⟩
    obtain ⟨⟨I, h1⟩, -⟩ := h0.bodies _ hb
    exact ⟨_, _, I, h1, hm _ hb⟩

/-- the rate of the potential energy of weight -/
lemma weight_path {m : Body → ℝ} {c : Body → Vec3} {w0 : MWorld n Unit} (h0 : Fixed m c w0) (γ : ℝ) (up : Vec3)
    {t : ℝ} (hP : ∀ l ∈ w0.tree.links, ∀ H V, l.att = .free H V → IsRigid (poseAt (P t) l.start)) (hx : HasDerivAt x (u t) t)
    (hdP : ∀ d i j, HasDerivAt (fun s => P s d i j) ((Matrix.of (P t d) * hat (twistAt (u t) d)) i j) t) :
    HasDerivAt (fun s => -γ * ((flyBodies w0 (x s) (P s) (u s)).map fun y => massHeight up y.2.pose (m y.1) (c y.1)).sum)
      (-(u t ⬝ᵥ weightPull γ up m c (flyBodies w0 (x t) (P t) (u t)))) t := by
  have hl : ∀ l ∈ (w0.tree.map (pathLink x P u) id).links, ∃ l0 ∈ w0.tree.links, l = pathLink x P u l0 := by
    intro l hl
    rw [links_map] at hl
    obtain ⟨l0, h1, rfl⟩ := List.mem_map.mp hl
    exact ⟨l0, h1, rfl⟩
  have hb : ∀ y ∈ (w0.tree.map (pathLink x P u) id).paths, y.1 ∈ w0.tree.bodies := by
    intro y hy
    rw [paths_map] at hy
    obtain ⟨y0, hy0, rfl⟩ := List.mem_map.mp hy
    exact (Spec.Forest.mem_bodies_iff _ _).mpr ⟨_, hy0⟩
  have hI : ∀ b, ∃ I, b ∈ w0.tree.bodies → IsRigidMass b.mass (m b) (c b) I := by
    intro b
    by_cases h : b ∈ w0.tree.bodies
    · obtain ⟨I, hI⟩ := (h0.bodies b h).1
      exact ⟨I, fun _ => hI⟩
    · exact ⟨0, fun h' => absurd h' h⟩
  choose I hI using hI
  obtain ⟨out, ho, hz, key⟩ := C35_power γ up (w0.tree.map (pathLink x P u) id) t (u t) m c I (by
      intro l h
      obtain ⟨l0, h1, rfl⟩ := hl l h
      exact path_valid (h0.links l0 h1).2 (hP l0 h1)) (by
      intro l h
      obtain ⟨l0, h1, rfl⟩ := hl l h
      exact (path_moving hx hdP (h0.links l0 h1).1).1) (by
      intro l h
      obtain ⟨l0, h1, rfl⟩ := hl l h
      exact path_cons t (h0.links l0 h1).1) (fun y hy => hI _ (hb y hy)) fun y hy => (h0.bodies _ (hb y hy)).2
  simp only [tree_at] at key ho
  have e := pull_at (γ := γ) (up := up) (m := m) (c := c) (fun y hy => by
    have := mem_dyn hy
    rw [flyWorld, bodies_map] at this
    exact h0.bodies _ this) ho 0
  rw [Matrix.mulVec_zero, add_zero] at e
  rw [e] at key
  refine (key.neg).congr_of_eventuallyEq (Filter.Eventually.of_forall fun s => ?_)
  simp only [Pi.neg_apply, flyBodies, flyWorld]
  ring

lemma gpos_at {w0 : MWorld n Unit} (h : ∀ l ∈ w0.tree.links, l.start + l.att.ndof ≤ n) (x : Fin n → ℝ) (P : Fin n → Fin 4 → Fin 4 → ℝ) (u : Fin n → ℝ) (js : List ℕ) :
    gposOf (flyWorld w0 x P u) js = (dofsOf w0 js).map (entry x) := by
  rw [gposOf_read, read_pos (x := x), dofs_at (w0 := w0) rfl]
  intro l hl
  rw [flyWorld, links_map] at hl
  obtain ⟨l0, h1, rfl⟩ := List.mem_map.mp hl
  exact pos_at (h l0 h1)

/-- the power balance -/
lemma energy_path {up : Vec3} {m : Body → ℝ} {c : Body → Vec3} {cs : List LibCtrl} {w0 : MWorld n Unit} (h0 : Fixed m c w0) (hp : PlainTree w0)
    (hm : ∀ b ∈ w0.tree.bodies, 1e-10 < m b ∨ m b • c b = 0) (hc : ∀ y ∈ cs, SpringCtrl w0 y)
    (hP : ∀ s, ∀ l ∈ w0.tree.links, ∀ H V, l.att = .free H V → IsRigid (poseAt (P s) l.start)) {a : Fin n → ℝ} {t : ℝ} (hx : HasDerivAt x (u t) t)
    (hdP : ∀ d i j, HasDerivAt (fun s => P s d i j) ((Matrix.of (P t d) * hat (twistAt (u t) d)) i j) t) (hu : HasDerivAt u a t)
    (hlaw : worldMass (flyBodies w0 (x t) (P t) (u t)) *ᵥ a + worldNleffects (flyBodies w0 (x t) (P t) (u t)) *ᵥ u t +
      worldViscosity (flyBodies w0 (x t) (P t) (u t)) *ᵥ u t = (cs.map (flyForce up m c w0 (x t) (P t) (u t))).sum) :
    HasDerivAt (flyEnergy up m c cs w0 x P u)
      (-(u t ⬝ᵥ worldViscosity (flyBodies w0 (x t) (P t) (u t)) *ᵥ u t) - (cs.map (dampingOf w0 (u t))).sum) t := by
  have h1 := kinetic_path h0 hp hm hP hx hdP hu
  have h2 : ∀ l : List LibCtrl, (∀ y ∈ l, SpringCtrl w0 y) → HasDerivAt (fun s => (l.map (potential up m c (flyWorld w0 (x s) (P s) (u s)))).sum)
      (-(u t ⬝ᵥ (l.map (flyForce up m c w0 (x t) (P t) (u t))).sum) - (l.map (dampingOf w0 (u t))).sum) t := by
    intro l hl
    induction l with
    | nil => simpa using hasDerivAt_const t (0 : ℝ)
    | cons y l ih =>
      simp only [List.map_cons, List.sum_cons]
      have hy : HasDerivAt (fun s => potential up m c (flyWorld w0 (x s) (P s) (u s)) y) (-(u t ⬝ᵥ flyForce up m c w0 (x t) (P t) (u t) y) - dampingOf w0 (u t) y) t := by
        cases y with
        | weight γ =>
          have := weight_path h0 γ up (hP t) hx hdP
          simpa [potential, flyForce, dampingOf, flyBodies, flyWorld] using this
        | pd js g =>
          obtain ⟨h3, h4⟩ := hl (.pd js g) (by simp)
          have := spring_path h3 h4 hx
          simp only [potential, gpos_at fun l hl => (h0.links l hl).1]
          exact this
      refine (hy.add (ih fun z hz => hl z (by simp [hz]))).congr_deriv ?_
      rw [dotProduct_add]
      ring
  refine (h1.add (h2 cs hc)).congr_deriv ?_
  rw [← hlaw]
  simp only [dotProduct_add]
  ring

/-- the energy is a smooth function of the coordinates, poses and velocities -/
lemma smooth_energy {w0 : MWorld n Unit} (h : ∀ l ∈ w0.tree.links, l.start + l.att.ndof ≤ n) (up : Vec3) (m : Body → ℝ) (c : Body → Vec3) (cs : List LibCtrl) :
    ContDiff ℝ 1 fun z : Y n => totalEnergy up m c cs (flyWorld w0 z.1 z.2.1 z.2.2) := by
  obtain ⟨bs, h1, h2⟩ := smooth_bodies w0
  have h2' : ∀ z : Y n, worldDynamic n (linksOf (flyWorld w0 z.1 z.2.1 z.2.2)) = bs.map fun x => (x.1, x.2 z) := h2
  unfold totalEnergy
  refine ContDiff.add (contDiff_const.mul ?_) (smooth_sum cs (fun (z : Y n) y => potential up m c (flyWorld w0 z.1 z.2.1 z.2.2) y) fun y _ => ?_)
  · simp only [h2']
    exact smooth_dot smooth_v ((Smooth.mass h1).mulVec smooth_v)
  · cases y with
    | weight γ =>
      simp only [potential, h2', List.map_map, Function.comp_def]
      exact contDiff_const.mul (smooth_sum bs (fun z y => massHeight up (y.2 z).pose (m y.1) (c y.1)) fun y hy => smooth_height (h1 y hy).pose up _ _)
    | pd js g =>
      simp only [potential, gpos_at h, springs_eq]
      have he : ∀ d : ℕ, ContDiff ℝ 1 fun z : Y n => entry z.1 d := fun d => smooth_entry smooth_q d
      refine contDiff_const.mul (ContDiff.sum fun i _ => ContDiff.sum fun j _ => ?_)
      exact (((he _).sub contDiff_const).mul contDiff_const).mul ((he _).sub contDiff_const)

lemma path_continuous {up : Vec3} {m : Body → ℝ} {c : Body → Vec3} {cs : List LibCtrl} {w0 : MWorld n Unit} {t0 T : ℝ} {a : ℝ → Fin n → ℝ}
    (hx : FlyPath up m c cs w0 t0 T x P u a) : ContinuousOn (fun t => (x t, P t, u t)) (Set.Icc t0 T) := fun t ht =>
  ((hx.dx t ht).prodMk ((hasDerivAt_pi.mpr fun d => hasDerivAt_pi.mpr fun i => hasDerivAt_pi.mpr fun j => hx.dP t ht d i j).prodMk
    (hx.du t ht))).continuousAt.continuousWithinAt

lemma energy_continuous {up : Vec3} {m : Body → ℝ} {c : Body → Vec3} {cs : List LibCtrl} {w0 : MWorld n Unit} {t0 T : ℝ} {a : ℝ → Fin n → ℝ} (h0 : Fixed m c w0)
    (hx : FlyPath up m c cs w0 t0 T x P u a) (es : List LibCtrl) : ContinuousOn (flyEnergy up m c es w0 x P u) (Set.Icc t0 T) := by
  have h1 := (smooth_energy (fun l hl => (h0.links l hl).1) up m c es).continuous
  have h2 := path_continuous hx
  have h3 : flyEnergy up m c es w0 x P u =
      (fun z : Y n => totalEnergy up m c es (flyWorld w0 z.1 z.2.1 z.2.2)) ∘ fun t => (x t, P t, u t) := rfl
  rw [h3]
  exact h1.comp_continuousOn h2

end Fly

/-! ### theorems -/

open Fly in
/-- C134: the power balance of the exact motion of a mechanism that flies.  The energy (kinetic, of weight, of the springs of the proportional-derivative controllers) decreases
at the rate at which viscosity and the dampers of the controllers dissipate it. -/
theorem C134_balance {up : Vec3} {m : Body → ℝ} {c : Body → Vec3} {cs : List LibCtrl} {w w0 : MWorld n Unit} {t0 T : ℝ} {x u a : ℝ → Fin n → ℝ}
    {P : ℝ → Fin n → Fin 4 → Fin 4 → ℝ} (hw : FlyingWorld m c w) (hp : PlainTree w) (hm : ∀ b ∈ w.tree.bodies, 1e-10 < m b ∨ m b • c b = 0)
    (hc : ∀ y ∈ cs, SpringCtrl w y) (hi : Mech.init w = .ok w0) (hx : FlyPath up m c cs w0 t0 T x P u a) :
    ContinuousOn (flyEnergy up m c cs w0 x P u) (Set.Icc t0 T) ∧ ∀ t ∈ Set.Ioo t0 T, HasDerivAt (flyEnergy up m c cs w0 x P u)
      (-(u t ⬝ᵥ worldViscosity (flyBodies w0 (x t) (P t) (u t)) *ᵥ u t) - (cs.map (dampingOf w0 (u t))).sum) t := by
  obtain ⟨w0', h1, hst⟩ := init_started hw.dofs
  obtain rfl : w0 = w0' := Except.ok.inj (hi.symm.trans h1)
  have hfix := Fly.Fixed.started hw hst
  refine ⟨energy_continuous hfix hx cs, fun t ht => ?_⟩
  have htI := Set.Ioo_subset_Icc_self ht
  have hT : t0 ≤ T := (ht.1.trans ht.2).le
  obtain ⟨P', hP'⟩ : ∃ P' : ℝ → Fin n → Fin 4 → Fin 4 → ℝ, P' = fun s => P (max t0 (min s T)) := ⟨_, rfl⟩
  have hIcc : ∀ s, max t0 (min s T) ∈ Set.Icc t0 T := fun s => ⟨le_max_left _ _, max_le hT (min_le_right _ _)⟩
  have he : ∀ᶠ s in nhds t, P' s = P s := by
    filter_upwards [isOpen_Ioo.mem_nhds ht] with s hs
    rw [hP']
    dsimp only
    rw [min_eq_left hs.2.le, max_eq_right hs.1.le]
  have het := he.self_of_nhds
  have hrig : ∀ s, ∀ l ∈ w0.tree.links, ∀ H V, l.att = .free H V → IsRigid (poseAt (P' s) l.start) := by
    intro s l hl H V e
    have h2 := (hfix.links l hl).1
    rw [e] at h2
    have h2 : l.start + 6 ≤ n := h2
    have h3 : l.start < n := by omega
    have h4 := hx.pose l hl H V e
    simp only [poseAt, dif_pos h3] at h4 ⊢
    rw [hP']
    refine rigid_const (P := fun s => P s ⟨l.start, h3⟩) (V := fun s => twistAt (u s) l.start) (fun s hs i j => hx.dP s hs ⟨l.start, h3⟩ i j) ?_ _ (hIcc s)
    rw [h4]
    exact (hfix.links l hl).2.free H V e
  have key := energy_path (P := P') (t := t) hfix (Turn.plain_started hst hp) (by rw [← hst.tree.links.2]; exact hm) (fun y hy => spring_started hst (hc y hy)) hrig
    (hx.dx t htI) (fun d i j => by
      rw [het]
      exact (hx.dP t htI d i j).congr_of_eventuallyEq (he.mono fun s hs => by dsimp only; rw [hs])) (hx.du t htI) (by rw [het]; exact hx.law t htI)
  rw [het] at key
  exact key.congr_of_eventuallyEq (he.mono fun s hs => by unfold flyEnergy; rw [hs])

open Fly in
/-- C134: with positive viscosities and dampers, the energy of the exact motion does not increase. -/
theorem C134_dissipates {up : Vec3} {m : Body → ℝ} {c : Body → Vec3} {cs : List LibCtrl} {w w0 : MWorld n Unit} {t0 T : ℝ} {x u a : ℝ → Fin n → ℝ}
    {P : ℝ → Fin n → Fin 4 → Fin 4 → ℝ} (hw : FlyingWorld m c w) (hp : PlainTree w) (hm : ∀ b ∈ w.tree.bodies, 1e-10 < m b ∨ m b • c b = 0)
    (hc : ∀ y ∈ cs, SpringCtrl w y) (hv : ∀ b ∈ w.tree.bodies, SymPSD b.viscosity) (hd : ∀ y ∈ cs, PassiveCtrl w y)
    (hi : Mech.init w = .ok w0) (hx : FlyPath up m c cs w0 t0 T x P u a) : AntitoneOn (flyEnergy up m c cs w0 x P u) (Set.Icc t0 T) := by
  obtain ⟨w0', h1, hst⟩ := init_started hw.dofs
  obtain rfl : w0 = w0' := Except.ok.inj (hi.symm.trans h1)
  have hB : ∀ y Q v, SymPSD (worldViscosity (flyBodies w0 y Q v)) := by
    intro y Q v
    refine C27_viscosity _ fun z hz => ?_
    have := mem_dyn (w := flyWorld w0 y Q v) hz
    rw [flyWorld, bodies_map, ← hst.tree.links.2] at this
    exact hv _ this
  obtain ⟨hcont, hder⟩ := C134_balance hw hp hm hc hi hx
  rw [← interior_Icc] at hder
  refine antitoneOn_of_hasDerivWithinAt_nonpos (convex_Icc _ _) hcont (fun t ht => (hder t ht).hasDerivWithinAt) ?_
  intro t _
  have h2 := (hB (x t) (P t) (u t)).2 (u t)
  have h3 := damping_nonneg hst hd (u t)
  linarith

open Fly in
/-- C134: without viscosity nor dampers, the exact motion conserves energy. -/
theorem C134_conserved {up : Vec3} {m : Body → ℝ} {c : Body → Vec3} {cs : List LibCtrl} {w w0 : MWorld n Unit} {t0 T : ℝ} {x u a : ℝ → Fin n → ℝ}
    {P : ℝ → Fin n → Fin 4 → Fin 4 → ℝ} (hw : FlyingWorld m c w) (hp : PlainTree w) (hm : ∀ b ∈ w.tree.bodies, 1e-10 < m b ∨ m b • c b = 0)
    (hc : ∀ y ∈ cs, SpringCtrl w y) (hv : ∀ b ∈ w.tree.bodies, b.viscosity = 0) (hd : ∀ y ∈ cs, UndampedCtrl w y)
    (hi : Mech.init w = .ok w0) (hx : FlyPath up m c cs w0 t0 T x P u a) :
    ∀ t ∈ Set.Icc t0 T, flyEnergy up m c cs w0 x P u t = flyEnergy up m c cs w0 x P u t0 := by
  obtain ⟨w0', h1, hst⟩ := init_started hw.dofs
  obtain rfl : w0 = w0' := Except.ok.inj (hi.symm.trans h1)
  have hB : ∀ y Q v, worldViscosity (flyBodies w0 y Q v) = 0 := by
    intro y Q v
    have : ∀ z ∈ flyBodies w0 y Q v, z.1.viscosity = 0 := by
      intro z hz
      have := mem_dyn (w := flyWorld w0 y Q v) hz
      rw [flyWorld, bodies_map, ← hst.tree.links.2] at this
      exact hv _ this
    rw [worldViscosity_eq]
    refine List.sum_eq_zero fun r hr => ?_
    obtain ⟨z, hz, rfl⟩ := List.mem_map.mp hr
    rw [this z hz]
    simp
  obtain ⟨hcont, hder'⟩ := C134_balance hw hp hm hc hi hx
  have hder : ∀ t ∈ interior (Set.Icc t0 T), HasDerivWithinAt (flyEnergy up m c cs w0 x P u) 0 (interior (Set.Icc t0 T)) t := by
    intro t ht
    rw [interior_Icc] at ht
    have := hder' t ht
    rw [hB, damping_zero hst hd] at this
    simp only [Matrix.zero_mulVec, dotProduct_zero, neg_zero, sub_zero] at this
    exact this.hasDerivWithinAt
  have h1 := antitoneOn_of_hasDerivWithinAt_nonpos (convex_Icc _ _) hcont hder fun _ _ => le_rfl
  have h2 := monotoneOn_of_hasDerivWithinAt_nonneg (convex_Icc _ _) hcont hder fun _ _ => le_rfl
  intro t ht
  have hT : t0 ∈ Set.Icc t0 T := ⟨le_rfl, ht.1.trans ht.2⟩
  exact le_antisymm (h1 hT ht ht.1) (h2 hT ht ht.1)

open Fly in
/-- C134: the energy of every state of a simulation, with small enough steps of at most `h`, differs by at most `C h` from the energy of the exact motion. -/
theorem C134_simulations {up : Vec3} {m : Body → ℝ} {c : Body → Vec3} {cs : List LibCtrl} {w w0 : MWorld n Unit} {t0 T : ℝ} {x u a : ℝ → Fin n → ℝ}
    {P : ℝ → Fin n → Fin 4 → Fin 4 → ℝ} (hw : FlyingWorld m c w) (hg : ∀ y ∈ cs, PlainCtrl y) (hi : Mech.init w = .ok w0) (hx : FlyPath up m c cs w0 t0 T x P u a)
    (es : List LibCtrl) :
    ∃ C ≥ 0, ∃ hmax > 0, ∀ (h : ℝ) (tl : List ℝ) (k : ℕ) (tr : List (Ev (MWorld n Unit))) (w' : MWorld n Unit) (t' : ℝ), 0 ≤ h → h ≤ hmax → tl.head? = some t0 →
      (∀ t ∈ tl, t ≤ T) → tl.IsChain (fun t1 t2 => t2 - t1 ≤ h) → simulate (engine (libPlug n up cs)) w tl (.list k) = (tr, .ok (w', t')) →
      tl.getLast? = some t' ∧ t' ∈ Set.Icc t0 T ∧ |totalEnergy up m c es w' - flyEnergy up m c es w0 x P u t'| ≤ C * h ∧
      ∃ seen, tr = runCalls k t0 w0 tl seen ∧ ∀ s ∈ seen, s.1 ∈ Set.Icc t0 T ∧ |totalEnergy up m c es s.2.2 - flyEnergy up m c es w0 x P u s.1| ≤ C * h := by
  obtain ⟨w0', h1, hst⟩ := init_started hw.dofs
  obtain rfl : w0 = w0' := Except.ok.inj (hi.symm.trans h1)
  have hfix := Fly.Fixed.started hw hst
  obtain ⟨C, hC, hmax, hpos, hconv⟩ := Fly.converges (up := up) hw hg hi hx
  obtain ⟨R, hR⟩ := isCompact_Icc.exists_bound_of_continuousOn (path_continuous hx)
  have hE := smooth_energy (fun l hl => (hfix.links l hl).1) up m c es
  have hcomp : IsCompact (Metric.closedBall (0 : Y n) (R + C * hmax)) := isCompact_closedBall _ _
  have hdc : Continuous (fderiv ℝ fun z : Y n => totalEnergy up m c es (flyWorld w0 z.1 z.2.1 z.2.2)) := hE.continuous_fderiv one_ne_zero
  obtain ⟨K, hK⟩ := hcomp.exists_bound_of_continuousOn hdc.continuousOn
  have hlip : ∀ t ∈ Set.Icc t0 T, ∀ (v : MWorld n Unit) (h : ℝ), 0 ≤ h → h ≤ hmax → FlyNear w0 (x t) (P t) (u t) (C * h) v →
      |totalEnergy up m c es v - flyEnergy up m c es w0 x P u t| ≤ max K 0 * C * h := by
    intro t ht v h hh0 hh ⟨q, Q, hq, hn1, hn2, hn3⟩
    have h3 : ‖((x t, P t, u t) : Y n)‖ ≤ R := hR t ht
    have hCh : C * h ≤ C * hmax := mul_le_mul_of_nonneg_left hh hC
    have hCh0 : 0 ≤ C * h := mul_nonneg hC hh0
    have hn : ‖((q, Q, v.gvel) : Y n) - (x t, P t, u t)‖ ≤ C * h := by
      refine max_le ((pi_norm_le_iff_of_nonneg hCh0).mpr hn1) (max_le ?_ ((pi_norm_le_iff_of_nonneg hCh0).mpr hn3))
      exact (pi_norm_le_iff_of_nonneg hCh0).mpr fun d => (pi_norm_le_iff_of_nonneg hCh0).mpr fun i => (pi_norm_le_iff_of_nonneg hCh0).mpr fun j => hn2 d i j
    have h4 : ‖((q, Q, v.gvel) : Y n)‖ ≤ R + C * hmax := by
      have := norm_le_norm_add_norm_sub' ((q, Q, v.gvel) : Y n) ((x t, P t, u t) : Y n)
      linarith
    have h5 := (convex_closedBall (0 : Y n) (R + C * hmax)).norm_image_sub_le_of_norm_fderiv_le (𝕜 := ℝ) (f := fun z : Y n => totalEnergy up m c es (flyWorld w0 z.1 z.2.1 z.2.2)) (C := max K 0)
      (fun z _ => hE.differentiable one_ne_zero z) (fun z hz => (hK z hz).trans (le_max_left _ _)) (x := (x t, P t, u t)) (y := (q, Q, v.gvel))
      (by
        rw [mem_closedBall_zero_iff]
        have : 0 ≤ C * hmax := by positivity
        linarith) (by rw [mem_closedBall_zero_iff]; exact h4)
    have e : totalEnergy up m c es v = totalEnergy up m c es (flyWorld w0 q Q v.gvel) := Turn.energy_tree hq rfl
    rw [e]
    refine h5.trans ?_
    rw [mul_assoc]
    exact mul_le_mul_of_nonneg_left hn (le_max_right _ _)
  refine ⟨max K 0 * C, by positivity, hmax, hpos, ?_⟩
  intro h tl k tr w' t' hh hhm hhead hTl hch hrun
  obtain ⟨e1, e2, seen, e3, e4⟩ := hconv h tl k tr w' t' hh hhm hhead hTl hch hrun
  exact ⟨e1, e2.1, hlip _ e2.1 _ _ hh hhm e2.2, seen, e3, fun s hs => ⟨(e4 s hs).1, hlip _ (e4 s hs).1 _ _ hh hhm (e4 s hs).2⟩⟩

lemma Fly.energy_start {up : Vec3} {m : Body → ℝ} {c : Body → Vec3} {cs es : List LibCtrl} {w w0 : MWorld n Unit} {t0 T : ℝ} {x u a : ℝ → Fin n → ℝ}
    {P : ℝ → Fin n → Fin 4 → Fin 4 → ℝ} (hw : FlyingWorld m c w) (hi : Mech.init w = .ok w0) (hx : FlyPath up m c cs w0 t0 T x P u a) :
    flyEnergy up m c es w0 x P u t0 = totalEnergy up m c es w0 := by
  obtain ⟨w0', h1, hst⟩ := init_started hw.dofs
  obtain rfl : w0 = w0' := Except.ok.inj (hi.symm.trans h1)
  refine Turn.energy_tree ?_ hx.vel
  rw [flyWorld, hx.vel]
  exact Turn.map_self fun l hl => flyAt_self (hx.pos l hl) (hx.pose l hl) (hst.vel l hl)

/-- C134.  A mechanism without viscosity nor dampers (flying robots, humanoids: free joints attached to the ground, other joints which turn around one axis or slide), made
of bodies with masses (or centred), with its weight and springs: the energy of every state of a simulation — those shown to the observers, and the last —
is that of the first state, up to `C h` when the steps are at most `h`. -/
theorem C134_drift {up : Vec3} {m : Body → ℝ} {c : Body → Vec3} {cs : List LibCtrl} {w w0 : MWorld n Unit} {t0 T : ℝ} {x u a : ℝ → Fin n → ℝ}
    {P : ℝ → Fin n → Fin 4 → Fin 4 → ℝ} (hw : FlyingWorld m c w) (hp : PlainTree w) (hm : ∀ b ∈ w.tree.bodies, 1e-10 < m b ∨ m b • c b = 0)
    (hg : ∀ y ∈ cs, PlainCtrl y) (hc : ∀ y ∈ cs, SpringCtrl w y) (hv : ∀ b ∈ w.tree.bodies, b.viscosity = 0) (hd : ∀ y ∈ cs, UndampedCtrl w y)
    (hi : Mech.init w = .ok w0) (hx : FlyPath up m c cs w0 t0 T x P u a) :
    ∃ C ≥ 0, ∃ hmax > 0, ∀ (h : ℝ) (tl : List ℝ) (k : ℕ) (tr : List (Ev (MWorld n Unit))) (w' : MWorld n Unit) (t' : ℝ), 0 ≤ h → h ≤ hmax → tl.head? = some t0 →
      (∀ t ∈ tl, t ≤ T) → tl.IsChain (fun t1 t2 => t2 - t1 ≤ h) → simulate (engine (libPlug n up cs)) w tl (.list k) = (tr, .ok (w', t')) →
      |totalEnergy up m c cs w' - totalEnergy up m c cs w0| ≤ C * h ∧
      ∃ seen, tr = runCalls k t0 w0 tl seen ∧ ∀ s ∈ seen, |totalEnergy up m c cs s.2.2 - totalEnergy up m c cs w0| ≤ C * h := by
  obtain ⟨C, hC, hmax, hpos, hs⟩ := C134_simulations hw hg hi hx cs
  refine ⟨C, hC, hmax, hpos, ?_⟩
  intro h tl k tr w' t' hh hhm hhead hTl hch hrun
  obtain ⟨-, ht, e2, seen, e3, e4⟩ := hs h tl k tr w' t' hh hhm hhead hTl hch hrun
  have hcons := C134_conserved hw hp hm hc hv hd hi hx
  rw [Fly.energy_start hw hi hx] at hcons
  rw [hcons t' ht] at e2
  refine ⟨e2, seen, e3, fun s hs => ?_⟩
  obtain ⟨h1, h2⟩ := e4 s hs
  rwa [hcons s.1 h1] at h2

/-- C134.  With positive viscosities and dampers (and springs), the energy of the states of a simulation is at most that of the first one, plus `C h` when the
steps are at most `h`. -/
theorem C134_bound {up : Vec3} {m : Body → ℝ} {c : Body → Vec3} {cs : List LibCtrl} {w w0 : MWorld n Unit} {t0 T : ℝ} {x u a : ℝ → Fin n → ℝ}
    {P : ℝ → Fin n → Fin 4 → Fin 4 → ℝ} (hw : FlyingWorld m c w) (hp : PlainTree w) (hm : ∀ b ∈ w.tree.bodies, 1e-10 < m b ∨ m b • c b = 0)
    (hg : ∀ y ∈ cs, PlainCtrl y) (hc : ∀ y ∈ cs, SpringCtrl w y) (hv : ∀ b ∈ w.tree.bodies, SymPSD b.viscosity) (hd : ∀ y ∈ cs, PassiveCtrl w y)
    (hi : Mech.init w = .ok w0) (hx : FlyPath up m c cs w0 t0 T x P u a) :
    ∃ C ≥ 0, ∃ hmax > 0, ∀ (h : ℝ) (tl : List ℝ) (k : ℕ) (tr : List (Ev (MWorld n Unit))) (w' : MWorld n Unit) (t' : ℝ), 0 ≤ h → h ≤ hmax → tl.head? = some t0 →
      (∀ t ∈ tl, t ≤ T) → tl.IsChain (fun t1 t2 => t2 - t1 ≤ h) → simulate (engine (libPlug n up cs)) w tl (.list k) = (tr, .ok (w', t')) →
      totalEnergy up m c cs w' ≤ totalEnergy up m c cs w0 + C * h ∧
      ∃ seen, tr = runCalls k t0 w0 tl seen ∧ ∀ s ∈ seen, totalEnergy up m c cs s.2.2 ≤ totalEnergy up m c cs w0 + C * h := by
  obtain ⟨C, hC, hmax, hpos, hs⟩ := C134_simulations hw hg hi hx cs
  refine ⟨C, hC, hmax, hpos, ?_⟩
  intro h tl k tr w' t' hh hhm hhead hTl hch hrun
  obtain ⟨-, ht, e2, seen, e3, e4⟩ := hs h tl k tr w' t' hh hhm hhead hTl hch hrun
  have hle := C134_dissipates hw hp hm hc hv hd hi hx
  have hcons : ∀ t ∈ Set.Icc t0 T, flyEnergy up m c cs w0 x P u t ≤ totalEnergy up m c cs w0 := by
    intro t ht
    rw [← Fly.energy_start hw hi hx]
    exact hle ⟨le_rfl, ht.1.trans ht.2⟩ ht ht.1
  refine ⟨by linarith [hcons t' ht, (abs_le.mp e2).2], seen, e3, fun s hs => ?_⟩
  obtain ⟨h1, h2⟩ := e4 s hs
  linarith [hcons s.1 h1, (abs_le.mp h2).2]

/-! ### an example -/

lemma disc_flying : FlyingWorld (fun _ => 1) (fun _ => 0) disc := by
  refine ⟨by simp [ndof, disc, Forest.links, JAttr.ndof], ?_, ?_, rfl⟩
  · intro l hl
    simp only [disc, Forest.links, List.append_nil, List.mem_singleton] at hl
    subst hl
    exact ⟨isRigid_one, isRigid_one, fun H T h => by cases h; exact isRigid_one⟩
  · intro b hb
    simp only [disc, Forest.bodies, List.append_nil, List.mem_singleton] at hb
    subst hb
    exact ⟨⟨1, ⟨Matrix.transpose_one, by simp [skew_zero, blk_one]⟩⟩, zero_le_one⟩

lemma disc_plain : PlainTree disc := by
  intro x hx pre l post e
  right
  simp only [disc, Forest.paths, List.map_nil, List.append_nil, List.mem_singleton] at hx
  subst hx
  cases pre with
  | nil => simp
  | cons p pre => simp at e

/-- C134 (its hypotheses can be met): a body thrown and spinning, with its weight, has an exact motion during some time `T`; its simulations with `N` steps do not
raise when `N` is large, and end with the energy of the beginning up to `C T / N`. -/
theorem C134_example : ∃ w0, Mech.init disc = .ok w0 ∧ ∃ T > 0, ∃ C ≥ 0, ∃ N0 : ℕ, ∀ N : ℕ, N0 < N → ∃ tr w',
      simulate (engine (libPlug 6 ![0, 0, 1] [.weight (-9.81)])) disc ((List.range (N + 1)).map fun i : ℕ => T * i / N) (.list 0) = (tr, .ok (w', T)) ∧
      |totalEnergy ![0, 0, 1] (fun _ => 1) (fun _ => 0) [.weight (-9.81)] w' - totalEnergy ![0, 0, 1] (fun _ => 1) (fun _ => 0) [.weight (-9.81)] w0| ≤ C * (T / N) := by
  have hw := disc_flying
  obtain ⟨w0, h0, -⟩ := init_started hw.dofs
  have hM : (worldMass (worldDynamic 6 (linksOf w0))).det ≠ 0 := by
    have htree : linksOf w0 = linksOf disc := by
      obtain rfl := Except.ok.inj h0
      rfl
    rw [htree, disc_dyn]
    simp [worldMass]
  obtain ⟨T, hT, x, P, u, a, hx⟩ := C133_exists (up := ![0, 0, 1]) (cs := [.weight (-9.81)]) hw h0 hM 0
  have hv : ∀ b ∈ disc.tree.bodies, b.viscosity = 0 := by
    intro b hb
    simp only [disc, Forest.bodies, List.append_nil, List.mem_singleton] at hb
    subst hb
    rfl
  obtain ⟨C, hC, h1, hh1, hconv⟩ := C134_drift hw disc_plain (fun _ _ => .inl (by norm_num)) (by simp [PlainCtrl]) (by simp [SpringCtrl]) hv (by simp [UndampedCtrl]) h0 hx
  obtain ⟨h2, hh2, hruns⟩ := C133_runs hw (by simp [PlainCtrl]) (by simp [Steered]) h0 hx
  obtain ⟨N0, hN0⟩ := exists_nat_gt (T / min h1 h2)
  have hmin := lt_min hh1 hh2
  refine ⟨w0, h0, T, hT, C, hC, N0, fun N hN => ?_⟩
  have hN' : (0 : ℝ) < N := by exact_mod_cast (Nat.zero_le N0).trans_lt hN
  have hsmall : T / N ≤ min h1 h2 := by
    rw [div_lt_iff₀ hmin] at hN0
    rw [div_le_iff₀ hN']
    have : (N0 : ℝ) ≤ N := by exact_mod_cast hN.le
    nlinarith
  obtain ⟨g1, g2, g3, g4, g5, g6⟩ := Turn.grid hT (N := N) (by omega) (hsmall.trans (min_le_right _ _))
  obtain ⟨tr, w', t', hrun⟩ := hruns _ 0 g2 g1 g3 g5
  obtain ⟨k1, -⟩ := hconv (T / N) _ 0 tr w' t' (by positivity) (hsmall.trans (min_le_left _ _)) g2 g3 g4 hrun
  obtain ⟨_, _, _, _, -, -, -, -, -, e6⟩ := (C45_run ..).mp hrun
  rw [g6] at e6
  obtain rfl := Option.some.inj e6
  exact ⟨tr, w', hrun, k1⟩

end Arboris
