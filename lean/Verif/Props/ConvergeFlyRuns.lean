import Verif.Props.ConvergeFlyRun
import Verif.Props.Place
import Mathlib.Topology.MetricSpace.Thickening
import Mathlib.Analysis.Calculus.MeanValue

/-!
# C133: simulations with small steps do not raise
-/

namespace Arboris
open Matrix Spec Mech Build Sim

variable {n : ℕ}

/-- a controller which does not raise: weight, or proportional-derivative of at least one dof, of joints which are not free and have all the same number of dofs -/
def Spec.Steered {σ : Type} (w : MWorld n σ) : LibCtrl → Prop
  | .weight _ => True
  | .pd js _ => dofsOf w js ≠ [] ∧ ∃ d, ∀ i ∈ js, ∀ l : MLink, w.tree.links[i]? = some l → NotFree l ∧ l.att.ndof = d

namespace Fly
open Smooth Turn

/-! ### the assertions on poses -/

lemma hom_mul_right {Q : Mat4} (hQ : IsRigid Q) {H : Mat4} (h : ishomogeneousmatrix H) : ishomogeneousmatrix (H * Q) := by
  obtain ⟨⟨_, _, hdet⟩, h0, h1, h2, h3⟩ := hQ
  obtain ⟨hd, g0, g1, g2, g3⟩ := h
  have e : rot (H * Q) = rot H * rot Q := by
    ext i j
    fin_cases j <;> simp [rot, Matrix.mul_apply, Fin.sum_univ_four, Fin.sum_univ_three, h0, h1, h2]
  refine ⟨?_, ?_, ?_, ?_, ?_⟩
  · rw [e, Matrix.det_mul, show (rot Q).det = 1 from hdet, mul_one]
    exact hd
  all_goals simp [Matrix.mul_apply, Fin.sum_univ_four, g0, g1, g2, g3, h0, h1, h2, h3]

/-- what `update_dynamic` asserts about a link -/
structure HomLink (l : Link) : Prop where
  bpose0 : IsRigid l.bpose0
  bpose1 : IsRigid l.bpose1
  pose : ishomogeneousmatrix l.joint.pose
  ipose : ishomogeneousmatrix l.joint.ipose

lemma dynStepE_hom {l : Link} (h : HomLink l) (s : BodyDyn n) : dynStepE s l = .ok (dynStep s l) := by
  have hr : ishomogeneousmatrix (l.bpose0 * (l.joint.pose * invBody l.bpose1)) := (hom_mul_iff h.bpose0 _).mpr (hom_mul_right h.bpose1.invBody h.pose)
  have h1 : inv l.bpose1 = .ok (invBody l.bpose1) := assertHom_ok h.bpose1.ishom _
  have h2 : adjoint l.bpose1 = .ok (adjointBody l.bpose1) := assertHom_ok h.bpose1.ishom _
  have h3 : inv l.bpose0 = .ok (invBody l.bpose0) := assertHom_ok h.bpose0.ishom _
  have h4 : adjoint (invBody l.bpose0) = .ok (adjointBody (invBody l.bpose0)) := assertHom_ok h.bpose0.invBody.ishom _
  have h5 : adjoint l.joint.ipose = .ok (adjointBody l.joint.ipose) := assertHom_ok h.ipose _
  have h6 : iadjoint (l.bpose0 * (l.joint.pose * invBody l.bpose1)) = .ok (iadjointBody (l.bpose0 * (l.joint.pose * invBody l.bpose1))) := by
    rw [iadjoint_eq]
    exact assertHom_ok hr _
  simp only [dynStepE, h1, h2, h3, h4, h5, h6, bind, Except.bind]
  rfl

lemma updateDynamicE_hom {B : Type} (F : Forest Link B) (h : ∀ l ∈ F.links, HomLink l) (s : BodyDyn n) : updateDynamicE s F = .ok (updateDynamic s F) := by
  induction F generalizing s with
  | nil => rfl
  | cons l b ch sib ih1 ih2 =>
    simp only [Forest.links, List.cons_append, List.mem_cons, List.mem_append] at h
    have e1 := ih1 (fun l hl => h l (Or.inr (Or.inl hl))) (dynStep s l)
    have e2 := ih2 (fun l hl => h l (Or.inr (Or.inr hl))) s
    simp only [updateDynamicE, dynStepE_hom (h l (Or.inl rfl))]
    simp only [bind, Except.bind, e1, e2]
    rfl

/-- the last row of a pose -/
def LastRow (Q : Fin 4 → Fin 4 → ℝ) : Prop := Q 3 0 = 0 ∧ Q 3 1 = 0 ∧ Q 3 2 = 0 ∧ Q 3 3 = 1

lemma exp_row (V : Vec6) : LastRow (twistExp V) := by
  unfold twistExp
  dsimp only
  split <;> simp [LastRow, expCoeffs, mkH]

lemma row_mul {Q : Fin 4 → Fin 4 → ℝ} {H : Mat4} (hQ : LastRow Q) (hH : LastRow H) : LastRow fun i j => (Matrix.of Q * H) i j := by
  obtain ⟨q0, q1, q2, q3⟩ := hQ
  obtain ⟨h0, h1, h2, h3⟩ := hH
  refine ⟨?_, ?_, ?_, ?_⟩ <;> simp [Matrix.mul_apply, Fin.sum_univ_four, q0, q1, q2, q3, h0, h1, h2, h3]

/-- determinant of the rotation part -/
noncomputable def detRot (Q : Fin 4 → Fin 4 → ℝ) : ℝ := (rot (Matrix.of Q)).det

lemma detRot_eq (Q : Fin 4 → Fin 4 → ℝ) : detRot Q = Q 0 0 * Q 1 1 * Q 2 2 - Q 0 0 * Q 1 2 * Q 2 1 - Q 0 1 * Q 1 0 * Q 2 2 + Q 0 1 * Q 1 2 * Q 2 0 +
    Q 0 2 * Q 1 0 * Q 2 1 - Q 0 2 * Q 1 1 * Q 2 0 := by
  unfold detRot
  rw [Matrix.det_fin_three]
  simp [rot]

lemma detRot_continuous : Continuous detRot := by
  have : detRot = fun Q : Fin 4 → Fin 4 → ℝ => Q 0 0 * Q 1 1 * Q 2 2 - Q 0 0 * Q 1 2 * Q 2 1 - Q 0 1 * Q 1 0 * Q 2 2 + Q 0 1 * Q 1 2 * Q 2 0 +
    Q 0 2 * Q 1 0 * Q 2 1 - Q 0 2 * Q 1 1 * Q 2 0 := funext detRot_eq
  rw [this]
  fun_prop

/-- the determinant of the rotation part does not change along a motion -/
lemma detRot_const {P : ℝ → Fin 4 → Fin 4 → ℝ} {V : ℝ → Vec6} {t0 T : ℝ}
    (h : ∀ t ∈ Set.Icc t0 T, ∀ i j, HasDerivAt (fun s => P s i j) ((Matrix.of (P t) * hat (V t)) i j) t) : ∀ t ∈ Set.Icc t0 T, detRot (P t) = detRot (P t0) := by
  have hd : ∀ t ∈ Set.Icc t0 T, HasDerivAt (fun s => detRot (P s)) 0 t := by
    intro t ht
    have e := h t ht
    simp only [detRot_eq]
    have key := (((((((e 0 0).mul (e 1 1)).mul (e 2 2)).sub (((e 0 0).mul (e 1 2)).mul (e 2 1))).sub (((e 0 1).mul (e 1 0)).mul (e 2 2))).add
      (((e 0 1).mul (e 1 2)).mul (e 2 0))).add (((e 0 2).mul (e 1 0)).mul (e 2 1))).sub (((e 0 2).mul (e 1 1)).mul (e 2 0))
    refine HasDerivAt.congr_deriv key ?_
    simp [Matrix.mul_apply, Fin.sum_univ_four, hat, mkh, skew, ang, lin]
    ring
  intro t ht
  exact constant_of_has_deriv_right_zero (f := fun s => detRot (P s)) (fun s hs => (hd s hs).continuousAt.continuousWithinAt)
    (fun s hs => (hd s ⟨hs.1, hs.2.le⟩).hasDerivWithinAt) t ht

lemma tol_pos : (0 : ℝ) < tol := by unfold tol; norm_num

/-- the last row of a pose does not change along a motion -/
lemma row_const {P : ℝ → Fin 4 → Fin 4 → ℝ} {V : ℝ → Vec6} {t0 T : ℝ}
    (h : ∀ t ∈ Set.Icc t0 T, ∀ i j, HasDerivAt (fun s => P s i j) ((Matrix.of (P t) * hat (V t)) i j) t) (h0 : LastRow (P t0)) : ∀ t ∈ Set.Icc t0 T, LastRow (P t) := by
  obtain ⟨a0, a1, a2, a3⟩ := h0
  have hd : ∀ t ∈ Set.Icc t0 T, HasDerivAt (fun s => P s 3 0 * P s 3 0 + P s 3 1 * P s 3 1 + P s 3 2 * P s 3 2) 0 t := by
    intro t ht
    have e := h t ht
    refine HasDerivAt.congr_deriv ((((e 3 0).mul (e 3 0)).add ((e 3 1).mul (e 3 1))).add ((e 3 2).mul (e 3 2))) ?_
    simp [Matrix.mul_apply, Fin.sum_univ_four, hat, mkh, skew, ang, lin]
    ring
  have hz : ∀ t ∈ Set.Icc t0 T, P t 3 0 = 0 ∧ P t 3 1 = 0 ∧ P t 3 2 = 0 := by
    intro t ht
    have := constant_of_has_deriv_right_zero (f := fun s => P s 3 0 * P s 3 0 + P s 3 1 * P s 3 1 + P s 3 2 * P s 3 2)
      (fun s hs => (hd s hs).continuousAt.continuousWithinAt) (fun s hs => (hd s ⟨hs.1, hs.2.le⟩).hasDerivWithinAt) t ht
    simp only [a0, a1, a2, mul_zero, add_zero] at this
    refine ⟨?_, ?_, ?_⟩ <;> nlinarith [mul_self_nonneg (P t 3 0), mul_self_nonneg (P t 3 1), mul_self_nonneg (P t 3 2)]
  have hd3 : ∀ t ∈ Set.Icc t0 T, HasDerivAt (fun s => P s 3 3) 0 t := by
    intro t ht
    refine HasDerivAt.congr_deriv (h t ht 3 3) ?_
    obtain ⟨b0, b1, b2⟩ := hz t ht
    simp [Matrix.mul_apply, Fin.sum_univ_four, hat, mkh, b0, b1, b2]
  intro t ht
  obtain ⟨b0, b1, b2⟩ := hz t ht
  have := constant_of_has_deriv_right_zero (f := fun s => P s 3 3) (fun s hs => (hd3 s hs).continuousAt.continuousWithinAt)
    (fun s hs => (hd3 s ⟨hs.1, hs.2.le⟩).hasDerivWithinAt) t ht
  exact ⟨b0, b1, b2, by rw [← a3]; exact this⟩

/-- a property of poses which products keep -/
lemma pose_closed {C : Mat4 → Prop} (hmul : ∀ H K, C H → C K → C (H * K)) (hr : ∀ H, IsRigid H → C H) (F : Forest Link Body)
    (hv : ∀ l ∈ F.links, IsRigid l.bpose0 ∧ IsRigid l.bpose1 ∧ C l.joint.pose) : ∀ {s : BodyDyn n}, C s.pose → ∀ x ∈ updateDynamic s F, C x.2.pose := by
  induction F with
  | nil => simp [updateDynamic]
  | cons l b ch sib h1 h2 =>
    intro s hs x hx
    have hd : C (dynStep s l).pose := by
      obtain ⟨g0, g1, g2⟩ := hv l (by simp [Forest.links])
      exact hmul _ _ hs (hmul _ _ (hr _ g0) (hmul _ _ g2 (hr _ g1.invBody)))
    rw [updateDynamic] at hx
    rcases List.mem_cons.mp hx with rfl | hx
    · exact hd
    · rcases List.mem_append.mp hx with hx | hx
      · exact h1 (fun l' h' => hv l' (by simp [Forest.links, h'])) hd x hx
      · exact h2 (fun l' h' => hv l' (by simp [Forest.links, h'])) hs x hx

lemma rigid_row {H : Mat4} (h : IsRigid H) : LastRow H := h.2

lemma rot_mul {H Q : Mat4} (hQ : LastRow Q) : rot (H * Q) = rot H * rot Q := by
  obtain ⟨h0, h1, h2, -⟩ := hQ
  ext i j
  fin_cases j <;> simp [rot, Matrix.mul_apply, Fin.sum_univ_four, Fin.sum_univ_three, h0, h1, h2]

/-- the poses of the free joints -/
lemma free_closed {C : Mat4 → Prop} (hr : ∀ H, IsRigid H → C H) {q v : Fin n → ℝ} {Q : Fin n → Fin 4 → Fin 4 → ℝ} {l : MLink} (hl : RigidLink l)
    (h : ∀ H V, l.att = .free H V → C (poseAt Q l.start)) : IsRigid (flyAt q Q v l).link.bpose0 ∧ IsRigid (flyAt q Q v l).link.bpose1 ∧ C (flyAt q Q v l).link.joint.pose := by
  obtain ⟨att, start, b0, b1⟩ := l
  cases att with
  | lin k p dp => exact ⟨hl.bpose0, hl.bpose1, hr _ (k.isRigid_pose _)⟩
  | fixed => exact ⟨hl.bpose0, hl.bpose1, hr _ isRigid_one⟩
  | free H T => exact ⟨hl.bpose0, hl.bpose1, h H T rfl⟩

lemma bodies_closed {C : Mat4 → Prop} (hmul : ∀ H K, C H → C K → C (H * K)) (hr : ∀ H, IsRigid H → C H) {w0 : MWorld n Unit} (hl : ∀ l ∈ w0.tree.links, RigidLink l)
    {q v : Fin n → ℝ} {Q : Fin n → Fin 4 → Fin 4 → ℝ} (h : ∀ l ∈ w0.tree.links, ∀ H V, l.att = .free H V → C (poseAt Q l.start)) :
    ∀ x ∈ flyBodies w0 q Q v, C x.2.pose := by
  refine pose_closed hmul hr _ (fun l hl' => ?_) (hr _ isRigid_one)
  rw [linksOf, links_map, links_map] at hl'
  obtain ⟨l1, hl1, rfl⟩ := List.mem_map.mp hl'
  obtain ⟨l0, hl0, rfl⟩ := List.mem_map.mp hl1
  exact free_closed hr (hl l0 hl0) (h l0 hl0)

lemma rows_mul (H K : Mat4) (h : LastRow H) (h' : LastRow K) : LastRow (H * K) := row_mul h h'

lemma dets_mul (H K : Mat4) (h : LastRow H ∧ (rot H).det = 1) (h' : LastRow K ∧ (rot K).det = 1) : LastRow (H * K) ∧ (rot (H * K)).det = 1 :=
  ⟨rows_mul H K h.1 h'.1, by rw [rot_mul h'.1, Matrix.det_mul, h.2, h'.2, one_mul]⟩

/-- near the exact motion, determinants are near one -/
lemma det_near {w0 : MWorld n Unit} {y : ℝ → Y n} {t0 T : ℝ} (hc : ContinuousOn y (Set.Icc t0 T)) {G : Fin n → Prop}
    (h1 : ∀ t ∈ Set.Icc t0 T, ∀ d, G d → detRot ((y t).2.1 d) = 1)
    (h2 : ∀ t ∈ Set.Icc t0 T, ∀ x ∈ flyBodies w0 (y t).1 (y t).2.1 (y t).2.2, (rot x.2.pose).det = 1) :
    ∃ δ > 0, ∀ t ∈ Set.Icc t0 T, ∀ z : Y n, ‖z - y t‖ ≤ δ → (∀ d, G d → |detRot (z.2.1 d) - 1| ≤ tol) ∧
      ∀ x ∈ flyBodies w0 z.1 z.2.1 z.2.2, |(rot x.2.pose).det - 1| ≤ tol := by
  obtain ⟨bs, hbs, hb⟩ := smooth_bodies w0
  have hK : IsCompact (y '' Set.Icc t0 T) := isCompact_Icc.image_of_continuousOn hc
  have hU1 : IsOpen {z : Y n | ∀ d, G d → |detRot (z.2.1 d) - 1| < tol} := by
    simp only [Set.setOf_forall]
    refine isOpen_iInter_of_finite fun d => isOpen_iInter_of_finite fun _ => ?_
    exact isOpen_lt ((detRot_continuous.comp ((continuous_apply d).comp (continuous_fst.comp continuous_snd))).sub continuous_const).abs continuous_const
  have hU2 : ∀ l : List (Body × (Y n → BodyDyn n)), (∀ x ∈ l, SB x.2) → IsOpen {z : Y n | ∀ x ∈ l, |(rot (x.2 z).pose).det - 1| < tol} := by
    intro l
    induction l with
    | nil => intro _; simp
    | cons x l ih =>
      intro hl
      have e : {z : Y n | ∀ x' ∈ x :: l, |(rot (x'.2 z).pose).det - 1| < tol} = {z | |(rot (x.2 z).pose).det - 1| < tol} ∩ {z | ∀ x' ∈ l, |(rot (x'.2 z).pose).det - 1| < tol} := by
        ext z
        simp
      rw [e]
      have hx := (hl x (by simp)).pose.rot
      exact (isOpen_lt (((smooth_det hx).continuous).sub continuous_const).abs continuous_const).inter (ih fun y hy => hl y (by simp [hy]))
  obtain ⟨δ, hδ, hsub⟩ := hK.exists_cthickening_subset_open (hU1.inter (hU2 bs hbs)) (by
    rintro _ ⟨t, ht, rfl⟩
    refine ⟨fun d hd => ?_, fun x hx => ?_⟩
    · rw [h1 t ht d hd, sub_self, abs_zero]
      exact tol_pos
    · rw [h2 t ht (x.1, x.2 (y t)) (by rw [hb]; exact List.mem_map.mpr ⟨x, hx, rfl⟩), sub_self, abs_zero]
      exact tol_pos)
  refine ⟨δ, hδ, fun t ht z hz => ?_⟩
  have : z ∈ Metric.cthickening δ (y '' Set.Icc t0 T) :=
    Metric.mem_cthickening_of_dist_le z (y t) δ _ ⟨t, ht, rfl⟩ (by rw [dist_eq_norm]; exact hz)
  obtain ⟨g1, g2⟩ := hsub this
  refine ⟨fun d hd => (g1 d hd).le, fun x hx => ?_⟩
  rw [hb] at hx
  obtain ⟨x0, hx0, rfl⟩ := List.mem_map.mp hx
  exact (g2 x0 hx0).le

/-! ### steps -/

/-- the poses of the free joints and of the bodies are accepted -/
def Accepted (w0 : MWorld n Unit) (z : Y n) : Prop :=
  (∀ l ∈ w0.tree.links, ∀ H V, l.att = .free H V → ∃ h : l.start < n, LastRow (z.2.1 ⟨l.start, h⟩) ∧ |detRot (z.2.1 ⟨l.start, h⟩) - 1| ≤ tol) ∧
    ∀ x ∈ flyBodies w0 z.1 z.2.1 z.2.2, ishomogeneousmatrix x.2.pose

lemma hom_at {w0 : MWorld n Unit} {z : Y n} (ha : Accepted w0 z) {l : MLink} (hl : l ∈ w0.tree.links) (hr : IsRigid l.bpose0 ∧ IsRigid l.bpose1)
    (q v : Fin n → ℝ) : HomLink (flyAt q z.2.1 v l).link := by
  have ha := ha.1 l hl
  obtain ⟨att, start, b0, b1⟩ := l
  cases att with
  | lin k p dp =>
    refine ⟨hr.1, hr.2, (k.isRigid_pose _).ishom, ?_⟩
    change ishomogeneousmatrix (k.ipose _)
    rw [k.ipose_eq]
    exact (k.isRigid_pose _).invBody.ishom
  | fixed => exact ⟨hr.1, hr.2, isRigid_one.ishom, isRigid_one.invBody.ishom⟩
  | free H T =>
    obtain ⟨h1, h2, h3⟩ := ha H T rfl
    dsimp only at h1 h2 h3
    have h4 : ishomogeneousmatrix (poseAt z.2.1 start) := by
      simp only [poseAt, dif_pos h1]
      exact ⟨h3, h2⟩
    exact ⟨hr.1, hr.2, h4, hom_inv h4⟩

lemma weight_ok {γ : ℝ} {up : Vec3} {bs : List (Body × BodyDyn n)} (h : ∀ x ∈ bs, ishomogeneousmatrix x.2.pose) : ∃ out, weightUpdateE γ up bs = .ok out := by
  classical
  have key : ∀ (l : List (Body × BodyDyn n)) (acc : Fin n → ℝ), (∀ x ∈ l, ishomogeneousmatrix x.2.pose) → ∃ g,
      (l.foldlM (init := acc) fun acc x => do
        let A ← iadjoint x.2.pose
        return acc + x.2.jacᵀ *ᵥ (x.1.mass *ᵥ (A *ᵥ gravityTwist γ up)) : Except PyErr (Fin n → ℝ)) = .ok g := by
    intro l
    induction l with
    | nil => intro acc _; exact ⟨acc, rfl⟩
    | cons x l ih =>
      intro acc hl
      rw [List.foldlM_cons, iadjoint_eq, assertHom_ok (hl x (by simp))]
      exact ih _ fun y hy => hl y (by simp [hy])
  obtain ⟨g, hg⟩ := key (bs.filter fun x => weightNorm x.1.mass ≠ 0) 0 fun x hx => h x (List.mem_filter.mp hx).1
  refine ⟨⟨g, 0⟩, ?_⟩
  unfold weightUpdateE
  simp only [bind, Except.bind] at hg ⊢
  rw [hg]
  rfl

/-- the controllers do not raise -/
lemma ask_at {up : Vec3} {m : Body → ℝ} {c : Body → Vec3} {w0 w a : MWorld n Unit} {q v : Fin n → ℝ} {Q : Fin n → Fin 4 → Fin 4 → ℝ} {dt : ℝ} (h0 : Fixed m c w0)
    (ha : ∀ x ∈ flyBodies w0 q Q v, ishomogeneousmatrix x.2.pose)
    (ht : w.tree = w0.tree.map (flyAt q Q v) id) (h1 : a.tree = w.tree) (h3 : a.dyn = flyBodies w0 q Q v) : ∀ {l : List LibCtrl}, (∀ x ∈ l, PlainCtrl x) →
    (∀ x ∈ l, Steered w0 x) → ∃ vals, askAll up a dt l = .ok vals := by
  have hlinks : ∀ l ∈ w.tree.links, l.start + l.att.ndof ≤ n := by
    intro l hl
    rw [ht, links_map] at hl
    obtain ⟨l0, hl0, rfl⟩ := List.mem_map.mp hl
    have := (h0.links l0 hl0).1
    obtain ⟨att, start, p0, p1⟩ := l0
    cases att <;> exact this
  have hdofs : ∀ js, dofsOf w js = dofsOf w0 js := dofs_at ht
  intro l hl hs
  induction l with
  | nil => exact ⟨[], rfl⟩
  | cons x l ih =>
    obtain ⟨vs, hvs⟩ := ih (fun y hy => hl y (by simp [hy])) fun y hy => hs y (by simp [hy])
    have h : ∃ val, LibCtrl.update up a dt x = .ok val := by
      cases x with
      | weight γ =>
        obtain ⟨out, ho⟩ := weight_ok (γ := γ) (up := up) ha
        rw [← h3] at ho
        exact ⟨out, ho⟩
      | pd js g =>
        obtain ⟨h4, d, hsame⟩ := hs (.pd js g) (by simp)
        have e : pdRead a js = pdRead w js := by unfold pdRead; rw [h1]
        rw [← hdofs, dofsOf_read] at h4
        have hn := pdDofMap_nodup h0.num (hl (.pd js g) (by simp))
        rw [← dofsOf_read, ← hdofs, dofsOf_read] at hn
        have key : ∀ p ∈ pdRead w js, p.ndof = d := by
          intro p hp
          obtain ⟨i, hi, he⟩ := List.mem_filterMap.mp hp
          obtain ⟨l, hl, rfl⟩ := Option.map_eq_some_iff.mp he
          rw [ht, links_map, List.getElem?_map] at hl
          obtain ⟨l0, hl0, rfl⟩ := Option.map_eq_some_iff.mp hl
          obtain ⟨hs, hd⟩ := hsame i hi l0 hl0
          rw [← hd]
          obtain ⟨att, start, b0, b1⟩ := l0
          cases att with
          | lin k q dq => simp [flyAt, MLink.pd, PDJoint.ndof, JAttr.ndof]
          | free H T => exact absurd rfl (hs H T)
          | fixed => rfl
        have hin : ∀ d ∈ pdDofMap (pdRead w js), d < n := by
          intro d hd
          obtain ⟨i, hi, hil, h4, h5⟩ := mem_pdDofMap hd
          have := hlinks _ (List.getElem_mem hil)
          omega
        obtain ⟨val, hv, -⟩ := C34_law (n := n) g (pdRead w js) dt h4 (fun p hp p' hp' => by rw [key p hp, key p' hp']) hn hin
        exact ⟨val, by rw [← e] at hv; exact hv⟩
    obtain ⟨val, hv⟩ := h
    exact ⟨val :: vs, by unfold askAll; simp only [hv, hvs]⟩

/-- a step does not raise when its matrix is invertible -/
lemma step_exists {up : Vec3} {m : Body → ℝ} {c : Body → Vec3} {cs : List LibCtrl} {w0 w : MWorld n Unit} {q : Fin n → ℝ} {Q : Fin n → Fin 4 → Fin 4 → ℝ} {dt : ℝ}
    (h0 : Fixed m c w0) (hg : ∀ y ∈ cs, PlainCtrl y) (hs : ∀ y ∈ cs, Steered w0 y) (hacc : Accepted w0 (q, Q, w.gvel))
    (ht : w.tree = w0.tree.map (flyAt q Q w.gvel) id) (hc : w.cons = []) (hdt : 0 < dt)
    {b : Y n → Fin n → ℝ} {K D : Matrix (Fin n) (Fin n) ℝ} (hf : ∀ z q' v', (cs.map (mixed up m c w0 z q' v')).sum = b z - K *ᵥ q' - D *ᵥ v')
    (hdet : (lhs (fun z => worldMass (flyBodies w0 z.1 z.2.1 z.2.2)) (fun z => worldViscosity (flyBodies w0 z.1 z.2.1 z.2.2))
      (fun z => worldNleffects (flyBodies w0 z.1 z.2.1 z.2.2)) K D (dt, (q, Q, w.gvel))).det ≠ 0) :
    ∃ a1 a2 a3 w', (engine (libPlug n up cs)).dynamic w = .ok a1 ∧ (engine (libPlug n up cs)).controllers dt a1 = .ok a2 ∧
      (engine (libPlug n up cs)).constraints dt a2 = .ok a3 ∧ (engine (libPlug n up cs)).integrate dt a3 = .ok w' := by
  have hd : worldDynamic n (linksOf w) = flyBodies w0 q Q w.gvel := by
    unfold flyBodies linksOf
    rw [ht]
  have e1 : updateDynamicE (groundDyn n) (w.tree.map MLink.link id) = .ok (updateDynamic (groundDyn n) (w.tree.map MLink.link id)) := by
    refine updateDynamicE_hom _ (fun l hl => ?_) _
    rw [links_map, ht, links_map] at hl
    obtain ⟨l1, hl1, rfl⟩ := List.mem_map.mp hl
    obtain ⟨l0, hl0, rfl⟩ := List.mem_map.mp hl1
    exact hom_at hacc hl0 ⟨(h0.links l0 hl0).2.bpose0, (h0.links l0 hl0).2.bpose1⟩ q w.gvel
  obtain ⟨a, ha⟩ : ∃ a : MWorld n Unit, a = { w with dyn := worldDynamic n (linksOf w), mass := worldMass (worldDynamic n (linksOf w)), viscosity := worldViscosity (worldDynamic n (linksOf w)), nleffects := worldNleffects (worldDynamic n (linksOf w)) } := ⟨_, rfl⟩
  have g1 : (engine (libPlug n up cs)).dynamic w = .ok a := by
    simp only [engine, dynamic]
    rw [e1, ha]
    rfl
  obtain ⟨vals, hask⟩ := ask_at (up := up) (dt := dt) (a := a) h0 hacc.2 ht (by rw [ha]) (by rw [ha]; exact hd) hg hs
  have hsum := fun v' => vals_at (a := a) (dt := dt) h0 ht (by rw [ha]) (by rw [ha]; exact hd) v' hg (askAll_inv hask)
  have himp : (vals.map (·.impedance)).sum = -(dt • K + D) := by
    refine Matrix.ext_of_mulVec_single fun i => ?_
    have h1 := hsum (Pi.single i 1)
    have h2 := hsum 0
    rw [hf] at h1 h2
    simp only [Matrix.mulVec_zero, smul_zero, add_zero, sub_zero] at h2
    rw [h2] at h1
    simp only [Matrix.neg_mulVec, Matrix.add_mulVec, Matrix.smul_mulVec, Matrix.mulVec_add, Matrix.mulVec_smul] at h1 ⊢
    rw [← sub_eq_zero] at h1 ⊢
    rw [← h1]
    module
  have hz : (dt⁻¹ • a.mass + a.viscosity + a.nleffects - (vals.map (·.impedance)).sum).det ≠ 0 := by
    have e2 : dt⁻¹ • a.mass + a.viscosity + a.nleffects - (vals.map (·.impedance)).sum =
        dt⁻¹ • lhs (fun z => worldMass (flyBodies w0 z.1 z.2.1 z.2.2)) (fun z => worldViscosity (flyBodies w0 z.1 z.2.1 z.2.2))
          (fun z => worldNleffects (flyBodies w0 z.1 z.2.1 z.2.2)) K D (dt, (q, Q, w.gvel)) := by
      rw [himp]
      simp only [ha, lhs, hd, smul_add, inv_smul_smul₀ hdt.ne']
      module
    rw [e2, Matrix.det_smul]
    exact mul_ne_zero (pow_ne_zero _ (inv_ne_zero hdt.ne')) hdet
  obtain ⟨o, ho⟩ : ∃ o, updateControllers a.mass a.viscosity a.nleffects dt vals = .ok o :=
    ⟨⟨_, _, _⟩, (C33_sum _ _ _ _ _ _).mpr ⟨hdt, hz, rfl, rfl, Matrix.nonsing_inv_mul _ (isUnit_iff_ne_zero.mpr hz)⟩⟩
  obtain ⟨a2, ha2, hc2⟩ : ∃ a2, (engine (libPlug n up cs)).controllers dt a = .ok a2 ∧ a2.cons = [] := by
    simp only [engine, controllers, libPlug, hask, ho]
    exact ⟨_, rfl, by rw [ha]; exact hc⟩
  obtain ⟨a3, ha3⟩ : ∃ a3, (engine (libPlug n up cs)).constraints dt a2 = .ok a3 := by
    simp only [engine, constraints, updateConstraints, if_pos hdt, hc2, List.map_nil, writeBack]
    exact ⟨_, rfl⟩
  obtain ⟨w', hw'⟩ : ∃ w', (engine (libPlug n up cs)).integrate dt a3 = .ok w' := by
    simp only [engine, Mech.integrate, integrateGvel, if_pos hdt]
    exact ⟨_, rfl⟩
  exact ⟨a, a2, a3, w', g1, ha2, ha3, hw'⟩

/-- steps from near the exact motion -/
lemma steps_exist {up : Vec3} {m : Body → ℝ} {c : Body → Vec3} {cs : List LibCtrl} {w0 : MWorld n Unit} {t0 T h : ℝ} (h0 : Fixed m c w0)
    (hg : ∀ y ∈ cs, PlainCtrl y) (hs : ∀ y ∈ cs, Steered w0 y) {Near : ℝ → Y n → Prop}
    {b : Y n → Fin n → ℝ} {K D : Matrix (Fin n) (Fin n) ℝ} (hf : ∀ z q' v', (cs.map (mixed up m c w0 z q' v')).sum = b z - K *ᵥ q' - D *ᵥ v')
    (hacc : ∀ t z, t ∈ Set.Icc t0 T → Near t z → Accepted w0 z)
    (hdet : ∀ t t' z, t ∈ Set.Icc t0 T → t' ∈ Set.Icc t0 T → t < t' → t' - t ≤ h → Near t z →
      (lhs (fun z => worldMass (flyBodies w0 z.1 z.2.1 z.2.2)) (fun z => worldViscosity (flyBodies w0 z.1 z.2.1 z.2.2))
        (fun z => worldNleffects (flyBodies w0 z.1 z.2.1 z.2.2)) K D (t' - t, z)).det ≠ 0)
    (hstep : ∀ t t' q Q v v', t ∈ Set.Icc t0 T → t' ∈ Set.Icc t0 T → t < t' → t' - t ≤ h → Near t (q, Q, v) →
        worldMass (flyBodies w0 q Q v) *ᵥ (v' - v) + (t' - t) • ((worldViscosity (flyBodies w0 q Q v) + worldNleffects (flyBodies w0 q Q v)) *ᵥ v') =
          (t' - t) • (cs.map (mixed up m c w0 (q, Q, v) (q + (t' - t) • v') v')).sum →
        Near t' (q + (t' - t) • v', moved (t' - t) Q v', v')) :
    ∀ (ts : List ℝ) (t : ℝ) {w : MWorld n Unit} {q : Fin n → ℝ} {Q : Fin n → Fin 4 → Fin 4 → ℝ}, w.tree = w0.tree.map (flyAt q Q w.gvel) id → w.cons = [] →
      (∀ l ∈ w.tree.links, HasVel w.gvel l) → (t :: ts).Pairwise (· < ·) → (∀ τ ∈ t :: ts, τ ∈ Set.Icc t0 T) → (t :: ts).IsChain (fun a b => b - a ≤ h) →
      Near t (q, Q, w.gvel) → ∃ obs w', Steps (engine (libPlug n up cs)) (t :: ts) w obs w'
  | [], t, w, _, _, _, _, _, _, _, _, _ => ⟨[], w, .done t w⟩
  | t' :: ts, t, w, q, Q, ht, hc, hv, hp, hT, hch, hn => by
    have hlt : t < t' := (List.pairwise_cons.mp hp).1 t' (by simp)
    obtain ⟨hd, hch'⟩ := List.isChain_cons_cons.mp hch
    obtain ⟨a1, a2, a3, w1, k1, k2, k3, k4⟩ := step_exists (up := up) h0 hg hs (hacc t _ (hT t (by simp)) hn) ht hc (sub_pos.mpr hlt) hf
      (hdet t t' _ (hT t (by simp)) (hT t' (by simp)) hlt hd hn)
    have hws := step_wstep (P := libPlug n up cs) (dt := t' - t) hv k1 k2 k3 k4
    obtain ⟨g1, g2, g3⟩ := Fly.step_at h0 hg ht hc hws
    obtain ⟨obs, w', hst⟩ := steps_exist h0 hg hs hf hacc hdet hstep ts t' g1 g2 hws.vel (List.pairwise_cons.mp hp).2 (fun y hy => hT y (by simp at hy ⊢; tauto)) hch'
      (hstep t t' q Q w.gvel w1.gvel (hT t (by simp)) (hT t' (by simp)) hlt hd hn g3)
    exact ⟨_, w', .step k1 k2 k3 k4 hst⟩

end Fly

open Fly in
/-- C133.  No simulation of this mechanism with small enough steps raises, as long as the exact motion exists: no matrix it inverts is singular, and the poses of the
free joints, which are computed by truncated series, are accepted, and those of the bodies. -/
theorem C133_runs {up : Vec3} {m : Body → ℝ} {c : Body → Vec3} {cs : List LibCtrl} {w w0 : MWorld n Unit} {t0 T : ℝ} {x u a : ℝ → Fin n → ℝ}
    {P : ℝ → Fin n → Fin 4 → Fin 4 → ℝ} (hw : FlyingWorld m c w) (hg : ∀ y ∈ cs, PlainCtrl y) (hs : ∀ y ∈ cs, Steered w y) (hi : Mech.init w = .ok w0)
    (hx : FlyPath up m c cs w0 t0 T x P u a) :
    ∃ hmax > 0, ∀ (tl : List ℝ) (k : ℕ), tl.head? = some t0 → tl.Pairwise (· < ·) → (∀ t ∈ tl, t ≤ T) → tl.IsChain (fun t1 t2 => t2 - t1 ≤ hmax) →
      ∃ tr w' t', simulate (engine (libPlug n up cs)) w tl (.list k) = (tr, .ok (w', t')) := by
  by_cases hT : t0 ≤ T
  swap
  · refine ⟨1, one_pos, ?_⟩
    intro tl k hhead _ hT' _
    exact absurd (hT' t0 (List.mem_of_mem_head? hhead)) hT
  obtain ⟨w0', h1, hst⟩ := init_started hw.dofs
  obtain rfl : w0 = w0' := Except.ok.inj (hi.symm.trans h1)
  have hfix := Fly.Fixed.started hw hst
  have hs0 : ∀ y ∈ cs, Steered w0 y := by
    intro y hy
    have := hs y hy
    cases y with
    | weight γ => trivial
    | pd js g =>
      obtain ⟨h2, d, hd⟩ := this
      refine ⟨?_, d, fun i hi l hl => ?_⟩
      · have := dofs_started hst js
        rw [← List.length_pos_iff] at h2 ⊢
        omega
      · obtain ⟨l0, h0, h1⟩ := forall₂_get? hst.tree.links.1 hl
        rw [h1]
        exact hd i hi l0 h0
  have hfree : ∀ l ∈ w0.tree.links, ∀ H V, l.att = .free H V → ∃ h : l.start < n, LastRow (P t0 ⟨l.start, h⟩) ∧ detRot (P t0 ⟨l.start, h⟩) = 1 := by
    intro l hl H V e
    have h2 := (hfix.links l hl).1
    rw [e] at h2
    have h2 : l.start + 6 ≤ n := h2
    have h3 : l.start < n := by omega
    have h4 := hx.pose l hl H V e
    simp only [poseAt, dif_pos h3] at h4
    obtain ⟨⟨_, _, hdet⟩, q⟩ := (hfix.links l hl).2.free H V e
    rw [← h4] at hdet q
    exact ⟨h3, q, hdet⟩
  obtain ⟨δ, hδ, hnear⟩ := det_near (w0 := w0) (y := fun t => (x t, P t, u t)) (t0 := t0) (T := T) (G := fun d => LastRow (P t0 d) ∧ detRot (P t0 d) = 1)
    (fun t ht => ((hx.dx t ht).prodMk ((hasDerivAt_pi.mpr fun d => hasDerivAt_pi.mpr fun i => hasDerivAt_pi.mpr fun j => hx.dP t ht d i j).prodMk
      (hx.du t ht))).continuousAt.continuousWithinAt)
    (fun t ht d hd => by
      rw [← hd.2]
      exact detRot_const (P := fun s => P s d) (V := fun s => twistAt (u s) d) (fun s hs i j => hx.dP s hs d i j) t ht)
    (fun t ht y hy => by
      refine (bodies_closed (C := fun H : Mat4 => LastRow H ∧ (rot H).det = 1) dets_mul (fun H hH => ⟨rigid_row hH, hH.1.2.2⟩) (fun l hl => (hfix.links l hl).2) ?_ y hy).2
      intro l hl H V e
      obtain ⟨g1, g2, g3⟩ := hfree l hl H V e
      simp only [poseAt, dif_pos g1]
      refine ⟨row_const (P := fun s => P s ⟨l.start, g1⟩) (V := fun s => twistAt (u s) l.start) (fun s hs i j => hx.dP s hs ⟨l.start, g1⟩ i j) g2 t ht, ?_⟩
      have := detRot_const (P := fun s => P s ⟨l.start, g1⟩) (V := fun s => twistAt (u s) l.start) (fun s hs i j => hx.dP s hs ⟨l.start, g1⟩ i j) t ht
      rw [g3] at this
      exact this)
  obtain ⟨M, B, N, K, D, b, ef, eM, eB, eN, A, hA, L, hL, h0, hpos, hconv⟩ := near_exists hT hx
  obtain rfl : M = _ := funext eM
  obtain rfl : B = _ := funext eB
  obtain rfl : N = _ := funext eN
  have hτ : 0 ≤ T - t0 := by linarith
  have hC : 0 ≤ A * (T - t0) * Real.exp (L * (T - t0)) := by positivity
  obtain ⟨hmax, hm0, hm1, hm2⟩ : ∃ h > 0, h ≤ h0 ∧ A * (T - t0) * Real.exp (L * (T - t0)) * h ≤ δ := by
    refine ⟨min h0 (δ / (A * (T - t0) * Real.exp (L * (T - t0)) + 1)), lt_min hpos (by positivity), min_le_left _ _, ?_⟩
    refine (mul_le_mul_of_nonneg_left (min_le_right _ _) hC).trans ?_
    rw [← mul_div_assoc, div_le_iff₀ (by positivity)]
    nlinarith
  refine ⟨hmax, hm0, ?_⟩
  intro tl k hhead hp hTl hch
  cases tl with
  | nil => simp at hhead
  | cons t1 rest =>
  obtain rfl : t1 = t0 := by simpa using hhead
  have hIcc : ∀ τ ∈ t1 :: rest, τ ∈ Set.Icc t1 T := by
    intro τ hτ
    refine ⟨?_, hTl τ hτ⟩
    rcases List.mem_cons.mp hτ with rfl | hτ
    · exact le_rfl
    · exact ((List.pairwise_cons.mp hp).1 τ hτ).le
  have htree : w0.tree = w0.tree.map (flyAt (x t1) (P t1) w0.gvel) id :=
    (Turn.map_self fun l hl => flyAt_self (hx.pos l hl) (hx.pose l hl) (hst.vel l hl)).symm
  obtain ⟨obs, w', hsteps⟩ := Fly.steps_exist (up := up) (m := m) (c := c) (cs := cs) hfix hg hs0 (T := T) (h := hmax)
    (Near := fun t z => ‖z - (x t, P t, u t)‖ ≤ OneStep.bound A L hmax (t - t1) ∧ ∀ d, LastRow (P t1 d) → LastRow (z.2.1 d)) ef (by
      intro t z ht hz
      obtain ⟨n1, n2⟩ := hnear t ht z (by
        refine hz.1.trans (le_trans ?_ hm2)
        unfold OneStep.bound
        have f1 : Real.exp (L * (t - t1)) ≤ Real.exp (L * (T - t1)) := Real.exp_le_exp.mpr (mul_le_mul_of_nonneg_left (by linarith [ht.2]) hL)
        have f2 : A * hmax * (t - t1) ≤ A * hmax * (T - t1) := mul_le_mul_of_nonneg_left (by linarith [ht.2]) (by positivity)
        have f3 : 0 ≤ A * hmax * (T - t1) := by positivity
        calc _ ≤ A * hmax * (T - t1) * Real.exp (L * (T - t1)) := mul_le_mul f2 f1 (Real.exp_nonneg _) f3
          _ = _ := by ring)
      refine ⟨fun l hl H V e => ?_, fun y hy => ⟨n2 y hy, ?_⟩⟩
      · obtain ⟨g1, g2, g3⟩ := hfree l hl H V e
        exact ⟨g1, hz.2 _ g2, n1 _ ⟨g2, g3⟩⟩
      · refine bodies_closed (C := fun H : Mat4 => LastRow H) rows_mul (fun H hH => rigid_row hH) (fun l hl => (hfix.links l hl).2) ?_ y hy
        intro l hl H V e
        obtain ⟨g1, g2, g3⟩ := hfree l hl H V e
        simp only [poseAt, dif_pos g1]
        exact hz.2 _ g2)
    (fun t τ z ht ht' htt hth hz => (hconv t (τ - t) hmax z ht.1 (by linarith) hth hm1 (by linarith [ht'.2]) hz.1).1.1) (by
      intro t τ q Q v v' ht ht' htt hth hz eq2
      obtain ⟨d1, d2⟩ := hconv t (τ - t) hmax (q, Q, v) ht.1 (by linarith) hth hm1 (by linarith [ht'.2]) hz.1
      have := Fly.slope_step (dt := τ - t) (by linarith) d1 (by rw [← ef]; exact eq2)
      rw [← this, add_sub_cancel] at d2
      exact ⟨d2, fun d hd => row_mul (hz.2 d hd) (exp_row _)⟩) rest t1 htree hfix.cons hst.vel hp hIcc hch
        ⟨by rw [hx.vel]; simp [OneStep.bound], fun d hd => hd⟩
  exact ⟨_, w', (t1 :: rest).getLast (by simp), (C45_run ..).mpr ⟨t1, rest, w0, obs, rfl, hp, hi, hsteps, rfl, List.getLast?_eq_some_getLast _⟩⟩

/-- a body thrown and spinning, with its weight: the simulations with `N` equal steps, `N` large, run and end at most `C / N` away from the exact motion -/
example : ∃ w0, Mech.init disc = .ok w0 ∧ ∃ T > 0, ∃ x P u a, FlyPath ![0, 0, 1] (fun _ => 1) (fun _ => 0) [.weight (-9.81)] w0 0 T x P u a ∧ ∃ C ≥ 0, ∃ N0 : ℕ, ∀ N : ℕ, N0 < N →
    ∃ tr w', simulate (engine (libPlug 6 ![0, 0, 1] [.weight (-9.81)])) disc ((List.range (N + 1)).map fun i : ℕ => T * i / N) (.list 0) = (tr, .ok (w', T)) ∧
      FlyNear w0 (x T) (P T) (u T) (C * (T / N)) w' := by
  have hn : ndof disc.tree = 6 := by simp [ndof, disc, Forest.links, JAttr.ndof]
  have hw : FlyingWorld (fun _ => 1) (fun _ => 0) disc := by
    refine ⟨hn, ?_, ?_, rfl⟩
    · intro l hl
      simp only [disc, Forest.links, List.append_nil, List.mem_singleton] at hl
      subst hl
      exact ⟨isRigid_one, isRigid_one, fun H T h => by cases h; exact isRigid_one⟩
    · intro b hb
      simp only [disc, Forest.bodies, List.append_nil, List.mem_singleton] at hb
      subst hb
      exact ⟨⟨1, ⟨Matrix.transpose_one, by simp [skew_zero, blk_one]⟩⟩, zero_le_one⟩
  have hg : ∀ y ∈ [LibCtrl.weight (-9.81)], PlainCtrl y := by
    intro y hy
    obtain rfl := List.mem_singleton.mp hy
    trivial
  have hs : ∀ y ∈ [LibCtrl.weight (-9.81)], Steered disc y := by
    intro y hy
    obtain rfl := List.mem_singleton.mp hy
    trivial
  obtain ⟨w0, h0, hst⟩ := init_started hn
  have htree : linksOf w0 = linksOf disc := by
    obtain rfl := Except.ok.inj h0
    rfl
  have hM : (worldMass (worldDynamic 6 (linksOf w0))).det ≠ 0 := by
    rw [htree, disc_dyn]
    simp [worldMass]
  obtain ⟨T, hT, x, P, u, a, hx⟩ := C133_exists (up := ![0, 0, 1]) (cs := [.weight (-9.81)]) hw h0 hM 0
  obtain ⟨C, hC, h1, hh1, hconv⟩ := C133_converges hw hg h0 hx
  obtain ⟨h2, hh2, hruns⟩ := C133_runs hw hg hs h0 hx
  obtain ⟨N0, hN0⟩ := exists_nat_gt (T / min h1 h2)
  have hmin := lt_min hh1 hh2
  refine ⟨w0, h0, T, hT, x, P, u, a, hx, C, hC, N0, fun N hN => ?_⟩
  have hN' : (0 : ℝ) < N := by exact_mod_cast (Nat.zero_le N0).trans_lt hN
  have hsmall : T / N ≤ min h1 h2 := by
    rw [div_lt_iff₀ hmin] at hN0
    rw [div_le_iff₀ hN']
    have : (N0 : ℝ) ≤ N := by exact_mod_cast hN.le
    nlinarith
  set tl := (List.range (N + 1)).map fun i : ℕ => T * i / N with htl
  have hp : tl.Pairwise (· < ·) := by
    rw [htl, List.pairwise_map]
    refine List.pairwise_lt_range.imp fun {i j} hij => ?_
    have : (i : ℝ) < j := by exact_mod_cast hij
    exact (div_lt_div_iff_of_pos_right hN').mpr (mul_lt_mul_of_pos_left this hT)
  have hhead : tl.head? = some 0 := by simp [htl, List.head?_range]
  have hTl : ∀ t ∈ tl, t ≤ T := by
    intro t ht
    obtain ⟨i, hi, rfl⟩ := List.mem_map.mp ht
    have : (i : ℝ) ≤ N := by
      have := List.mem_range.mp hi
      exact_mod_cast Nat.lt_succ_iff.mp this
    rw [div_le_iff₀ hN']
    exact mul_le_mul_of_nonneg_left this hT.le
  have hch : tl.IsChain fun t1 t2 : ℝ => t2 - t1 ≤ T / N := by
    rw [List.isChain_iff_getElem]
    intro i hi
    simp only [htl, List.getElem_map, List.getElem_range]
    refine le_of_eq ?_
    push_cast
    ring
  have hch2 : tl.IsChain fun t1 t2 : ℝ => t2 - t1 ≤ h2 := hch.imp fun _ _ h => h.trans (hsmall.trans (min_le_right _ _))
  obtain ⟨tr, w', t', hrun⟩ := hruns tl 0 hhead hp hTl hch2
  obtain ⟨k1, k2, -⟩ := hconv (T / N) tl 0 tr w' t' (by positivity) (hsmall.trans (min_le_left _ _)) hhead hTl hch hrun
  have ht' : t' = T := by
    have : tl.getLast? = some T := by
      rw [htl, List.range_succ, List.map_append]
      simp
      field_simp
    rw [k1] at this
    exact Option.some.inj this
  subst ht'
  exact ⟨tr, w', hrun, k2⟩

end Arboris
