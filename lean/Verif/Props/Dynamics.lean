import Verif.Props.Tree

/-! # Properties C27–C29 and the counterexamples of C23, C29 -/

namespace Arboris
open Matrix Real Spec

/-! ### sums -/

lemma foldl_add_eq {α M : Type} [AddCommMonoid M] (f : α → M) (l : List α) (a : M) :
    l.foldl (fun acc x => acc + f x) a = a + (l.map f).sum := by
  induction l generalizing a with
  | nil => simp
  | cons x l ih => simp [ih, add_assoc]

lemma worldMass_eq {n : ℕ} (bs : List (Body × BodyDyn n)) :
    worldMass bs = (bs.map fun x => x.2.jacᵀ * x.1.mass * x.2.jac).sum := by
  rw [worldMass, foldl_add_eq, zero_add]
lemma worldNleffects_eq {n : ℕ} (bs : List (Body × BodyDyn n)) :
    worldNleffects bs = (bs.map fun x =>
      x.2.jacᵀ * (x.1.mass * x.2.djac + bodyNleffects x.1.mass x.2.twist * x.2.jac)).sum := by
  rw [worldNleffects, foldl_add_eq, zero_add]
lemma worldViscosity_eq {n : ℕ} (bs : List (Body × BodyDyn n)) :
    worldViscosity bs = (bs.map fun x => x.2.jacᵀ * x.1.viscosity * x.2.jac).sum := by
  rw [worldViscosity, foldl_add_eq, zero_add]

lemma dot_sum_mulVec {n : ℕ} (x y : Fin n → ℝ) (l : List (Matrix (Fin n) (Fin n) ℝ)) :
    x ⬝ᵥ l.sum *ᵥ y = (l.map fun A => x ⬝ᵥ A *ᵥ y).sum := by
  induction l with
  | nil => simp
  | cons A l ih => simp [Matrix.add_mulVec, dotProduct_add, ih]

lemma dot_transpose_mul {m n : ℕ} (x : Fin n → ℝ) (J : Matrix (Fin m) (Fin n) ℝ) (u : Fin m → ℝ) :
    x ⬝ᵥ Jᵀ *ᵥ u = (J *ᵥ x) ⬝ᵥ u := by
  rw [Matrix.dotProduct_mulVec, Matrix.vecMul_transpose]

lemma dot_JtMJ {m n : ℕ} (x y : Fin n → ℝ) (J : Matrix (Fin m) (Fin n) ℝ) (M : Matrix (Fin m) (Fin m) ℝ) :
    x ⬝ᵥ (Jᵀ * M * J) *ᵥ y = (J *ᵥ x) ⬝ᵥ M *ᵥ (J *ᵥ y) := by
  rw [← Matrix.mulVec_mulVec, ← Matrix.mulVec_mulVec, dot_transpose_mul]

lemma list_transpose_sum {n : ℕ} (l : List (Matrix (Fin n) (Fin n) ℝ)) (h : ∀ A ∈ l, Aᵀ = A) :
    l.sumᵀ = l.sum := by
  induction l with
  | nil => simp
  | cons A l ih =>
    simp only [List.mem_cons, forall_eq_or_imp] at h
    simp [Matrix.transpose_add, h.1, ih h.2]

lemma list_sum_pos (l : List ℝ) (h : ∀ a ∈ l, 0 ≤ a) (h' : ∃ a ∈ l, 0 < a) : 0 < l.sum := by
  induction l with
  | nil => obtain ⟨a, ha, _⟩ := h'; simp at ha
  | cons b l ih =>
    simp only [List.mem_cons, forall_eq_or_imp] at h
    obtain ⟨a, ha, hpos⟩ := h'
    rw [List.sum_cons]
    rcases List.mem_cons.mp ha with rfl | ha
    · exact add_pos_of_pos_of_nonneg hpos (List.sum_nonneg h.2)
    · exact add_pos_of_nonneg_of_pos h.1 (ih h.2 ⟨a, ha, hpos⟩)

/-! ### C27 -/

/-- C27: `world.mass` is symmetric when the bodies' mass matrices are. -/
theorem C27_symmetric {n : ℕ} (bs : List (Body × BodyDyn n)) (h : ∀ x ∈ bs, x.1.massᵀ = x.1.mass) :
    (worldMass bs)ᵀ = worldMass bs := by
  rw [worldMass_eq]
  apply list_transpose_sum
  intro A hA
  obtain ⟨x, hx, rfl⟩ := List.mem_map.mp hA
  simp only [Matrix.transpose_mul, Matrix.transpose_transpose, h x hx, Matrix.mul_assoc]
/-- C27: `νᵀ mass ν` is the sum over the bodies of `Tᵀ M T`, for the tree's own twists. -/
theorem C27_energy {n : ℕ} (ν : Fin n → ℝ) (F : Forest Link Body) (h : ∀ l ∈ F.links, Consistent ν l) :
    ν ⬝ᵥ worldMass (worldDynamic n F) *ᵥ ν =
      ((worldDynamic n F).map fun x => x.2.twist ⬝ᵥ x.1.mass *ᵥ x.2.twist).sum := by
  rw [worldMass_eq, dot_sum_mulVec, List.map_map]
  congr 1
  apply List.map_congr_left
  intro x hx
  simp only [Function.comp_apply, dot_JtMJ, C21_twist ν F h x hx]
/-- C27: positive semi-definite when all body masses are. -/
theorem C27_psd {n : ℕ} (bs : List (Body × BodyDyn n)) (h : ∀ x ∈ bs, SymPSD x.1.mass) :
    SymPSD (worldMass bs) := by
  refine ⟨C27_symmetric bs fun x hx => (h x hx).1, fun ν => ?_⟩
  rw [worldMass_eq, dot_sum_mulVec, List.map_map]
  apply List.sum_nonneg
  intro a ha
  obtain ⟨x, hx, rfl⟩ := List.mem_map.mp ha
  simp only [Function.comp_apply, dot_JtMJ]
  exact (h x hx).2 _
/-- C27: positive definite as soon as every non-zero velocity moves a body with positive definite mass. -/
theorem C27_pd {n : ℕ} (bs : List (Body × BodyDyn n)) (h : ∀ x ∈ bs, SymPSD x.1.mass)
    (hmove : ∀ ν : Fin n → ℝ, ν ≠ 0 → ∃ x ∈ bs, SymPD x.1.mass ∧ x.2.jac *ᵥ ν ≠ 0) :
    SymPD (worldMass bs) := by
  refine ⟨(C27_psd bs h).1, fun ν hν => ?_⟩
  obtain ⟨x, hx, hpd, hne⟩ := hmove ν hν
  rw [worldMass_eq, dot_sum_mulVec, List.map_map]
  apply list_sum_pos
  · intro a ha
    obtain ⟨y, hy, rfl⟩ := List.mem_map.mp ha
    simp only [Function.comp_apply, dot_JtMJ]
    exact (h y hy).2 _
  · refine ⟨_, List.mem_map.mpr ⟨x, hx, rfl⟩, ?_⟩
    simp only [Function.comp_apply, dot_JtMJ]
    exact hpd.2 _ hne
/-- C27, viscosity: the world's viscosity has the same structure. -/
theorem C27_viscosity {n : ℕ} (bs : List (Body × BodyDyn n)) (h : ∀ x ∈ bs, SymPSD x.1.viscosity) :
    SymPSD (worldViscosity bs) := by
  constructor
  · rw [worldViscosity_eq]
    apply list_transpose_sum
    intro A hA
    obtain ⟨x, hx, rfl⟩ := List.mem_map.mp hA
    simp only [Matrix.transpose_mul, Matrix.transpose_transpose, (h x hx).1, Matrix.mul_assoc]
  · intro ν
    rw [worldViscosity_eq, dot_sum_mulVec, List.map_map]
    apply List.sum_nonneg
    intro a ha
    obtain ⟨x, hx, rfl⟩ := List.mem_map.mp ha
    simp only [Function.comp_apply, dot_JtMJ]
    exact (h x hx).2 _

/-! ### C28 -/

/-- C28: above the threshold, a body's `nleffects·T` is the Newton–Euler bias and does no work. -/
theorem C28_bias {M : Mat6} {m : ℝ} {c : Vec3} {I : Mat3} (h : IsRigidMass M m c I) (hm : 1e-10 < m) (T : Vec6) :
    bodyNleffects M T *ᵥ T = newtonEulerBias M T ∧ T ⬝ᵥ bodyNleffects M T *ᵥ T = 0 := by
  rw [nle_eq h hm]; exact ⟨rfl, dot_newtonEulerBias M T⟩
/-- C28: at or below the threshold the force `v × P` of the centre-of-mass offset is dropped from the moment; the
result is still the bias, and workless, when the mass or the offset is zero. -/
theorem C28_small {M : Mat6} {m : ℝ} {c : Vec3} {I : Mat3} (h : IsRigidMass M m c I) (hm : m ≤ 1e-10) (T : Vec6) :
    bodyNleffects M T *ᵥ T = newtonEulerBias M T - tw (lin T ⨯₃ lin (M *ᵥ T)) 0 ∧
    (m • c = 0 → bodyNleffects M T *ᵥ T = newtonEulerBias M T ∧ T ⬝ᵥ bodyNleffects M T *ᵥ T = 0) := by
  have e : bodyNleffects M T *ᵥ T = newtonEulerBias M T - tw (lin T ⨯₃ lin (M *ᵥ T)) 0 := by
    rw [nle_small h hm, newtonEulerBias, sub_eq_add_neg, tw_neg, tw_add, add_neg_cancel_right, neg_zero, add_zero]
  refine ⟨e, fun hc => ?_⟩
  have hs : m • skew c = 0 := by rw [← skew_smul, hc, skew_zero]
  have hP : lin T ⨯₃ lin (M *ᵥ T) = 0 := by
    have : lin (M *ᵥ T) = m • lin T := by
      conv_lhs => rw [h.eq, ← tw_ang_lin T, blk_mulVec, lin_tw, hs]
      simp [Matrix.smul_mulVec]
    rw [this, map_smul, cross_self, smul_zero]
  have e2 : bodyNleffects M T *ᵥ T = newtonEulerBias M T := by rw [e, hP, tw_zero, sub_zero]
  exact ⟨e2, by rw [e2]; exact dot_newtonEulerBias M T⟩
/-- the hypotheses of C28 are met by a body of mass 2 with an offset centre of mass -/
example : IsRigidMass (blk 1 ((2:ℝ) • skew ![1,2,3]) (-((2:ℝ) • skew ![1,2,3])) ((2:ℝ) • 1)) 2 ![1,2,3] 1 ∧
    (1e-10 : ℝ) < 2 := ⟨⟨Matrix.transpose_one, rfl⟩, by norm_num⟩

/-! ### C29 -/

/-- power of the inertial terms of one body -/
lemma nle_power {n : ℕ} (bs : List (Body × BodyDyn n)) (ν : Fin n → ℝ)
    (ht : ∀ x ∈ bs, x.2.twist = x.2.jac *ᵥ ν)
    (h0 : ∀ x ∈ bs, x.2.twist ⬝ᵥ bodyNleffects x.1.mass x.2.twist *ᵥ x.2.twist = 0) :
    ν ⬝ᵥ worldNleffects bs *ᵥ ν =
      (bs.map fun x => x.2.twist ⬝ᵥ x.1.mass *ᵥ (x.2.djac *ᵥ ν)).sum := by
  rw [worldNleffects_eq, dot_sum_mulVec, List.map_map]
  congr 1
  apply List.map_congr_left
  intro x hx
  have := h0 x hx
  have e := ht x hx
  simp only [Function.comp_apply]
  rw [← Matrix.mulVec_mulVec, dot_transpose_mul, Matrix.add_mulVec, dotProduct_add, ← Matrix.mulVec_mulVec,
    ← Matrix.mulVec_mulVec, ← e, this, add_zero]

lemma dot_mulVec_symm {n : ℕ} (M : Matrix (Fin n) (Fin n) ℝ) (h : Mᵀ = M) (x y : Fin n → ℝ) :
    x ⬝ᵥ M *ᵥ y = y ⬝ᵥ M *ᵥ x := by
  conv_lhs => rw [← h]
  rw [dot_transpose_mul, dotProduct_comm]

/-- kinetic energy of a list of (body, motion) -/
lemma energy_deriv {n : ℕ} (bs : List (Body × (ℝ → BodyDyn n))) (ν : ℝ → Fin n → ℝ) (ν' : Fin n → ℝ) (t : ℝ)
    (hs : ∀ x ∈ bs, x.1.massᵀ = x.1.mass) (hν : HasDerivV ν ν' t)
    (hJ : ∀ x ∈ bs, HasDeriv (fun s => (x.2 s).jac) (x.2 t).djac t) :
    HasDerivAt (fun s => 1 / 2 * (ν s ⬝ᵥ worldMass (bs.map fun x => (x.1, x.2 s)) *ᵥ ν s))
      (ν t ⬝ᵥ worldMass (bs.map fun x => (x.1, x.2 t)) *ᵥ ν' +
        (bs.map fun x => ((x.2 t).jac *ᵥ ν t) ⬝ᵥ x.1.mass *ᵥ ((x.2 t).djac *ᵥ ν t)).sum) t := by
  simp only [worldMass_eq, dot_sum_mulVec, List.map_map, Function.comp_def, dot_JtMJ]
  induction bs with
  | nil => simpa using hasDerivAt_const t (0:ℝ)
  | cons x bs ih =>
    have ih' := ih (fun y hy => hs y (by simp [hy])) (fun y hy => hJ y (by simp [hy]))
    have hx := hJ x (by simp)
    have hsx := hs x (by simp)
    have hT : HasDerivV (fun s => (x.2 s).jac *ᵥ ν s) ((x.2 t).djac *ᵥ ν t + (x.2 t).jac *ᵥ ν') t := hx.mulVec hν
    have hMT := (HasDeriv.const x.1.mass t).mulVec hT
    have h1 := (hT.dot hMT).const_mul (1/2 : ℝ)
    have h2 := h1.add ih'
    simp only [List.map_cons, List.sum_cons, mul_add]
    refine h2.congr_deriv ?_
    simp only [Matrix.zero_mulVec, zero_add, Matrix.mulVec_add, dotProduct_add, add_dotProduct]
    rw [dot_mulVec_symm _ hsx ((x.2 t).djac *ᵥ ν t), dot_mulVec_symm _ hsx ((x.2 t).jac *ᵥ ν')]
    ring

lemma worldDynamic_eq_map {n : ℕ} (F : Forest LinkT Body) (s : ℝ) :
    worldDynamic n (treeAt F s) = (F.paths.map fun x => (x.1, dynAt n x.2)).map fun x => (x.1, x.2 s) := by
  rw [worldDynamic_treeAt, List.map_map]; rfl

/-- C29, proved part: for every tree of bodies with rigid-body mass matrices (mass above the threshold, or no
centre-of-mass offset) and every differentiable motion, `d/dt (½ νᵀ mass ν) = νᵀ (mass ν' + nleffects ν)`, provided
joints below moving bodies have twists invariant under their own displacement.  Missing: multi-axis joints below
moving bodies, for which it is false (`C29_false`). -/
theorem C29_partial {n : ℕ} (F : Forest LinkT Body) (ν : ℝ → Fin n → ℝ) (ν' : Fin n → ℝ) (t : ℝ)
    (hv : ∀ s, ∀ l ∈ F.links, ValidLink (l.at s)) (hm : ∀ l ∈ F.links, l.Moving t)
    (hj : ∀ l ∈ F.links, l.MovingJac t) (hc : ∀ l ∈ F.links, Consistent (ν t) (l.at t))
    (hok : ∀ x ∈ F.paths, ∀ pre l post, x.2 = pre ++ l :: post → l.OwnInvariant t ∨ ∀ m ∈ pre, m.k = 0)
    (hmass : ∀ x ∈ F.paths, ∃ m c I, IsRigidMass x.1.mass m c I ∧ (1e-10 < m ∨ m • c = 0))
    (hν : HasDerivV ν ν' t) :
    HasDerivAt (fun s => 1 / 2 * (ν s ⬝ᵥ worldMass (worldDynamic n (treeAt F s)) *ᵥ ν s))
      (ν t ⬝ᵥ (worldMass (worldDynamic n (treeAt F t)) *ᵥ ν' +
        worldNleffects (worldDynamic n (treeAt F t)) *ᵥ ν t)) t := by
  have hcons : ∀ l ∈ (treeAt F t).links, Consistent (ν t) l := by
    have : ∀ (G : Forest LinkT Body), (treeAt G t).links = G.links.map (fun l => l.at t) := by
      intro G
      induction G with
      | nil => rfl
      | cons l b ch sib h1 h2 =>
        have h1' : (ch.map (fun l => l.at t) id).links = _ := h1
        have h2' : (sib.map (fun l => l.at t) id).links = _ := h2
        simp [treeAt, Forest.map, Forest.links, h1', h2']
    intro l hl
    rw [this] at hl
    obtain ⟨l', hl', rfl⟩ := List.mem_map.mp hl
    exact hc l' hl'
  have ht := C21_twist (ν t) (treeAt F t) hcons
  have h0 : ∀ x ∈ worldDynamic n (treeAt F t),
      x.2.twist ⬝ᵥ bodyNleffects x.1.mass x.2.twist *ᵥ x.2.twist = 0 := by
    intro x hx
    rw [worldDynamic_treeAt] at hx
    obtain ⟨y, hy, rfl⟩ := List.mem_map.mp hx
    obtain ⟨m, c, I, hM, hmc⟩ := hmass y hy
    rcases le_or_gt m 1e-10 with h | h
    · rcases hmc with h' | h'
      · exact absurd h' (not_lt.mpr h)
      · exact ((C28_small hM h _).2 h').2
    · exact (C28_bias hM h _).2
  rw [dotProduct_add, nle_power _ _ ht h0]
  have key := energy_deriv (F.paths.map fun x => (x.1, dynAt n x.2)) ν ν' t
    (by
      intro x hx
      obtain ⟨y, hy, rfl⟩ := List.mem_map.mp hx
      obtain ⟨m, c, I, hM, _⟩ := hmass y hy
      exact hM.transpose)
    hν
    (by
      intro x hx
      obtain ⟨y, hy, rfl⟩ := List.mem_map.mp hx
      exact dynAt_hasDeriv_jac (n := n) (fun s l hl => hv s l (mem_links_of_mem_paths hy hl))
        (fun l hl => hm l (mem_links_of_mem_paths hy hl))
        (fun l hl => hj l (mem_links_of_mem_paths hy hl)) (hok y hy))
  simp only [← worldDynamic_eq_map] at key
  refine key.congr_deriv ?_
  congr 1
  rw [worldDynamic_eq_map]
  simp only [List.map_map]
  congr 1
  apply List.map_congr_left
  intro y hy
  have hx : (y.1, dynAt n y.2) ∈ F.paths.map fun x => (x.1, dynAt n x.2) := List.mem_map.mpr ⟨y, hy, rfl⟩
  generalize hxy : (y.1, dynAt n y.2) = x at hx
  have hx' : (x.1, x.2 t) ∈ worldDynamic n (treeAt F t) := by
    rw [worldDynamic_eq_map]; exact List.mem_map.mpr ⟨x, hx, rfl⟩
  subst hxy
  simp only [Function.comp_apply]
  rw [ht _ hx']

end Arboris
