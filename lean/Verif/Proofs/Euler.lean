import Verif.Spec.Mass
import Mathlib.Analysis.Calculus.MeanValue
import Mathlib.Data.Matrix.Block
import Mathlib.Algebra.QuadraticDiscriminant
import Mathlib.LinearAlgebra.Matrix.NonsingularInverse
import Mathlib.Topology.Instances.Matrix

/-!
# Implicit Euler steps of a linear mechanical system stay close to its exact motion
-/

namespace Arboris.Euler
open Matrix Spec

variable {ι : Type} [Fintype ι] [DecidableEq ι]

lemma cs {S : Matrix ι ι ℝ} (h : SymPSD S) (x y : ι → ℝ) : (x ⬝ᵥ S *ᵥ y) ^ 2 ≤ (x ⬝ᵥ S *ᵥ x) * (y ⬝ᵥ S *ᵥ y) := by
  have hs : y ⬝ᵥ S *ᵥ x = x ⬝ᵥ S *ᵥ y := by
    rw [Matrix.dotProduct_mulVec, ← Matrix.mulVec_transpose, h.1, dotProduct_comm]
  have hq : ∀ t : ℝ, 0 ≤ (y ⬝ᵥ S *ᵥ y) * (t * t) + (2 * (x ⬝ᵥ S *ᵥ y)) * t + x ⬝ᵥ S *ᵥ x := by
    intro t
    have := h.2 (x + t • y)
    rw [Matrix.mulVec_add, Matrix.mulVec_smul, add_dotProduct, dotProduct_add, dotProduct_add, smul_dotProduct, smul_dotProduct, dotProduct_smul, dotProduct_smul, hs] at this
    simp only [smul_eq_mul] at this
    linarith
  have := discrim_le_zero hq
  rw [discrim] at this
  nlinarith

/-- the length of a vector, for a form -/
noncomputable def len (S : Matrix ι ι ℝ) (x : ι → ℝ) : ℝ := Real.sqrt (x ⬝ᵥ S *ᵥ x)

lemma len_nonneg (S : Matrix ι ι ℝ) (x : ι → ℝ) : 0 ≤ len S x := Real.sqrt_nonneg _

lemma abs_le {S : Matrix ι ι ℝ} (h : SymPSD S) (x y : ι → ℝ) : |x ⬝ᵥ S *ᵥ y| ≤ len S x * len S y := by
  rw [len, len, ← Real.sqrt_mul (h.2 x), ← Real.sqrt_sq_eq_abs]
  exact Real.sqrt_le_sqrt (cs h x y)

lemma len_add {S : Matrix ι ι ℝ} (h : SymPSD S) (x y : ι → ℝ) : len S (x + y) ≤ len S x + len S y := by
  have hs : y ⬝ᵥ S *ᵥ x = x ⬝ᵥ S *ᵥ y := by
    rw [Matrix.dotProduct_mulVec, ← Matrix.mulVec_transpose, h.1, dotProduct_comm]
  refine Real.sqrt_le_iff.mpr ⟨add_nonneg (len_nonneg _ _) (len_nonneg _ _), ?_⟩
  have h1 := Real.sq_sqrt (h.2 x)
  have h2 := Real.sq_sqrt (h.2 y)
  have h3 := (abs_le_of_abs_le (abs_le h x y)).2
  rw [Matrix.mulVec_add, add_dotProduct, dotProduct_add, dotProduct_add, hs]
  unfold len at h3 ⊢
  nlinarith
where
  abs_le_of_abs_le {a b : ℝ} (h : |a| ≤ b) : -b ≤ a ∧ a ≤ b := _root_.abs_le.mp h

/-- a vector is not longer than another one on which it projects -/
lemma len_le {S : Matrix ι ι ℝ} (h : SymPSD S) {x y : ι → ℝ} (hxy : x ⬝ᵥ S *ᵥ x ≤ x ⬝ᵥ S *ᵥ y) : len S x ≤ len S y := by
  have h1 := Real.sq_sqrt (h.2 x)
  have h2 := le_trans (le_abs_self _) (abs_le h x y)
  have h3 := len_nonneg S x
  have h4 := len_nonneg S y
  rcases eq_or_lt_of_le h3 with h5 | h5
  · rw [← h5]; exact h4
  · have : len S x * len S x ≤ len S x * len S y := by
      have : len S x * len S x = x ⬝ᵥ S *ᵥ x := by rw [← sq]; exact h1
      linarith
    exact le_of_mul_le_mul_left this h5

lemma quad_le (A : Matrix ι ι ℝ) (x : ι → ℝ) : x ⬝ᵥ A *ᵥ x ≤ (∑ i, ∑ j, |A i j|) * ‖x‖ ^ 2 := by
  simp only [dotProduct, Matrix.mulVec, Finset.mul_sum, Finset.sum_mul]
  refine Finset.sum_le_sum fun i _ => Finset.sum_le_sum fun j _ => ?_
  have h1 := norm_le_pi_norm x i
  have h2 := norm_le_pi_norm x j
  rw [Real.norm_eq_abs] at h1 h2
  calc x i * (A i j * x j) ≤ |x i * (A i j * x j)| := le_abs_self _
    _ = |A i j| * (|x i| * |x j|) := by rw [abs_mul, abs_mul]; ring
    _ ≤ |A i j| * (‖x‖ * ‖x‖) := mul_le_mul_of_nonneg_left (mul_le_mul h1 h2 (abs_nonneg _) (norm_nonneg _)) (abs_nonneg _)
    _ = _ := by ring

/-- the length is at most a multiple of the norm -/
lemma len_norm (A : Matrix ι ι ℝ) : ∃ c, 0 ≤ c ∧ ∀ x, len A x ≤ c * ‖x‖ := by
  refine ⟨Real.sqrt (∑ i, ∑ j, |A i j|), Real.sqrt_nonneg _, fun x => ?_⟩
  rw [len, ← Real.sqrt_sq (norm_nonneg x), ← Real.sqrt_mul (show 0 ≤ ∑ i, ∑ j, |A i j| from Finset.sum_nonneg fun i _ => Finset.sum_nonneg fun j _ => abs_nonneg _)]
  refine Real.sqrt_le_sqrt ?_
  exact quad_le A x

lemma det_ne {M : Matrix ι ι ℝ} (h : SymPD M) : M.det ≠ 0 := by
  intro h0
  obtain ⟨v, hv, hMv⟩ := Matrix.exists_mulVec_eq_zero_iff.mpr h0
  have := h.2 v hv
  rw [hMv, dotProduct_zero] at this
  exact lt_irrefl _ this

/-- the norm is at most a multiple of the length, for a positive definite form -/
lemma norm_len {M : Matrix ι ι ℝ} (h : SymPD M) : ∃ c, 0 ≤ c ∧ ∀ x, ‖x‖ ≤ c * len M x := by
  have hp : SymPSD M := ⟨h.1, fun x => by
    by_cases hx : x = 0
    · simp [hx]
    · exact (h.2 x hx).le⟩
  have hi : M * M⁻¹ = 1 := Matrix.mul_nonsing_inv _ (isUnit_iff_ne_zero.mpr (det_ne h))
  refine ⟨∑ i, len M (M⁻¹ *ᵥ Pi.single i 1), Finset.sum_nonneg fun i _ => len_nonneg _ _, fun x => ?_⟩
  refine (pi_norm_le_iff_of_nonneg (mul_nonneg (Finset.sum_nonneg fun i _ => len_nonneg _ _) (len_nonneg _ _))).mpr fun i => ?_
  have e : x i = (M⁻¹ *ᵥ Pi.single i 1) ⬝ᵥ M *ᵥ x := by
    rw [Matrix.dotProduct_mulVec, ← Matrix.mulVec_transpose, h.1, Matrix.mulVec_mulVec, hi, Matrix.one_mulVec]
    simp
  rw [Real.norm_eq_abs, e]
  refine (abs_le hp _ _).trans (mul_le_mul_of_nonneg_right ?_ (len_nonneg _ _))
  exact Finset.single_le_sum (f := fun i => len M (M⁻¹ *ᵥ Pi.single i 1)) (fun i _ => len_nonneg _ _) (Finset.mem_univ i)

/-! ### the two parts of the state -/

/-- springs and masses -/
noncomputable def form (K M : Matrix ι ι ℝ) : Matrix (ι ⊕ ι) (ι ⊕ ι) ℝ := Matrix.fromBlocks K 0 0 M

lemma form_dot (K M : Matrix ι ι ℝ) (a b c d : ι → ℝ) : Sum.elim a b ⬝ᵥ form K M *ᵥ Sum.elim c d = a ⬝ᵥ K *ᵥ c + b ⬝ᵥ M *ᵥ d := by
  rw [form, Matrix.fromBlocks_mulVec]
  simp

lemma form_psd {K M : Matrix ι ι ℝ} (hK : SymPSD K) (hM : SymPSD M) : SymPSD (form K M) := by
  refine ⟨by rw [form, Matrix.fromBlocks_transpose, hK.1, hM.1]; simp, fun x => ?_⟩
  have : x = Sum.elim (fun i => x (.inl i)) fun i => x (.inr i) := by
    funext i; cases i <;> rfl
  rw [this, form_dot]
  exact add_nonneg (hK.2 _) (hM.2 _)

/-- one step does not enlarge the error, but for the defect `r1`, `r2` -/
lemma step_error {K M D : Matrix ι ι ℝ} (hK : SymPSD K) (hM : SymPSD M) (hD : ∀ x, 0 ≤ x ⬝ᵥ D *ᵥ x) {dt : ℝ} (hdt : 0 ≤ dt) {δ ε δ' ε' r1 r2 : ι → ℝ}
    (h1 : δ' = δ + dt • ε' + r1) (h2 : M *ᵥ ε' = M *ᵥ ε - dt • (K *ᵥ δ' + D *ᵥ ε') + M *ᵥ r2) :
    len (form K M) (Sum.elim δ' ε') ≤ len (form K M) (Sum.elim δ ε) + len (form K M) (Sum.elim r1 r2) := by
  have hp := form_psd hK hM
  refine le_trans (len_le hp (y := Sum.elim δ ε + Sum.elim r1 r2) ?_) (len_add hp _ _)
  have e : (Sum.elim δ ε + Sum.elim r1 r2 : ι ⊕ ι → ℝ) = Sum.elim (δ + r1) (ε + r2) := by
    funext i; cases i <;> rfl
  have hs : ∀ x y : ι → ℝ, y ⬝ᵥ K *ᵥ x = x ⬝ᵥ K *ᵥ y := fun x y => by
    rw [Matrix.dotProduct_mulVec, ← Matrix.mulVec_transpose, hK.1, dotProduct_comm]
  rw [e, form_dot, form_dot]
  have a1 : δ + r1 = δ' - dt • ε' := by rw [h1]; abel
  have a2 : M *ᵥ (ε + r2) = M *ᵥ ε' + dt • (K *ᵥ δ' + D *ᵥ ε') := by rw [Matrix.mulVec_add, h2]; abel
  rw [a1, a2, Matrix.mulVec_sub, Matrix.mulVec_smul, dotProduct_sub, dotProduct_smul, dotProduct_add, dotProduct_smul, dotProduct_add, hs ε' δ']
  have := mul_nonneg hdt (hD ε')
  simp only [smul_eq_mul]
  rw [mul_add]
  linarith

lemma len_inl {K M : Matrix ι ι ℝ} : ∃ c, 0 ≤ c ∧ ∀ a b : ι → ℝ, len (form K M) (Sum.elim a b) ≤ c * (‖a‖ + ‖b‖) := by
  obtain ⟨c, h0, h⟩ := len_norm (form K M)
  refine ⟨c, h0, fun a b => (h _).trans (mul_le_mul_of_nonneg_left ?_ h0)⟩
  refine (pi_norm_le_iff_of_nonneg (add_nonneg (norm_nonneg _) (norm_nonneg _))).mpr fun i => ?_
  cases i with
  | inl i => exact (norm_le_pi_norm a i).trans (le_add_of_nonneg_right (norm_nonneg _))
  | inr i => exact (norm_le_pi_norm b i).trans (le_add_of_nonneg_left (norm_nonneg _))

lemma len_inr {K M : Matrix ι ι ℝ} (hK : SymPSD K) (a b : ι → ℝ) : len M b ≤ len (form K M) (Sum.elim a b) := by
  unfold len
  rw [form_dot]
  exact Real.sqrt_le_sqrt (le_add_of_nonneg_left (hK.2 a))

/-! ### the exact motion -/

/-- a differentiable function with a Lipschitz derivative is its tangent at the end, but for a square -/
lemma defect {E : Type*} [NormedAddCommGroup E] [NormedSpace ℝ E] {f f' : ℝ → E} {a b L : ℝ} (hf : ∀ t ∈ Set.Icc a b, HasDerivAt f (f' t) t)
    (hL : ∀ s ∈ Set.Icc a b, ∀ t ∈ Set.Icc a b, ‖f' s - f' t‖ ≤ L * |s - t|) (h0 : 0 ≤ L) {s t : ℝ} (hs : s ∈ Set.Icc a b) (ht : t ∈ Set.Icc a b) (hst : s ≤ t) :
    ‖f t - f s - (t - s) • f' t‖ ≤ L * (t - s) ^ 2 := by
  have key := (convex_Icc s t).norm_image_sub_le_of_norm_hasDerivWithin_le (f := fun τ => f τ - τ • f' t) (f' := fun τ => f' τ - f' t) (C := L * (t - s)) (x := s) (y := t)
    (fun τ hτ => by
      have h1 := hf τ ⟨hs.1.trans hτ.1, hτ.2.trans ht.2⟩
      have h2 : HasDerivAt (fun τ : ℝ => τ • f' t) (f' t) τ := by simpa using (hasDerivAt_id τ).smul_const (f' t)
      exact (h1.sub h2).hasDerivWithinAt)
    (fun τ hτ => by
      refine (hL τ ⟨hs.1.trans hτ.1, hτ.2.trans ht.2⟩ t ht).trans (mul_le_mul_of_nonneg_left ?_ h0)
      rw [abs_sub_comm, abs_of_nonneg (sub_nonneg.mpr hτ.2)]
      linarith [hτ.1])
    ⟨le_rfl, hst⟩ ⟨hst, le_rfl⟩
  have e : f t - t • f' t - (f s - s • f' t) = f t - f s - (t - s) • f' t := by rw [sub_smul]; abel
  simp only [e] at key
  rw [Real.norm_eq_abs, abs_of_nonneg (sub_nonneg.mpr hst)] at key
  calc _ ≤ _ := key
    _ = _ := by ring

lemma lipschitz {E : Type*} [NormedAddCommGroup E] [NormedSpace ℝ E] {f f' : ℝ → E} {a b : ℝ} (hf : ∀ t ∈ Set.Icc a b, HasDerivAt f (f' t) t)
    (hc : ContinuousOn f' (Set.Icc a b)) : ∃ L, 0 ≤ L ∧ ∀ s ∈ Set.Icc a b, ∀ t ∈ Set.Icc a b, ‖f s - f t‖ ≤ L * |s - t| := by
  obtain ⟨L, hL⟩ := isCompact_Icc.exists_bound_of_continuousOn hc
  refine ⟨max L 0, le_max_right _ _, fun s hs t ht => ?_⟩
  have := (convex_Icc a b).norm_image_sub_le_of_norm_hasDerivWithin_le (fun τ hτ => (hf τ hτ).hasDerivWithinAt) (fun τ hτ => (hL τ hτ).trans (le_max_left L 0)) ht hs
  simpa using this

/-- an invariant of implicit Euler steps of at most `h`, which says that the state is near the exact motion -/
theorem near {K M D : Matrix ι ι ℝ} (hK : SymPSD K) (hM : SymPD M) (hD : ∀ x, 0 ≤ x ⬝ᵥ D *ᵥ x) {b : ι → ℝ} {t0 T : ℝ} {x u a : ℝ → ι → ℝ}
    (hx : ∀ t ∈ Set.Icc t0 T, HasDerivAt x (u t) t) (hu : ∀ t ∈ Set.Icc t0 T, HasDerivAt u (a t) t)
    (hlaw : ∀ t ∈ Set.Icc t0 T, M *ᵥ a t = b - K *ᵥ x t - D *ᵥ u t) :
    ∃ C, 0 ≤ C ∧ ∀ h, 0 ≤ h → ∃ Near : ℝ → (ι → ℝ) → (ι → ℝ) → Prop, Near t0 (x t0) (u t0) ∧
      (∀ t t' q v q' v', t ∈ Set.Icc t0 T → t' ∈ Set.Icc t0 T → t ≤ t' → t' - t ≤ h → Near t q v → q' = q + (t' - t) • v' →
        M *ᵥ v' = M *ᵥ v + (t' - t) • (b - K *ᵥ q' - D *ᵥ v') → Near t' q' v') ∧
      ∀ t q v, t ∈ Set.Icc t0 T → Near t q v → ‖q - x t‖ ≤ C * h ∧ ‖v - u t‖ ≤ C * h := by
  have hM' : SymPSD M := ⟨hM.1, fun y => by
    by_cases hy : y = 0
    · simp [hy]
    · exact (hM.2 y hy).le⟩
  have hxc : ContinuousOn x (Set.Icc t0 T) := fun t ht => (hx t ht).continuousAt.continuousWithinAt
  have huc : ContinuousOn u (Set.Icc t0 T) := fun t ht => (hu t ht).continuousAt.continuousWithinAt
  have hi : M⁻¹ * M = 1 := Matrix.nonsing_inv_mul _ (isUnit_iff_ne_zero.mpr (det_ne hM))
  have ha : ∀ t ∈ Set.Icc t0 T, a t = M⁻¹ *ᵥ (b - K *ᵥ x t - D *ᵥ u t) := fun t ht => by
    rw [← hlaw t ht, Matrix.mulVec_mulVec, hi, Matrix.one_mulVec]
  have hac : ContinuousOn a (Set.Icc t0 T) := by
    refine ContinuousOn.congr (f := fun t => M⁻¹ *ᵥ (b - K *ᵥ x t - D *ᵥ u t)) ?_ ha
    have c1 : ∀ A : Matrix ι ι ℝ, Continuous fun y : ι → ℝ => A *ᵥ y := fun A => Continuous.matrix_mulVec continuous_const continuous_id
    exact (c1 _).comp_continuousOn ((continuousOn_const.sub ((c1 K).comp_continuousOn hxc)).sub ((c1 D).comp_continuousOn huc))
  have hader : ∀ t ∈ Set.Icc t0 T, ∀ s ∈ Set.Icc t0 T, a s - a t = M⁻¹ *ᵥ (-(K *ᵥ (x s - x t)) - D *ᵥ (u s - u t)) := fun t ht s hs => by
    rw [ha t ht, ha s hs, ← Matrix.mulVec_sub]
    congr 1
    rw [Matrix.mulVec_sub, Matrix.mulVec_sub]
    abel
  obtain ⟨L1, hL1, l1⟩ := lipschitz hx huc
  obtain ⟨L2, hL2, l2⟩ := lipschitz hu hac
  have bd : ∀ A : Matrix ι ι ℝ, ∃ c, 0 ≤ c ∧ ∀ y, ‖A *ᵥ y‖ ≤ c * ‖y‖ := by
    intro A
    refine ⟨∑ i, ∑ j, |A i j|, Finset.sum_nonneg fun i _ => Finset.sum_nonneg fun j _ => abs_nonneg _, fun y => ?_⟩
    refine (pi_norm_le_iff_of_nonneg (mul_nonneg (Finset.sum_nonneg fun i _ => Finset.sum_nonneg fun j _ => abs_nonneg _) (norm_nonneg _))).mpr fun i => ?_
    rw [Real.norm_eq_abs]
    simp only [Matrix.mulVec, dotProduct]
    refine (Finset.abs_sum_le_sum_abs _ _).trans ?_
    calc ∑ j, |A i j * y j| ≤ ∑ j, |A i j| * ‖y‖ := Finset.sum_le_sum fun j _ => by
          rw [abs_mul]
          exact mul_le_mul_of_nonneg_left (by simpa using norm_le_pi_norm y j) (abs_nonneg _)
      _ = (∑ j, |A i j|) * ‖y‖ := by rw [Finset.sum_mul]
      _ ≤ _ := mul_le_mul_of_nonneg_right (Finset.single_le_sum (f := fun i => ∑ j, |A i j|) (fun i _ => Finset.sum_nonneg fun j _ => abs_nonneg _) (Finset.mem_univ i)) (norm_nonneg _)
  obtain ⟨m, hm, bm⟩ := bd M⁻¹
  obtain ⟨k, hk, bk⟩ := bd K
  obtain ⟨d, hd, bdd⟩ := bd D
  have l3 : ∀ s ∈ Set.Icc t0 T, ∀ t ∈ Set.Icc t0 T, ‖a s - a t‖ ≤ (m * (k * L1 + d * L2)) * |s - t| := by
    intro s hs t ht
    rw [hader t ht s hs]
    calc _ ≤ m * ‖-(K *ᵥ (x s - x t)) - D *ᵥ (u s - u t)‖ := bm _
      _ ≤ m * (k * (L1 * |s - t|) + d * (L2 * |s - t|)) := by
        refine mul_le_mul_of_nonneg_left ((norm_sub_le _ _).trans ?_) hm
        rw [norm_neg]
        exact add_le_add ((bk _).trans (mul_le_mul_of_nonneg_left (l1 s hs t ht) hk)) ((bdd _).trans (mul_le_mul_of_nonneg_left (l2 s hs t ht) hd))
      _ = _ := by ring
  set L3 := m * (k * L1 + d * L2) with hL3
  have hL3' : 0 ≤ L3 := by positivity
  have d1 := fun {s t} hs ht hst => defect (s := s) (t := t) hx l2 hL2 hs ht hst
  have d2 := fun {s t} hs ht hst => defect (s := s) (t := t) hu l3 hL3' hs ht hst
  obtain ⟨c, hc, hlen⟩ := len_inl (K := K) (M := M)
  obtain ⟨c', hc', hnorm⟩ := norm_len hM
  set C0 := c * (L2 + L3) with hC0
  have hC0' : 0 ≤ C0 := by positivity
  by_cases hT : t0 ≤ T
  swap
  · refine ⟨0, le_rfl, fun h _ => ⟨fun t q v => t ∈ Set.Icc t0 T → False, fun h => absurd (h.1.trans h.2) hT, fun _ _ _ _ _ _ h => absurd (h.1.trans h.2) hT,
      fun _ _ _ h => absurd (h.1.trans h.2) hT⟩⟩
  set A1 := c' * (C0 * (T - t0)) + L2 with hA1
  have hT0 : 0 ≤ T - t0 := sub_nonneg.mpr hT
  have hA1' : 0 ≤ A1 := by positivity
  refine ⟨max (A1 * (T - t0)) (c' * (C0 * (T - t0))), le_max_of_le_left (by positivity), fun h hh =>
    ⟨fun t q v => len (form K M) (Sum.elim (x t - q) (u t - v)) ≤ C0 * h * (t - t0) ∧ ‖x t - q‖ ≤ A1 * h * (t - t0), ?_, ?_, ?_⟩⟩
  · have e : (Sum.elim (x t0 - x t0) (u t0 - u t0) : ι ⊕ ι → ℝ) = 0 := by
      funext i; cases i <;> simp
    show len (form K M) (Sum.elim (x t0 - x t0) (u t0 - u t0)) ≤ C0 * h * (t0 - t0) ∧ ‖x t0 - x t0‖ ≤ A1 * h * (t0 - t0)
    rw [e, sub_self, sub_self, norm_zero, mul_zero, mul_zero]
    simp [len]
  · rintro t t' q v q' v' ht ht' htt hth ⟨n1, n2⟩ e1 e2
    have hdt : 0 ≤ t' - t := sub_nonneg.mpr htt
    have r1 := d1 ht ht' htt
    have r2 := d2 ht ht' htt
    set ρ1 := x t' - x t - (t' - t) • u t' with hρ1
    set ρ2 := u t' - u t - (t' - t) • a t' with hρ2
    have g1 : x t' - q' = (x t - q) + (t' - t) • (u t' - v') + ρ1 := by
      rw [hρ1, e1, smul_sub]; abel
    have g2 : M *ᵥ (u t' - v') = M *ᵥ (u t - v) - (t' - t) • (K *ᵥ (x t' - q') + D *ᵥ (u t' - v')) + M *ᵥ ρ2 := by
      rw [hρ2, Matrix.mulVec_sub, Matrix.mulVec_sub, Matrix.mulVec_sub, Matrix.mulVec_sub, Matrix.mulVec_sub, Matrix.mulVec_sub, Matrix.mulVec_smul, hlaw t' ht', e2]
      simp only [smul_sub, smul_add]
      abel
    have s1 := step_error hK hM' hD hdt g1 g2
    have sq : (t' - t) ^ 2 ≤ h * (t' - t) := by rw [pow_two]; exact mul_le_mul_of_nonneg_right hth hdt
    have n1' : len (form K M) (Sum.elim (x t' - q') (u t' - v')) ≤ C0 * h * (t' - t0) := by
      have : len (form K M) (Sum.elim ρ1 ρ2) ≤ C0 * (h * (t' - t)) := by
        refine (hlen _ _).trans ?_
        rw [hC0, mul_assoc]
        refine mul_le_mul_of_nonneg_left ?_ hc
        rw [add_mul]
        exact add_le_add (r1.trans (mul_le_mul_of_nonneg_left sq hL2)) (r2.trans (mul_le_mul_of_nonneg_left sq hL3'))
      calc _ ≤ _ := s1
        _ ≤ C0 * h * (t - t0) + C0 * (h * (t' - t)) := add_le_add n1 this
        _ = _ := by ring
    refine ⟨n1', ?_⟩
    have ev : ‖u t' - v'‖ ≤ c' * (C0 * h * (T - t0)) := by
      refine (hnorm _).trans (mul_le_mul_of_nonneg_left (((len_inr hK _ _).trans n1').trans ?_) hc')
      exact mul_le_mul_of_nonneg_left (sub_le_sub_right ht'.2 _) (by positivity)
    rw [g1]
    calc _ ≤ ‖x t - q‖ + ‖(t' - t) • (u t' - v')‖ + ‖ρ1‖ := norm_add₃_le
      _ ≤ A1 * h * (t - t0) + (t' - t) * (c' * (C0 * h * (T - t0))) + L2 * (h * (t' - t)) := by
        refine add_le_add (add_le_add n2 ?_) (r1.trans (mul_le_mul_of_nonneg_left sq hL2))
        rw [norm_smul, Real.norm_eq_abs, abs_of_nonneg hdt]
        exact mul_le_mul_of_nonneg_left ev hdt
      _ = A1 * h * (t' - t0) := by rw [hA1]; ring
  · rintro t q v ht ⟨n1, n2⟩
    have ht0 : t - t0 ≤ T - t0 := sub_le_sub_right ht.2 _
    constructor
    · rw [norm_sub_rev]
      calc _ ≤ A1 * h * (t - t0) := n2
        _ ≤ A1 * h * (T - t0) := mul_le_mul_of_nonneg_left ht0 (by positivity)
        _ = A1 * (T - t0) * h := by ring
        _ ≤ _ := mul_le_mul_of_nonneg_right (le_max_left _ _) hh
    · rw [norm_sub_rev]
      calc _ ≤ c' * (C0 * h * (T - t0)) := (hnorm _).trans (mul_le_mul_of_nonneg_left (((len_inr hK _ _).trans n1).trans (mul_le_mul_of_nonneg_left ht0 (by positivity))) hc')
        _ = c' * (C0 * (T - t0)) * h := by ring
        _ ≤ _ := mul_le_mul_of_nonneg_right (le_max_right _ _) hh

end Arboris.Euler
