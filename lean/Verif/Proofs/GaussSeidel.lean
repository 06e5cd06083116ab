import Verif.Spec.Mass
import Mathlib.Analysis.Normed.Module.FiniteDimension
import Mathlib.Analysis.SpecificLimits.Basic
import Mathlib.LinearAlgebra.Matrix.NonsingularInverse

/-!
# Block Gauss–Seidel on a symmetric positive definite matrix

`gsStep A i r` makes the block `i` of the residual zero by moving the unknowns of that block only.  The energy
`r·A⁻¹r` of the residual decreases, and a whole sweep multiplies it at most by a factor `ρ < 1`.
-/

namespace Arboris.BlockGS
open Matrix Spec

variable {β : Type} [Fintype β] [DecidableEq β] {κ : β → Type} [∀ i, Fintype (κ i)] [∀ i, DecidableEq (κ i)]

noncomputable section

/-- block `i` of a vector -/
def block (r : (Σ i, κ i) → ℝ) (i : β) : κ i → ℝ := fun k => r ⟨i, k⟩

/-- diagonal block `i` of a matrix -/
def diagBlock (A : Matrix (Σ i, κ i) (Σ i, κ i) ℝ) (i : β) : Matrix (κ i) (κ i) ℝ :=
  Matrix.of fun k l => A ⟨i, k⟩ ⟨i, l⟩

/-- a vector with the block `i` only -/
def ext (i : β) (d : κ i → ℝ) : (Σ i, κ i) → ℝ := fun y => (Pi.single i d : (j : β) → κ j → ℝ) y.1 y.2

lemma ext_dot (i : β) (d : κ i → ℝ) (v : (Σ i, κ i) → ℝ) : ∑ y, v y * ext i d y = ∑ k, v ⟨i, k⟩ * d k := by
  rw [Fintype.sum_sigma, Finset.sum_eq_single i]
  · simp [ext]
  · intro j _ hj
    apply Finset.sum_eq_zero
    intro k _
    simp [ext, Pi.single_eq_of_ne hj]
  · simp

/-- the change of the unknowns of block `i` -/
def corr (A : Matrix (Σ i, κ i) (Σ i, κ i) ℝ) (i : β) : ((Σ i, κ i) → ℝ) →ₗ[ℝ] (κ i → ℝ) where
  toFun r := -((diagBlock A i)⁻¹ *ᵥ block r i)
  map_add' r s := by
    have : block (r + s) i = block r i + block s i := rfl
    rw [this, Matrix.mulVec_add, neg_add]
  map_smul' c r := by
    have : block (c • r) i = c • block r i := rfl
    rw [this, Matrix.mulVec_smul, smul_neg]
    rfl

/-- one block solve -/
def gsStep (A : Matrix (Σ i, κ i) (Σ i, κ i) ℝ) (i : β) : ((Σ i, κ i) → ℝ) →ₗ[ℝ] ((Σ i, κ i) → ℝ) where
  toFun r := fun x => r x + ∑ k, A x ⟨i, k⟩ * corr A i r k
  map_add' r s := by
    funext x
    simp only [map_add, Pi.add_apply, mul_add, Finset.sum_add_distrib]
    ring
  map_smul' c r := by
    funext x
    simp only [map_smul, Pi.smul_apply, smul_eq_mul, RingHom.id_apply, mul_add, Finset.mul_sum]
    congr 1
    exact Finset.sum_congr rfl fun k _ => by ring

lemma gsStep_eq (A : Matrix (Σ i, κ i) (Σ i, κ i) ℝ) (i : β) (r : (Σ i, κ i) → ℝ) :
    gsStep A i r = r + A *ᵥ ext i (corr A i r) := by
  funext x
  have := ext_dot i (corr A i r) (A x)
  exact congrArg (r x + ·) this.symm

lemma diag_pd {A : Matrix (Σ i, κ i) (Σ i, κ i) ℝ} (hA : SymPD A) (i : β) : SymPD (diagBlock A i) := by
  constructor
  · ext k l
    exact congrFun (congrFun hA.1 ⟨i, k⟩) ⟨i, l⟩
  · intro d hd
    have hne : ext i d ≠ 0 := by
      intro h
      apply hd
      funext k
      have := congrFun h ⟨i, k⟩
      simpa [ext] using this
    have := hA.2 _ hne
    have e : ext i d ⬝ᵥ A *ᵥ ext i d = d ⬝ᵥ diagBlock A i *ᵥ d := by
      rw [dotProduct_comm]
      unfold dotProduct
      rw [ext_dot]
      refine Finset.sum_congr rfl fun k _ => ?_
      rw [mul_comm]
      congr 1
      exact ext_dot i d (A ⟨i, k⟩)
    rwa [e] at this

lemma pd_det {ι : Type} [Fintype ι] [DecidableEq ι] {A : Matrix ι ι ℝ} (hA : SymPD A) : A.det ≠ 0 := by
  intro h
  obtain ⟨v, hv, h0⟩ := Matrix.exists_mulVec_eq_zero_iff.mpr h
  have := hA.2 v hv
  rw [h0] at this
  simp at this

lemma gsStep_block {A : Matrix (Σ i, κ i) (Σ i, κ i) ℝ} (hA : SymPD A) (i : β) (r : (Σ i, κ i) → ℝ) :
    block (gsStep A i r) i = 0 := by
  have e : block (gsStep A i r) i = block r i + diagBlock A i *ᵥ corr A i r := rfl
  have e2 : corr A i r = -((diagBlock A i)⁻¹ *ᵥ block r i) := rfl
  rw [e, e2, Matrix.mulVec_neg, Matrix.mulVec_mulVec,
    Matrix.mul_nonsing_inv _ (isUnit_iff_ne_zero.mpr (pd_det (diag_pd hA i))), Matrix.one_mulVec, add_neg_cancel]

/-- energy of the residual -/
def energy {ι : Type} [Fintype ι] [DecidableEq ι] (A : Matrix ι ι ℝ) (r : ι → ℝ) : ℝ := r ⬝ᵥ A⁻¹ *ᵥ r

lemma energy_pos {ι : Type} [Fintype ι] [DecidableEq ι] {A : Matrix ι ι ℝ} (hA : SymPD A) {r : ι → ℝ} (hr : r ≠ 0) :
    0 < energy A r := by
  have hu := isUnit_iff_ne_zero.mpr (pd_det hA)
  have e : A *ᵥ (A⁻¹ *ᵥ r) = r := by rw [Matrix.mulVec_mulVec, Matrix.mul_nonsing_inv _ hu, Matrix.one_mulVec]
  have hne : A⁻¹ *ᵥ r ≠ 0 := by
    intro h; rw [h, Matrix.mulVec_zero] at e; exact hr e.symm
  have := hA.2 _ hne
  rw [e, dotProduct_comm] at this
  exact this

lemma sym_dot {ι : Type} [Fintype ι] {A : Matrix ι ι ℝ} (h : Aᵀ = A) (x y : ι → ℝ) : (A *ᵥ x) ⬝ᵥ y = x ⬝ᵥ A *ᵥ y := by
  rw [dotProduct_comm, Matrix.dotProduct_mulVec, ← Matrix.mulVec_transpose, h, dotProduct_comm]

lemma energy_step {A : Matrix (Σ i, κ i) (Σ i, κ i) ℝ} (hA : SymPD A) (i : β) (r : (Σ i, κ i) → ℝ) :
    energy A (gsStep A i r) =
      energy A r - ext i (corr A i r) ⬝ᵥ A *ᵥ ext i (corr A i r) := by
  have hu := isUnit_iff_ne_zero.mpr (pd_det hA)
  have hz : gsStep A i r ⬝ᵥ ext i (corr A i r) = 0 := by
    unfold dotProduct
    rw [ext_dot]
    exact Finset.sum_eq_zero fun k _ => by
      have := congrFun (gsStep_block hA i r) k
      rw [show gsStep A i r ⟨i, k⟩ = 0 from this, zero_mul]
  set D := ext i (corr A i r) with hD
  rw [gsStep_eq, ← hD] at hz ⊢
  have e1 : A⁻¹ *ᵥ (r + A *ᵥ D) = A⁻¹ *ᵥ r + D := by
    rw [Matrix.mulVec_add, Matrix.mulVec_mulVec, Matrix.nonsing_inv_mul _ hu, Matrix.one_mulVec]
  have e2 : (A *ᵥ D) ⬝ᵥ (A⁻¹ *ᵥ r) = D ⬝ᵥ r := by
    rw [sym_dot hA.1, Matrix.mulVec_mulVec, Matrix.mul_nonsing_inv _ hu, Matrix.one_mulVec]
  unfold energy
  rw [e1, add_dotProduct, dotProduct_add, dotProduct_add, e2]
  rw [add_dotProduct] at hz
  rw [dotProduct_comm D r, dotProduct_comm D (A *ᵥ D)]
  linarith

/-- the blocks of the list, one after the other -/
def gsSweep (A : Matrix (Σ i, κ i) (Σ i, κ i) ℝ) (l : List β) : ((Σ i, κ i) → ℝ) →ₗ[ℝ] ((Σ i, κ i) → ℝ) :=
  l.foldl (fun f i => (gsStep A i).comp f) LinearMap.id

lemma gsSweep_apply (A : Matrix (Σ i, κ i) (Σ i, κ i) ℝ) (l : List β) (r : (Σ i, κ i) → ℝ) :
    gsSweep A l r = l.foldl (fun r i => gsStep A i r) r := by
  have : ∀ (l : List β) (f : ((Σ i, κ i) → ℝ) →ₗ[ℝ] ((Σ i, κ i) → ℝ)),
      l.foldl (fun f i => (gsStep A i).comp f) f r = l.foldl (fun r i => gsStep A i r) (f r) := by
    intro l
    induction l with
    | nil => intro f; rfl
    | cons i l ih => intro f; exact ih _
  exact this l _

lemma energy_sweep {A : Matrix (Σ i, κ i) (Σ i, κ i) ℝ} (hA : SymPD A) (l : List β) (r : (Σ i, κ i) → ℝ) :
    energy A (l.foldl (fun r i => gsStep A i r) r) ≤ energy A r ∧
      (energy A (l.foldl (fun r i => gsStep A i r) r) = energy A r → ∀ i ∈ l, block r i = 0) := by
  induction l generalizing r with
  | nil => simp
  | cons i l ih =>
    obtain ⟨h1, h2⟩ := ih (gsStep A i r)
    have he := energy_step hA i r
    rw [List.foldl_cons]
    by_cases hd : ext i (corr A i r) = 0
    · have hs : gsStep A i r = r := by rw [gsStep_eq, hd, Matrix.mulVec_zero, add_zero]
      rw [hs] at h1 h2 ⊢
      refine ⟨h1, fun h j hj => ?_⟩
      rcases List.mem_cons.mp hj with rfl | hj
      · have := gsStep_block hA j r
        rwa [hs] at this
      · exact h2 h j hj
    · have := hA.2 _ hd
      exact ⟨by linarith, fun h => by linarith⟩

lemma energy_smul {ι : Type} [Fintype ι] [DecidableEq ι] (A : Matrix ι ι ℝ) (c : ℝ) (r : ι → ℝ) :
    energy A (c • r) = c ^ 2 * energy A r := by
  unfold energy
  rw [Matrix.mulVec_smul, smul_dotProduct, dotProduct_smul]
  simp only [smul_eq_mul]
  ring

lemma energy_continuous {ι : Type} [Fintype ι] [DecidableEq ι] (A : Matrix ι ι ℝ) : Continuous (energy A) := by
  unfold energy dotProduct Matrix.mulVec dotProduct
  fun_prop

/-- a linear map that decreases the energy does it by a factor -/
lemma contraction {ι : Type} [Fintype ι] [DecidableEq ι] {A : Matrix ι ι ℝ} (hA : SymPD A) (S : (ι → ℝ) →ₗ[ℝ] (ι → ℝ))
    (hS : ∀ r, r ≠ 0 → energy A (S r) < energy A r) :
    ∃ ρ c : ℝ, 0 ≤ ρ ∧ ρ < 1 ∧ 0 < c ∧ ∀ r, energy A (S r) ≤ ρ * energy A r ∧ c * ‖r‖ ^ 2 ≤ energy A r := by
  by_cases hne : Nonempty (Metric.sphere (0 : ι → ℝ) 1)
  · obtain ⟨⟨u0, hu0⟩⟩ := hne
    have hcomp : IsCompact (Metric.sphere (0 : ι → ℝ) 1) := isCompact_sphere 0 1
    have hsne : (Metric.sphere (0 : ι → ℝ) 1).Nonempty := ⟨u0, hu0⟩
    have hnz : ∀ u ∈ Metric.sphere (0 : ι → ℝ) 1, u ≠ 0 := by
      intro u hu h
      rw [h] at hu; simp at hu
    have hSc : Continuous S := S.continuous_of_finiteDimensional
    obtain ⟨u1, hu1, hmax⟩ := hcomp.exists_isMaxOn hsne
      (f := fun r => energy A (S r) / energy A r)
      (((energy_continuous A).comp hSc).continuousOn.div (energy_continuous A).continuousOn
        fun u hu => (energy_pos hA (hnz u hu)).ne')
    obtain ⟨u2, hu2, hmin⟩ := hcomp.exists_isMinOn hsne (energy_continuous A).continuousOn
    have hE : ∀ r, 0 ≤ energy A r := by
      intro r
      by_cases h : r = 0
      · simp [h, energy]
      · exact (energy_pos hA h).le
    refine ⟨energy A (S u1) / energy A u1, energy A u2, div_nonneg (hE _) (hE _),
      (div_lt_one (energy_pos hA (hnz _ hu1))).mpr (hS _ (hnz _ hu1)), energy_pos hA (hnz _ hu2), fun r => ?_⟩
    by_cases hr : r = 0
    · subst hr; simp [energy]
    · have hn : ‖r‖ ≠ 0 := norm_ne_zero_iff.mpr hr
      have hu : ‖r‖⁻¹ • r ∈ Metric.sphere (0 : ι → ℝ) 1 := by
        simp [norm_smul, hn]
      have er : r = ‖r‖ • (‖r‖⁻¹ • r) := by rw [smul_smul, mul_inv_cancel₀ hn, one_smul]
      set u := ‖r‖⁻¹ • r
      have h1 := hmax hu
      have h2 := hmin hu
      simp only [Set.mem_setOf_eq] at h1 h2
      rw [div_le_iff₀ (energy_pos hA (hnz _ hu))] at h1
      have hsq := sq_nonneg ‖r‖
      have e1 : energy A r = ‖r‖ ^ 2 * energy A u := by conv_lhs => rw [er, energy_smul]
      have e2 : energy A (S r) = ‖r‖ ^ 2 * energy A (S u) := by conv_lhs => rw [er, map_smul, energy_smul]
      rw [e1, e2]
      constructor
      · calc _ ≤ ‖r‖ ^ 2 * (energy A (S u1) / energy A u1 * energy A u) := mul_le_mul_of_nonneg_left h1 hsq
          _ = _ := by ring
      · rw [mul_comm]; exact mul_le_mul_of_nonneg_left h2 hsq
  · have h0 : ∀ r : ι → ℝ, r = 0 := by
      intro r
      by_contra hr
      exact hne ⟨‖r‖⁻¹ • r, by simp [norm_smul, norm_ne_zero_iff.mpr hr]⟩
    exact ⟨0, 1, le_rfl, one_pos, one_pos, fun r => by rw [h0 r]; simp [energy]⟩

/-- Gauss–Seidel converges: the residual after `m` sweeps over all the blocks tends to zero. -/
lemma gs_tendsto {A : Matrix (Σ i, κ i) (Σ i, κ i) ℝ} (hA : SymPD A) {l : List β} (hl : ∀ i, i ∈ l)
    (r : (Σ i, κ i) → ℝ) : ∀ ε > 0, ∃ N, ∀ m ≥ N, ‖(fun r => l.foldl (fun r i => gsStep A i r) r)^[m] r‖ ≤ ε := by
  intro ε hε
  have hS : ∀ r, r ≠ 0 → energy A (gsSweep A l r) < energy A r := by
    intro r hr
    rw [gsSweep_apply]
    obtain ⟨h1, h2⟩ := energy_sweep hA l r
    refine lt_of_le_of_ne h1 fun h => hr ?_
    funext ⟨i, k⟩
    exact congrFun (h2 h i (hl i)) k
  obtain ⟨ρ, c, hρ, hρ1, hc, h⟩ := contraction hA (gsSweep A l) hS
  have hit : ∀ m, energy A ((fun r => l.foldl (fun r i => gsStep A i r) r)^[m] r) ≤ ρ ^ m * energy A r := by
    intro m
    induction m with
    | zero => simp
    | succ m ih =>
      rw [Function.iterate_succ_apply']
      have := (h ((fun r => l.foldl (fun r i => gsStep A i r) r)^[m] r)).1
      rw [gsSweep_apply] at this
      calc _ ≤ _ := this
        _ ≤ ρ * (ρ ^ m * energy A r) := mul_le_mul_of_nonneg_left ih hρ
        _ = _ := by ring
  have hE : 0 ≤ energy A r := le_trans (by positivity) (h r).2
  obtain ⟨N, hN⟩ := exists_pow_lt_of_lt_one (show 0 < c * ε ^ 2 / (energy A r + 1) by positivity) hρ1
  refine ⟨N, fun m hm => ?_⟩
  have h1 := hit m
  have h2 := (h ((fun r => l.foldl (fun r i => gsStep A i r) r)^[m] r)).2
  have h3 : ρ ^ m ≤ ρ ^ N := pow_le_pow_of_le_one hρ hρ1.le hm
  have h4 : ρ ^ m * (energy A r + 1) ≤ c * ε ^ 2 := by
    have := (lt_div_iff₀ (by positivity)).mp (lt_of_le_of_lt h3 hN)
    exact this.le
  have h5 : c * ‖(fun r => l.foldl (fun r i => gsStep A i r) r)^[m] r‖ ^ 2 ≤ c * ε ^ 2 := by
    have : 0 ≤ ρ ^ m := by positivity
    nlinarith
  exact abs_le_of_sq_le_sq' (le_of_mul_le_mul_left h5 hc) hε.le |>.2

/-- a sweep that changes little means a small residual -/
lemma gs_small {A : Matrix (Σ i, κ i) (Σ i, κ i) ℝ} (hA : SymPD A) {l : List β} (hl : ∀ i, i ∈ l) :
    ∃ K : ℝ, 0 ≤ K ∧ ∀ r : (Σ i, κ i) → ℝ,
      ‖l.foldl (fun r i => gsStep A i r) r‖ ≤ K * ‖l.foldl (fun r i => gsStep A i r) r - r‖ := by
  have hinj : LinearMap.ker (gsSweep A l - LinearMap.id) = ⊥ := by
    rw [LinearMap.ker_eq_bot']
    intro r hr
    have : gsSweep A l r = r := by
      have : gsSweep A l r - r = 0 := hr
      exact sub_eq_zero.mp this
    rw [gsSweep_apply] at this
    funext ⟨i, k⟩
    exact congrFun ((energy_sweep hA l r).2 (by rw [this]) i (hl i)) k
  obtain ⟨K, _, hK⟩ := LinearMap.exists_antilipschitzWith _ hinj
  refine ⟨K + 1, by positivity, fun r => ?_⟩
  have h1 : ‖r‖ ≤ K * ‖l.foldl (fun r i => gsStep A i r) r - r‖ := by
    have := hK.le_mul_dist r 0
    simp only [map_zero, dist_zero_right] at this
    have e : (gsSweep A l - LinearMap.id : ((Σ i, κ i) → ℝ) →ₗ[ℝ] ((Σ i, κ i) → ℝ)) r = l.foldl (fun r i => gsStep A i r) r - r := by
      rw [← gsSweep_apply]; rfl
    rwa [e] at this
  have h2 : ‖l.foldl (fun r i => gsStep A i r) r‖ ≤ ‖l.foldl (fun r i => gsStep A i r) r - r‖ + ‖r‖ := by
    have := norm_add_le (l.foldl (fun r i => gsStep A i r) r - r) r
    rwa [sub_add_cancel] at this
  linarith

end
end Arboris.BlockGS
