import Verif.Model.Twist
import Verif.Proofs.Joints
import Mathlib.Analysis.SpecialFunctions.Exponential
import Mathlib.Analysis.Normed.Algebra.MatrixExponential
import Mathlib.Analysis.SpecialFunctions.Trigonometric.Deriv

namespace Arboris
open Matrix Real Spec

/-! ### zaligned, arctan2 -/

lemma arctan2_cos_sin {x y : ℝ} (h : x ^ 2 + y ^ 2 = 1) :
    cos (arctan2 y x) = x ∧ sin (arctan2 y x) = y := by
  have hn : ‖(⟨x, y⟩ : ℂ)‖ = 1 := by
    rw [Complex.norm_def, Complex.normSq_mk]
    rw [show x * x + y * y = 1 by nlinarith]; simp
  have hne : (⟨x, y⟩ : ℂ) ≠ 0 := by
    intro e; rw [e] at hn; simp at hn
  unfold arctan2
  rw [Complex.cos_arg hne, Complex.sin_arg, hn]; simp

lemma arctan2_polar {r θ : ℝ} (hr : 0 < r) (hθ : θ ∈ Set.Ioc (-π) π) :
    arctan2 (r * sin θ) (r * cos θ) = θ := by
  unfold arctan2
  have := Complex.arg_mul_cos_add_sin_mul_I hr hθ
  refine Eq.trans ?_ this
  congr 1
  apply Complex.ext <;> simp [Complex.cos_ofReal_re, Complex.sin_ofReal_re]

lemma norm3_sq (v : Vec3) : norm3 v ^ 2 = v ⬝ᵥ v := by
  unfold norm3
  rw [Real.sq_sqrt (by positivity)]
  simp [dotProduct, Fin.sum_univ_three, pow_two]
lemma norm3_nonneg (v : Vec3) : 0 ≤ norm3 v := Real.sqrt_nonneg _

/-! ### Rodrigues -/

lemma skew_sq (w : Vec3) : skew w * skew w = outer3 w w - (norm3 w ^ 2) • (1 : Mat3) := by
  rw [norm3_sq]
  ext i j; fin_cases i <;> fin_cases j <;>
    simp [skew, outer3, Matrix.mul_apply, Fin.sum_univ_three, dotProduct] <;> ring

lemma skew_cube (w : Vec3) : skew w * skew w * skew w = -(norm3 w ^ 2) • skew w := by
  rw [norm3_sq]
  ext i j; fin_cases i <;> fin_cases j <;>
    simp [skew, Matrix.mul_apply, Fin.sum_univ_three, dotProduct] <;> ring

lemma rodrigues_orth (a b : ℝ) (w : Vec3) :
    ((1 + a • skew w + b • (skew w * skew w))ᵀ * (1 + a • skew w + b • (skew w * skew w)) : Mat3) =
      1 + (2 * b - a ^ 2 - b ^ 2 * norm3 w ^ 2) • (skew w * skew w) := by
  rw [norm3_sq]
  ext i j; fin_cases i <;> fin_cases j <;>
    simp [skew, Matrix.mul_apply, Fin.sum_univ_three, dotProduct, Matrix.one_apply] <;> ring

lemma rodrigues_det (a b : ℝ) (w : Vec3) :
    (1 + a • skew w + b • (skew w * skew w) : Mat3).det = (1 - b * norm3 w ^ 2) ^ 2 + a ^ 2 * norm3 w ^ 2 := by
  rw [norm3_sq, det_fin_three]
  simp [skew, Matrix.mul_apply, Fin.sum_univ_three, dotProduct, Matrix.one_apply]
  ring

/-- the motion of a constant twist, for unit-speed parameter -/
noncomputable def rodH (t : ℝ) (T : Vec6) (s : ℝ) : Mat4 :=
  mkH (1 + (sin (t * s) / t) • skew (ang T) + ((1 - cos (t * s)) / t ^ 2) • (skew (ang T) * skew (ang T)))
    (((sin (t * s) / t) • (1 : Mat3) + ((1 - cos (t * s)) / t ^ 2) • skew (ang T) +
      ((t * s - sin (t * s)) / t ^ 3) • outer3 (ang T) (ang T)) *ᵥ lin T)

lemma HasDeriv.smul_const {m n : Type*} {f : ℝ → ℝ} {f' t : ℝ} (h : HasDerivAt f f' t) (A : Matrix m n ℝ) :
    HasDeriv (fun s => f s • A) (f' • A) t := by
  intro i j
  simpa using h.mul_const (A i j)

lemma rodH_hasTwist {t : ℝ} (ht : 0 < t) (T : Vec6) (hn : norm3 (ang T) = t) (s : ℝ) :
    HasTwist (rodH t T) T s := by
  have hs : HasDerivAt (fun u => sin (t * u) / t) (cos (t * s)) s := by
    have h1 : HasDerivAt (fun u => t * u) t s := by simpa using (hasDerivAt_id s).const_mul t
    have := (h1.sin).div_const t
    refine this.congr_deriv ?_
    field_simp
  have hc : HasDerivAt (fun u => (1 - cos (t * u)) / t ^ 2) (sin (t * s) / t) s := by
    have h1 : HasDerivAt (fun u => t * u) t s := by simpa using (hasDerivAt_id s).const_mul t
    have := ((h1.cos).const_sub 1).div_const (t ^ 2)
    refine this.congr_deriv ?_
    field_simp
  have hd : HasDerivAt (fun u => (t * u - sin (t * u)) / t ^ 3) ((1 - cos (t * s)) / t ^ 2) s := by
    have h1 : HasDerivAt (fun u => t * u) t s := by simpa using (hasDerivAt_id s).const_mul t
    have := (h1.sub h1.sin).div_const (t ^ 3)
    refine this.congr_deriv ?_
    field_simp
  unfold HasTwist
  have hR := ((HasDeriv.const (1 : Mat3) s).add (HasDeriv.smul_const hs (skew (ang T)))).add
    (HasDeriv.smul_const hc (skew (ang T) * skew (ang T)))
  have hV := ((HasDeriv.smul_const hs (1 : Mat3)).add (HasDeriv.smul_const hc (skew (ang T)))).add
    (HasDeriv.smul_const hd (outer3 (ang T) (ang T)))
  have hp := hV.mulVec (HasDerivV.const (lin T) s)
  have hH := hR.mkH hp
  refine HasDeriv.congr hH ?_
  rw [rodH, hat_eq, mkH_mul_mkh]
  congr 1
  · have h3 := skew_cube (ang T)
    rw [hn] at h3
    have : (1 + (sin (t * s) / t) • skew (ang T) + ((1 - cos (t * s)) / t ^ 2) • (skew (ang T) * skew (ang T))) *
        skew (ang T) = skew (ang T) + (sin (t * s) / t) • (skew (ang T) * skew (ang T)) +
          ((1 - cos (t * s)) / t ^ 2) • (skew (ang T) * skew (ang T) * skew (ang T)) := by
      rw [Matrix.add_mul, Matrix.add_mul, Matrix.one_mul, Matrix.smul_mul, Matrix.smul_mul]
    rw [this, h3]
    ext i j
    simp only [Matrix.add_apply, Matrix.smul_apply, Matrix.zero_apply, smul_eq_mul]
    field_simp
    ring
  · simp only [Matrix.mulVec_zero, add_zero, Pi.zero_apply]
    congr 1
    have h2 := skew_sq (ang T)
    rw [hn] at h2
    rw [h2]
    ext i j
    simp only [Matrix.add_apply, Matrix.smul_apply, Matrix.sub_apply, smul_eq_mul]
    field_simp
    ring

/-! ### the exponential is the only solution of `H' = H hat T`, `H(0) = 1` -/

section
attribute [local instance] Matrix.linftyOpNormedRing Matrix.linftyOpNormedAlgebra

lemma hasDeriv_exp (A : Mat4) (s : ℝ) :
    HasDeriv (fun u : ℝ => NormedSpace.exp (u • A)) (NormedSpace.exp (s • A) * A) s := by
  have h := hasDerivAt_exp_smul_const (𝕂 := ℝ) (𝔸 := Mat4) A s
  intro i j
  let L : Mat4 →L[ℝ] ℝ := LinearMap.toContinuousLinearMap (Matrix.entryLinearMap ℝ ℝ i j)
  exact (L.hasFDerivAt.comp_hasDerivAt s h)

lemma hasDeriv_exp' (A : Mat4) (s : ℝ) :
    HasDeriv (fun u : ℝ => NormedSpace.exp (u • A)) (A * NormedSpace.exp (s • A)) s := by
  have h := hasDerivAt_exp_smul_const' (𝕂 := ℝ) (𝔸 := Mat4) A s
  intro i j
  let L : Mat4 →L[ℝ] ℝ := LinearMap.toContinuousLinearMap (Matrix.entryLinearMap ℝ ℝ i j)
  exact (L.hasFDerivAt.comp_hasDerivAt s h)

lemma exp_mul_exp_neg (A : Mat4) : NormedSpace.exp ((1:ℝ) • -A) * NormedSpace.exp A = 1 := by
  rw [one_smul, ← Matrix.exp_add_of_commute _ _ ((Commute.refl A).neg_left)]
  simp
end

lemma eq_exp_of_hasTwist {H : ℝ → Mat4} {T : Vec6} (h0 : H 0 = 1) (h : ∀ s, HasTwist H T s) :
    H 1 = NormedSpace.exp (hat T) := by
  have hG : ∀ s, HasDeriv (fun u : ℝ => H u * NormedSpace.exp (u • (-hat T))) 0 s := by
    intro s
    have := HasDeriv.mul (h s) (hasDeriv_exp' (-hat T) s)
    refine HasDeriv.congr this ?_
    simp [Matrix.mul_assoc]
  have hc : H 1 * NormedSpace.exp ((1:ℝ) • (-hat T)) = H 0 * NormedSpace.exp ((0:ℝ) • (-hat T)) := by
    ext i j
    have hd : Differentiable ℝ (fun u : ℝ => (H u * NormedSpace.exp (u • (-hat T))) i j) :=
      fun s => (hG s i j).differentiableAt
    exact is_const_of_deriv_eq_zero hd (fun s => (hG s i j).deriv) 1 0
  rw [h0, zero_smul, NormedSpace.exp_zero, Matrix.one_mul] at hc
  calc H 1 = H 1 * (NormedSpace.exp ((1:ℝ) • (-hat T)) * NormedSpace.exp (hat T)) := by
        rw [exp_mul_exp_neg, Matrix.mul_one]
    _ = NormedSpace.exp (hat T) := by rw [← Matrix.mul_assoc, hc, Matrix.one_mul]

lemma rodH_zero (t : ℝ) (T : Vec6) : rodH t T 0 = 1 := by
  simp [rodH, mkH_one]

lemma twistExp_large {T : Vec6} (h : 0.001 ≤ norm3 (ang T)) : twistExp T = rodH (norm3 (ang T)) T 1 := by
  simp [twistExp, if_pos h, rodH, expCoeffs]

lemma twistExp_rigid {T : Vec6} (h : 0.001 ≤ norm3 (ang T)) : IsRigid (twistExp T) := by
  have ht : 0 < norm3 (ang T) := lt_of_lt_of_le (by norm_num) h
  simp only [twistExp, if_pos h, expCoeffs]
  have hsc := sin_sq_add_cos_sq (norm3 (ang T))
  apply isRigid_mkH
  apply IsRotation.of_orth
  · rw [rodrigues_orth]
    convert add_zero (1 : Mat3) using 2
    convert zero_smul ℝ _ using 2
    field_simp
    nlinarith
  · rw [rodrigues_det]
    field_simp
    nlinarith

lemma twistExp_small {T : Vec6} (h : norm3 (ang T) < 0.001) :
    twistExp T = expCoeffs (1 - norm3 (ang T) ^ 2 / 6) (1 / 2) (1 / 6) T := by
  simp [twistExp, if_neg (not_le.mpr h)]

lemma rot_mul_row {H K : Mat4} (hH : H 3 0 = 0 ∧ H 3 1 = 0 ∧ H 3 2 = 0 ∧ H 3 3 = 1)
    (hK : K 3 0 = 0 ∧ K 3 1 = 0 ∧ K 3 2 = 0 ∧ K 3 3 = 1) : rot (H * K) = rot H * rot K := by
  rw [eq_mkH_of_row hH.1 hH.2.1 hH.2.2.1 hH.2.2.2, eq_mkH_of_row hK.1 hK.2.1 hK.2.2.1 hK.2.2.2, mkH_mul]
  simp

end Arboris
