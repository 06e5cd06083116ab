import Verif.Spec.Image
import Verif.Props.Units
import Verif.Props.TreeFalse

/-!
# Lemmas for C105, C106: images
-/

namespace Arboris
open Matrix Spec Mech Build Sim

noncomputable section

/-! ### `resize` -/

section
variable {l m n : Type} [Fintype l] [Fintype m] [Fintype n]

lemma resize_eq [DecidableEq m] [DecidableEq n] (a : m → ℝ) (b : n → ℝ) (M : Matrix m n ℝ) :
    resize a b M = diagonal a * M * diagonal b := by
  ext i j
  simp [resize]

lemma resize_mul {a : l → ℝ} {b b' : m → ℝ} {c : n → ℝ} (h : ∀ i, b i * b' i = 1) (M : Matrix l m ℝ) (N : Matrix m n ℝ) :
    resize a b M * resize b' c N = resize a c (M * N) := by
  ext i j
  simp only [resize, Matrix.mul_apply, Matrix.of_apply, Finset.mul_sum, Finset.sum_mul]
  refine Finset.sum_congr rfl fun k _ => ?_
  linear_combination (a i * M i k * N k j * c j) * h k

lemma resize_mulVec {a : l → ℝ} {b b' : m → ℝ} (h : ∀ i, b i * b' i = 1) (M : Matrix l m ℝ) (v : m → ℝ) :
    resize a b M *ᵥ (b' * v) = a * (M *ᵥ v) := by
  funext i
  simp only [resize, Matrix.mulVec, dotProduct, Matrix.of_apply, Pi.mul_apply, Finset.mul_sum]
  refine Finset.sum_congr rfl fun k _ => ?_
  linear_combination (a i * M i k * v k) * h k

lemma resize_transpose (a : l → ℝ) (b : m → ℝ) (M : Matrix l m ℝ) : (resize a b M)ᵀ = resize b a Mᵀ := by
  ext i j; simp only [resize, Matrix.transpose_apply, Matrix.of_apply]; ring

lemma resize_add (a : l → ℝ) (b : m → ℝ) (M N : Matrix l m ℝ) : resize a b (M + N) = resize a b M + resize a b N := by
  ext i j; simp only [resize, Matrix.add_apply, Matrix.of_apply]; ring

lemma resize_sub (a : l → ℝ) (b : m → ℝ) (M N : Matrix l m ℝ) : resize a b (M - N) = resize a b M - resize a b N := by
  ext i j; simp only [resize, Matrix.sub_apply, Matrix.of_apply]; ring

lemma resize_smul (a : l → ℝ) (b : m → ℝ) (r : ℝ) (M : Matrix l m ℝ) : resize a b (r • M) = r • resize a b M := by
  ext i j; simp only [resize, Matrix.smul_apply, Matrix.of_apply, smul_eq_mul]; ring

lemma resize_zero (a : l → ℝ) (b : m → ℝ) : resize a b (0 : Matrix l m ℝ) = 0 := by
  ext i j; simp [resize]

lemma resize_one [DecidableEq m] {a b : m → ℝ} (h : ∀ i, a i * b i = 1) : resize a b (1 : Matrix m m ℝ) = 1 := by
  ext i j
  simp only [resize, Matrix.of_apply]
  by_cases hij : i = j
  · subst hij; simp [h]
  · simp [Matrix.one_apply_ne hij]

lemma resize_sum (a : l → ℝ) (b : m → ℝ) (L : List (Matrix l m ℝ)) : resize a b L.sum = (L.map (resize a b)).sum := by
  induction L with
  | nil => simp [resize_zero]
  | cons x L ih => simp [resize_add, ih]

lemma resize_det [DecidableEq m] (a b : m → ℝ) (M : Matrix m m ℝ) : (resize a b M).det = (∏ i, a i) * M.det * ∏ i, b i := by
  rw [resize_eq, Matrix.det_mul, Matrix.det_mul, Matrix.det_diagonal, Matrix.det_diagonal]

lemma resize_inv [DecidableEq m] {a b a' b' : m → ℝ} (ha : ∀ i, a i * a' i = 1) (hb : ∀ i, b i * b' i = 1) {M : Matrix m m ℝ} (h : M.det ≠ 0) :
    (resize a b M)⁻¹ = resize b' a' M⁻¹ := by
  apply Matrix.inv_eq_left_inv
  rw [resize_mul (fun i => by rw [mul_comm]; exact ha i), Matrix.nonsing_inv_mul _ (isUnit_iff_ne_zero.mpr h),
    resize_one fun i => by rw [mul_comm]; exact hb i]

end

/-! ### the factors -/

variable {f : ℝ} {s : Vec3}

lemma signs_sq (hs : IsSigns s) (i : Fin 3) : s i * s i = 1 := by
  rcases hs i with h | h <;> rw [h] <;> norm_num

lemma sign_ne (hs : IsSigns s) (i : Fin 3) : s i ≠ 0 := by
  rcases hs i with h | h <;> rw [h] <;> norm_num

lemma sign_inv (hs : IsSigns s) (i : Fin 3) : (s i)⁻¹ = s i := by
  rcases hs i with h | h <;> rw [h] <;> norm_num

lemma twistF_ne (hf : 0 < f) (hs : IsSigns s) (i : Fin 6) : twistF f s i ≠ 0 := by
  have h0 := sign_ne hs 0
  have h1 := sign_ne hs 1
  have h2 := sign_ne hs 2
  have h3 := hf.ne'
  fin_cases i <;> simp only [twistF] <;> simp [*]

lemma pointF_ne (hf : 0 < f) (hs : IsSigns s) (i : Fin 4) : pointF f s i ≠ 0 := by
  have h0 := sign_ne hs 0
  have h1 := sign_ne hs 1
  have h2 := sign_ne hs 2
  have h3 := hf.ne'
  fin_cases i <;> simp only [pointF] <;> simp [*]

lemma inv_left {m : Type} {a : m → ℝ} (h : ∀ i, a i ≠ 0) (i : m) : a⁻¹ i * a i = 1 := by
  simp [Pi.inv_apply, inv_mul_cancel₀ (h i)]
lemma inv_right {m : Type} {a : m → ℝ} (h : ∀ i, a i ≠ 0) (i : m) : a i * a⁻¹ i = 1 := by
  simp [Pi.inv_apply, mul_inv_cancel₀ (h i)]

/-- conjugation by the reflection -/
def cj (s : Vec3) (M : Mat3) : Mat3 := resize s s M

lemma cj_mul (hs : IsSigns s) (M N : Mat3) : cj s (M * N) = cj s M * cj s N := (resize_mul (signs_sq hs) M N).symm
lemma cj_mulVec (hs : IsSigns s) (M : Mat3) (v : Vec3) : cj s M *ᵥ (s * v) = s * (M *ᵥ v) := resize_mulVec (signs_sq hs) M v
lemma cj_transpose (M : Mat3) : cj s Mᵀ = (cj s M)ᵀ := (resize_transpose _ _ _).symm
lemma cj_add (M N : Mat3) : cj s (M + N) = cj s M + cj s N := resize_add _ _ _ _
lemma cj_sub (M N : Mat3) : cj s (M - N) = cj s M - cj s N := resize_sub _ _ _ _
lemma cj_smul (r : ℝ) (M : Mat3) : cj s (r • M) = r • cj s M := resize_smul _ _ _ _
lemma cj_one (hs : IsSigns s) : cj s 1 = 1 := resize_one (signs_sq hs)
lemma cj_zero : cj s 0 = 0 := resize_zero _ _
lemma cj_det (hs : IsSigns s) (M : Mat3) : (cj s M).det = M.det := by
  have h0 := signs_sq hs 0
  have h1 := signs_sq hs 1
  have h2 := signs_sq hs 2
  rw [cj, resize_det, Fin.prod_univ_three, show s 0 * s 1 * s 2 * M.det * (s 0 * s 1 * s 2) = (s 0 * s 0) * (s 1 * s 1) * (s 2 * s 2) * M.det by ring,
    h0, h1, h2]
  ring

/-- the sign of the reflection -/
def sgn (s : Vec3) : ℝ := s 0 * s 1 * s 2

lemma sgn_sq (hs : IsSigns s) : sgn s * sgn s = 1 := by
  rw [sgn, show s 0 * s 1 * s 2 * (s 0 * s 1 * s 2) = (s 0 * s 0) * (s 1 * s 1) * (s 2 * s 2) by ring, signs_sq hs 0, signs_sq hs 1, signs_sq hs 2]
  norm_num

lemma sgn_inv (hs : IsSigns s) : (sgn s)⁻¹ = sgn s := (eq_inv_of_mul_eq_one_left (sgn_sq hs)).symm

lemma skew_image (hs : IsSigns s) (v : Vec3) : skew (s * v) = sgn s • cj s (skew v) := by
  have h0 := signs_sq hs 0
  have h1 := signs_sq hs 1
  have h2 := signs_sq hs 2
  ext i j
  fin_cases i <;> fin_cases j <;> simp [skew, cj, resize, sgn]
  · first | linear_combination (s 2 * v 2) * h0 * (s 1 * s 1) + (s 2 * v 2) * h1 | linear_combination -((s 2 * v 2) * h0 * (s 1 * s 1) + (s 2 * v 2) * h1)
  · first | linear_combination (s 1 * v 1) * h0 * (s 2 * s 2) + (s 1 * v 1) * h2 | linear_combination -((s 1 * v 1) * h0 * (s 2 * s 2) + (s 1 * v 1) * h2)
  · first | linear_combination (s 2 * v 2) * h0 * (s 1 * s 1) + (s 2 * v 2) * h1 | linear_combination -((s 2 * v 2) * h0 * (s 1 * s 1) + (s 2 * v 2) * h1)
  · first | linear_combination (s 0 * v 0) * h1 * (s 2 * s 2) + (s 0 * v 0) * h2 | linear_combination -((s 0 * v 0) * h1 * (s 2 * s 2) + (s 0 * v 0) * h2)
  · first | linear_combination (s 1 * v 1) * h0 * (s 2 * s 2) + (s 1 * v 1) * h2 | linear_combination -((s 1 * v 1) * h0 * (s 2 * s 2) + (s 1 * v 1) * h2)
  · first | linear_combination (s 0 * v 0) * h1 * (s 2 * s 2) + (s 0 * v 0) * h2 | linear_combination -((s 0 * v 0) * h1 * (s 2 * s 2) + (s 0 * v 0) * h2)

lemma twistF_inl (i : Fin 3) : twistF f s (e6 (Sum.inl i)) = sgn s * s i := by fin_cases i <;> rfl
lemma twistF_inr (i : Fin 3) : twistF f s (e6 (Sum.inr i)) = f * s i := by fin_cases i <;> rfl

lemma ang_image (T : Vec6) : ang (twistF f s * T) = sgn s • (s * ang T) := by
  funext i
  simp only [ang, Pi.mul_apply, twistF_inl, Pi.smul_apply, smul_eq_mul, mul_assoc]

lemma lin_image (T : Vec6) : lin (twistF f s * T) = f • (s * lin T) := by
  funext i
  simp only [lin, Pi.mul_apply, twistF_inr, Pi.smul_apply, smul_eq_mul, mul_assoc]

lemma tw_image (w v : Vec3) : twistF f s * tw w v = tw (sgn s • (s * w)) (f • (s * v)) := by
  rw [← tw_ang_lin (twistF f s * tw w v), ang_image, lin_image, ang_tw, lin_tw]

/-! ### poses -/

lemma pointF_inl (i : Fin 3) : pointF f s (e4 (Sum.inl i)) = f * s i := by fin_cases i <;> rfl

lemma rot_image (hf : 0 < f) (hs : IsSigns s) (H : Mat4) : rot (imagePose f s H) = cj s (rot H) := by
  ext i j
  simp only [rot, imagePose, resize, cj, Matrix.of_apply, Pi.inv_apply, pointF_inl, mul_inv, sign_inv hs]
  field_simp

lemma pos_image (H : Mat4) : pos (imagePose f s H) = f • (s * pos H) := by
  funext i
  have : pointF f s 3 = 1 := rfl
  simp only [pos, imagePose, resize, Matrix.of_apply, Pi.inv_apply, pointF_inl, this, inv_one, mul_one, Pi.smul_apply, Pi.mul_apply, smul_eq_mul]
  ring

lemma imagePose_mul (hf : 0 < f) (hs : IsSigns s) (H K : Mat4) : imagePose f s (H * K) = imagePose f s H * imagePose f s K :=
  (resize_mul (inv_left (pointF_ne hf hs)) H K).symm

lemma imagePose_one (hf : 0 < f) (hs : IsSigns s) : imagePose f s 1 = 1 := resize_one (inv_right (pointF_ne hf hs))

lemma imagePose_mkH (hf : 0 < f) (hs : IsSigns s) (R : Mat3) (p : Vec3) : imagePose f s (mkH R p) = mkH (cj s R) (f • (s * p)) := by
  have h3 : pointF f s (e4 (Sum.inr 0)) = 1 := rfl
  ext i j
  obtain ⟨i, rfl⟩ := e4.surjective i
  obtain ⟨j, rfl⟩ := e4.surjective j
  rcases i with i | i <;> rcases j with j | j
  · simp only [imagePose, resize, mkH, Matrix.of_apply, Matrix.submatrix_apply, Equiv.symm_apply_apply, Matrix.fromBlocks_apply₁₁,
      Pi.inv_apply, pointF_inl, mul_inv, sign_inv hs, cj, smul_eq_mul]
    field_simp
  · obtain rfl : j = 0 := Subsingleton.elim _ _
    simp only [imagePose, resize, mkH, Matrix.of_apply, Matrix.submatrix_apply, Equiv.symm_apply_apply, Matrix.fromBlocks_apply₁₂,
      Pi.inv_apply, pointF_inl, h3, inv_one, mul_one, Pi.smul_apply, Pi.mul_apply, smul_eq_mul, mul_assoc]
  · obtain rfl : i = 0 := Subsingleton.elim _ _
    simp only [imagePose, resize, mkH, Matrix.of_apply, Matrix.submatrix_apply, Equiv.symm_apply_apply, Matrix.fromBlocks_apply₂₁,
      Matrix.zero_apply, mul_zero, zero_mul]
  · obtain rfl : j = 0 := Subsingleton.elim _ _
    obtain rfl : i = 0 := Subsingleton.elim _ _
    simp only [imagePose, resize, mkH, Matrix.of_apply, Matrix.submatrix_apply, Equiv.symm_apply_apply, Matrix.fromBlocks_apply₂₂,
      Pi.inv_apply, h3, inv_one, mul_one, one_mul]

lemma hom_image (hf : 0 < f) (hs : IsSigns s) (H : Mat4) : ishomogeneousmatrix (imagePose f s H) ↔ ishomogeneousmatrix H := by
  unfold ishomogeneousmatrix ishomogeneousmatrixTol
  rw [rot_image hf hs, cj_det hs]
  have h0 := pointF_ne hf hs 0
  have h1 := pointF_ne hf hs 1
  have h2 := pointF_ne hf hs 2
  have h3 : pointF f s 3 = 1 := rfl
  have e : ∀ j, imagePose f s H 3 j = H 3 j * (pointF f s j)⁻¹ := by
    intro j
    simp only [imagePose, resize, Matrix.of_apply, h3, one_mul, Pi.inv_apply]
  rw [e, e, e, e, h3, inv_one, mul_one, mul_eq_zero, mul_eq_zero, mul_eq_zero]
  simp only [inv_eq_zero, h0, h1, h2, or_false]

lemma invBody_image (hf : 0 < f) (hs : IsSigns s) (H : Mat4) : invBody (imagePose f s H) = imagePose f s (invBody H) := by
  simp only [invBody, imagePose_mkH hf hs, rot_image hf hs, pos_image, cj_transpose, Matrix.mulVec_smul]
  rw [← cj_transpose, cj_mulVec hs]
  congr 1
  funext i
  simp

lemma cj_apply (M : Mat3) (i j : Fin 3) : cj s M i j = s i * M i j * s j := rfl

lemma blk_image (hs : IsSigns s) (A B C D : Mat3) :
    resize (twistF f s) (twistF f s)⁻¹ (blk A B C D) =
      blk (cj s A) ((f⁻¹ * sgn s) • cj s B) ((f * sgn s) • cj s C) ((f * f⁻¹) • cj s D) := by
  have hg := sgn_sq hs
  ext i j
  obtain ⟨i, rfl⟩ := e6.surjective i
  obtain ⟨j, rfl⟩ := e6.surjective j
  rcases i with i | i <;> rcases j with j | j <;>
    simp only [resize, blk, Matrix.of_apply, Matrix.submatrix_apply, Equiv.symm_apply_apply, Matrix.fromBlocks_apply₁₁,
      Matrix.fromBlocks_apply₁₂, Matrix.fromBlocks_apply₂₁, Matrix.fromBlocks_apply₂₂, Pi.inv_apply, twistF_inl, twistF_inr,
      mul_inv, sign_inv hs, sgn_inv hs, cj_apply, Matrix.smul_apply, smul_eq_mul]
  · linear_combination (s i * A i j * s j) * hg
  · ring
  · ring
  · ring

lemma blk_coimage (hs : IsSigns s) (A B C D : Mat3) :
    resize (twistF f s)⁻¹ (twistF f s) (blk A B C D) =
      blk (cj s A) ((f * sgn s) • cj s B) ((f⁻¹ * sgn s) • cj s C) ((f * f⁻¹) • cj s D) := by
  have hg := sgn_sq hs
  ext i j
  obtain ⟨i, rfl⟩ := e6.surjective i
  obtain ⟨j, rfl⟩ := e6.surjective j
  rcases i with i | i <;> rcases j with j | j <;>
    simp only [resize, blk, Matrix.of_apply, Matrix.submatrix_apply, Equiv.symm_apply_apply, Matrix.fromBlocks_apply₁₁,
      Matrix.fromBlocks_apply₁₂, Matrix.fromBlocks_apply₂₁, Matrix.fromBlocks_apply₂₂, Pi.inv_apply, twistF_inl, twistF_inr,
      mul_inv, sign_inv hs, sgn_inv hs, cj_apply, Matrix.smul_apply, smul_eq_mul]
  · linear_combination (s i * A i j * s j) * hg
  · ring
  · ring
  · ring

lemma adjointBody_image (hf : 0 < f) (hs : IsSigns s) (H : Mat4) :
    adjointBody (imagePose f s H) = resize (twistF f s) (twistF f s)⁻¹ (adjointBody H) := by
  simp only [adjointBody, blk_image hs, rot_image hf hs, pos_image, skew_smul, skew_image hs, mul_inv_cancel₀ hf.ne', one_smul, cj_zero,
    smul_zero, Matrix.smul_mul, smul_smul, cj_mul hs]

lemma adjacency_image (hf : 0 < f) (hs : IsSigns s) (T : Vec6) :
    adjacency (twistF f s * T) = resize (twistF f s) (twistF f s)⁻¹ (adjacency T) := by
  simp only [adjacency_eq, blk_image hs, ang_image, lin_image, skew_smul, skew_image hs, mul_inv_cancel₀ hf.ne', one_smul, cj_zero,
    smul_zero, smul_smul, sgn_sq hs]

/-! ### the exponential -/

lemma norm3_image (hs : IsSigns s) (v : Vec3) : norm3 (sgn s • (s * v)) = norm3 v := by
  have hg := sgn_sq hs
  have h0 := signs_sq hs 0
  have h1 := signs_sq hs 1
  have h2 := signs_sq hs 2
  unfold norm3
  congr 1
  simp only [Pi.smul_apply, Pi.mul_apply, smul_eq_mul]
  have e : ∀ i, (sgn s * (s i * v i)) ^ 2 = v i ^ 2 := by
    intro i
    have h := signs_sq hs i
    calc (sgn s * (s i * v i)) ^ 2 = (sgn s * sgn s) * (s i * s i) * v i ^ 2 := by ring
      _ = v i ^ 2 := by rw [hg, h]; ring
  rw [e, e, e]

lemma outer3_image (hs : IsSigns s) (u v : Vec3) : outer3 (sgn s • (s * u)) (sgn s • (s * v)) = cj s (outer3 u v) := by
  have hg := sgn_sq hs
  ext i j
  simp only [outer3, cj_apply, Matrix.of_apply, Pi.smul_apply, Pi.mul_apply, smul_eq_mul]
  linear_combination (s i * u i * s j * v j) * hg

lemma expCoeffs_image (hf : 0 < f) (hs : IsSigns s) (a b c : ℝ) (T : Vec6) :
    expCoeffs a b c (twistF f s * T) = imagePose f s (expCoeffs a b c T) := by
  have e : skew (sgn s • (s * ang T)) = cj s (skew (ang T)) := by
    rw [skew_smul, skew_image hs, smul_smul, sgn_sq hs, one_smul]
  simp only [expCoeffs, imagePose_mkH hf hs, ang_image, lin_image, e, outer3_image hs]
  congr 1
  · simp only [cj_add, cj_smul, cj_one hs, cj_mul hs]
  · rw [Matrix.mulVec_smul, ← cj_mulVec hs]
    simp only [cj_add, cj_smul, cj_one hs]

lemma twistExp_image (hf : 0 < f) (hs : IsSigns s) (T : Vec6) : twistExp (twistF f s * T) = imagePose f s (twistExp T) := by
  unfold twistExp
  simp only [ang_image, norm3_image hs, expCoeffs_image hf hs]
  split <;> rfl

/-! ### bodies -/

lemma b12_image (hs : IsSigns s) (hf : 0 < f) (M : Mat6) :
    b12 (f ^ 2 • resize (twistF f s)⁻¹ (twistF f s)⁻¹ M) = (f * sgn s) • cj s (b12 M) := by
  ext i j
  simp only [b12, Matrix.of_apply, Matrix.smul_apply, Matrix.submatrix_apply, resize, Pi.inv_apply, twistF_inl, twistF_inr, mul_inv, sign_inv hs,
    sgn_inv hs, cj_apply, smul_eq_mul]
  field_simp

lemma mass55_image (hs : IsSigns s) (hf : 0 < f) (M : Mat6) : (f ^ 2 • resize (twistF f s)⁻¹ (twistF f s)⁻¹ M) 5 5 = M 5 5 := by
  have h : twistF f s 5 = f * s 2 := rfl
  have h2 := signs_sq hs 2
  simp only [Matrix.smul_apply, resize, Matrix.of_apply, Pi.inv_apply, h, mul_inv, sign_inv hs, smul_eq_mul]
  have hf' := hf.ne'
  field_simp
  linear_combination (M 5 5) * h2

lemma bodyNleffects_image (hf : 0 < f) (hs : IsSigns s) (M : Mat6) (T : Vec6) :
    bodyNleffects (f ^ 2 • resize (twistF f s)⁻¹ (twistF f s)⁻¹ M) (twistF f s * T) =
      f ^ 2 • resize (twistF f s)⁻¹ (twistF f s)⁻¹ (bodyNleffects M T) := by
  unfold bodyNleffects
  simp only [mass55_image hs hf, b12_image hs hf]
  have e : skew (ang (twistF f s * T)) = cj s (skew (ang T)) := by
    rw [ang_image, skew_smul, skew_image hs, smul_smul, sgn_sq hs, one_smul]
  rw [e]
  have e2 : (if M 5 5 ≤ (1e-10 : ℝ) then (0 : Mat3) else (M 5 5)⁻¹ • (f * sgn s) • cj s (b12 M)) =
      (f * sgn s) • cj s (if M 5 5 ≤ (1e-10 : ℝ) then 0 else (M 5 5)⁻¹ • b12 M) := by
    split
    · rw [cj_zero, smul_zero]
    · rw [cj_smul, smul_comm]
  rw [e2]
  generalize (if M 5 5 ≤ (1e-10 : ℝ) then (0 : Mat3) else (M 5 5)⁻¹ • b12 M) = X
  generalize skew (ang T) = W
  rw [Matrix.mul_smul, ← resize_mul (b := twistF f s) (b' := (twistF f s)⁻¹) (inv_right (twistF_ne hf hs)), blk_coimage hs]
  simp only [mul_inv_cancel₀ hf.ne', one_smul, cj_zero, smul_zero, cj_sub, cj_mul hs, smul_sub, Matrix.smul_mul, Matrix.mul_smul]

/-! ### columns -/

lemma addCols_image {n k : ℕ} (a : Fin 6 → ℝ) (D : Fin n → ℝ) (e : Fin k → ℝ) (A : Matrix (Fin 6) (Fin n) ℝ) (st : ℕ) (B : Matrix (Fin 6) (Fin k) ℝ)
    (h : ∀ (i : Fin k) (hi : st + i.val < n), D ⟨st + i.val, hi⟩ = e i) :
    addCols (resize a D⁻¹ A) st k (resize a e⁻¹ B) = resize a D⁻¹ (addCols A st k B) := by
  ext i c
  simp only [addCols, Matrix.of_apply, resize]
  split
  · rename_i hc
    have hlt : st + (c.val - st) < n := by have := c.isLt; omega
    have := h ⟨c.val - st, by omega⟩ hlt
    have ec : (⟨st + (c.val - st), hlt⟩ : Fin n) = c := Fin.ext (by simp; omega)
    rw [ec] at this
    rw [Pi.inv_apply, Pi.inv_apply, this]
    ring
  · rfl

/-! ### joints -/

lemma image_rotx (hf : 0 < f) (hs : IsSigns s) (a : ℝ) : rotx (twistF f s 0 * a) = imagePose f s (rotx a) := by
  rw [rotx_eq, rotx_eq, imagePose_mkH hf hs]
  congr 1
  · have h : twistF f s 0 = s 0 * s 1 * s 2 * s 0 := rfl
    rw [h]
    ext i j
    rw [cj_apply]
    rcases hs 0 with h0 | h0 <;> rcases hs 1 with h1 | h1 <;> rcases hs 2 with h2 | h2 <;>
      fin_cases i <;> fin_cases j <;> simp [Rx, h0, h1, h2]
  · simp

lemma image_roty (hf : 0 < f) (hs : IsSigns s) (a : ℝ) : roty (twistF f s 1 * a) = imagePose f s (roty a) := by
  rw [roty_eq, roty_eq, imagePose_mkH hf hs]
  congr 1
  · have h : twistF f s 1 = s 0 * s 1 * s 2 * s 1 := rfl
    rw [h]
    ext i j
    rw [cj_apply]
    rcases hs 0 with h0 | h0 <;> rcases hs 1 with h1 | h1 <;> rcases hs 2 with h2 | h2 <;>
      fin_cases i <;> fin_cases j <;> simp [Ry, h0, h1, h2]
  · simp

lemma image_rotz (hf : 0 < f) (hs : IsSigns s) (a : ℝ) : rotz (twistF f s 2 * a) = imagePose f s (rotz a) := by
  rw [rotz_eq, rotz_eq, imagePose_mkH hf hs]
  congr 1
  · have h : twistF f s 2 = s 0 * s 1 * s 2 * s 2 := rfl
    rw [h]
    ext i j
    rw [cj_apply]
    rcases hs 0 with h0 | h0 <;> rcases hs 1 with h1 | h1 <;> rcases hs 2 with h2 | h2 <;>
      fin_cases i <;> fin_cases j <;> simp [Rz, h0, h1, h2]
  · simp

lemma image_transl (hf : 0 < f) (hs : IsSigns s) (a b c : ℝ) :
    transl (twistF f s 3 * a) (twistF f s 4 * b) (twistF f s 5 * c) = imagePose f s (transl a b c) := by
  rw [transl_eq, transl_eq, imagePose_mkH hf hs, cj_one hs]
  congr 1
  funext i
  fin_cases i
  · change f * s 0 * a = f * (s 0 * a); ring
  · change f * s 1 * b = f * (s 1 * b); ring
  · change f * s 2 * c = f * (s 2 * c); ring

lemma rotzyx_prod (a b c : ℝ) : rotzyx a b c = rotz a * roty b * rotx c := by
  ext i j; fin_cases i <;> fin_cases j <;> simp [rotzyx, rotz, roty, rotx, Matrix.mul_apply, Fin.sum_univ_four] <;> ring
lemma rotzy_prod (a b : ℝ) : rotzy a b = rotz a * roty b := by
  ext i j; fin_cases i <;> fin_cases j <;> simp [rotzy, rotz, roty, Matrix.mul_apply, Fin.sum_univ_four]
lemma rotzx_prod (a b : ℝ) : rotzx a b = rotz a * rotx b := by
  ext i j; fin_cases i <;> fin_cases j <;> simp [rotzx, rotz, rotx, Matrix.mul_apply, Fin.sum_univ_four]
lemma rotyx_prod (a b : ℝ) : rotyx a b = roty a * rotx b := by
  ext i j; fin_cases i <;> fin_cases j <;> simp [rotyx, roty, rotx, Matrix.mul_apply, Fin.sum_univ_four]

/-- the factors of a linear joint -/
def linF (f : ℝ) (s : Vec3) (k : LinKind) : Fin k.ndof → ℝ := fun i => twistF f s (k.axes.getD i.val 0)

lemma linPose_image (hf : 0 < f) (hs : IsSigns s) (k : LinKind) (q : Fin k.ndof → ℝ) : k.pose (linF f s k * q) = imagePose f s (k.pose q) := by
  cases k with
  | RzRyRx => 
    change rotzyx (twistF f s 2 * q (0 : Fin 3)) (twistF f s 1 * q (1 : Fin 3)) (twistF f s 0 * q (2 : Fin 3)) = imagePose f s (rotzyx _ _ _)
    rw [rotzyx_prod, rotzyx_prod, imagePose_mul hf hs, imagePose_mul hf hs, image_rotx hf hs, image_roty hf hs, image_rotz hf hs]
  | RzRy => 
    change rotzy (twistF f s 2 * q (0 : Fin 2)) (twistF f s 1 * q (1 : Fin 2)) = imagePose f s (rotzy _ _)
    rw [rotzy_prod, rotzy_prod, imagePose_mul hf hs, image_roty hf hs, image_rotz hf hs]
  | RzRx => 
    change rotzx (twistF f s 2 * q (0 : Fin 2)) (twistF f s 0 * q (1 : Fin 2)) = imagePose f s (rotzx _ _)
    rw [rotzx_prod, rotzx_prod, imagePose_mul hf hs, image_rotx hf hs, image_rotz hf hs]
  | RyRx => 
    change rotyx (twistF f s 1 * q (0 : Fin 2)) (twistF f s 0 * q (1 : Fin 2)) = imagePose f s (rotyx _ _)
    rw [rotyx_prod, rotyx_prod, imagePose_mul hf hs, image_rotx hf hs, image_roty hf hs]
  | Rz => exact image_rotz hf hs _
  | Ry => exact image_roty hf hs _
  | Rx => exact image_rotx hf hs _
  | TxTyTz => exact image_transl hf hs _ _ _
  | Tz => have := image_transl hf hs 0 0 (q (0 : Fin 1)); rw [mul_zero, mul_zero] at this; exact this
  | Ty => have := image_transl hf hs 0 (q (0 : Fin 1)) 0; rw [mul_zero, mul_zero] at this; exact this
  | Tx => have := image_transl hf hs (q (0 : Fin 1)) 0 0; rw [mul_zero, mul_zero] at this; exact this

lemma linIpose_image (hf : 0 < f) (hs : IsSigns s) (k : LinKind) (q : Fin k.ndof → ℝ) : k.ipose (linF f s k * q) = imagePose f s (k.ipose q) := by
  cases k with
  | RzRyRx | RzRy | RzRx | RyRx | TxTyTz =>
    simp only [LinKind.ipose, ← invBody_image hf hs]
    congr 1
    exact linPose_image hf hs _ q
  | Rz => simp only [LinKind.ipose]; rw [← image_rotz hf hs, mul_neg]; rfl
  | Ry => simp only [LinKind.ipose]; rw [← image_roty hf hs, mul_neg]; rfl
  | Rx => simp only [LinKind.ipose]; rw [← image_rotx hf hs, mul_neg]; rfl
  | Tz => simp only [LinKind.ipose]; rw [← image_transl hf hs, mul_neg, mul_zero, mul_zero]; rfl
  | Ty => simp only [LinKind.ipose]; rw [← image_transl hf hs, mul_neg, mul_zero, mul_zero]; rfl
  | Tx => simp only [LinKind.ipose]; rw [← image_transl hf hs, mul_neg, mul_zero, mul_zero]; rfl

lemma rotF_sign (hs : IsSigns s) (k : Fin 6) (hk : k.val < 3) : twistF f s k = 1 ∨ twistF f s k = -1 := by
  rcases hs 0 with h0 | h0 <;> rcases hs 1 with h1 | h1 <;> rcases hs 2 with h2 | h2 <;>
    fin_cases k <;> simp [twistF, h0, h1, h2] at hk ⊢

/-- the factors of rotations: the eight reflections give four triples -/
lemma rotF_cases (hs : IsSigns s) :
    (twistF f s 0 = 1 ∧ twistF f s 1 = 1 ∧ twistF f s 2 = 1) ∨ (twistF f s 0 = 1 ∧ twistF f s 1 = -1 ∧ twistF f s 2 = -1) ∨
    (twistF f s 0 = -1 ∧ twistF f s 1 = 1 ∧ twistF f s 2 = -1) ∨ (twistF f s 0 = -1 ∧ twistF f s 1 = -1 ∧ twistF f s 2 = 1) := by
  have e0 : twistF f s 0 = s 0 * s 1 * s 2 * s 0 := rfl
  have e1 : twistF f s 1 = s 0 * s 1 * s 2 * s 1 := rfl
  have e2 : twistF f s 2 = s 0 * s 1 * s 2 * s 2 := rfl
  rw [e0, e1, e2]
  rcases hs 0 with h0 | h0 <;> rcases hs 1 with h1 | h1 <;> rcases hs 2 with h2 | h2 <;> norm_num [h0, h1, h2]

lemma linJac_image (hf : 0 < f) (hs : IsSigns s) (k : LinKind) (q : Fin k.ndof → ℝ) :
    k.jac (linF f s k * q) = resize (twistF f s) (linF f s k)⁻¹ (k.jac q) := by
  have n3 := twistF_ne hf hs 3
  have n4 := twistF_ne hf hs 4
  have n5 := twistF_ne hf hs 5
  have hc := rotF_cases (f := f) hs
  cases k with
  | RzRyRx =>
    have p : (linF f s .RzRyRx * q) (0 : Fin 3) = twistF f s 2 * q (0 : Fin 3) ∧ (linF f s .RzRyRx * q) (1 : Fin 3) = twistF f s 1 * q (1 : Fin 3) ∧
      (linF f s .RzRyRx * q) (2 : Fin 3) = twistF f s 0 * q (2 : Fin 3) := ⟨rfl, rfl, rfl⟩
    have r : linF f s .RzRyRx (0 : Fin 3) = twistF f s 2 ∧ linF f s .RzRyRx (1 : Fin 3) = twistF f s 1 ∧ linF f s .RzRyRx (2 : Fin 3) = twistF f s 0 := ⟨rfl, rfl, rfl⟩
    simp only [LinKind.jac, p]
    clear p
    generalize linF f s .RzRyRx = e at r ⊢
    change Fin 3 → ℝ at q e
    change e 0 = _ ∧ e 1 = _ ∧ e 2 = _ at r
    ext i (j : Fin 3)
    change _ = twistF f s i * _ * (e j)⁻¹
    rcases hc with ⟨h0, h1, h2⟩ | ⟨h0, h1, h2⟩ | ⟨h0, h1, h2⟩ | ⟨h0, h1, h2⟩ <;> 
      fin_cases i <;> fin_cases j <;> simp [r, h0, h1, h2]
  | RzRy =>
    have p : (linF f s .RzRy * q) (0 : Fin 2) = twistF f s 2 * q (0 : Fin 2) ∧ (linF f s .RzRy * q) (1 : Fin 2) = twistF f s 1 * q (1 : Fin 2) := ⟨rfl, rfl⟩
    have r : linF f s .RzRy (0 : Fin 2) = twistF f s 2 ∧ linF f s .RzRy (1 : Fin 2) = twistF f s 1 := ⟨rfl, rfl⟩
    simp only [LinKind.jac, p]
    clear p
    generalize linF f s .RzRy = e at r ⊢
    change Fin 2 → ℝ at q e
    change e 0 = _ ∧ e 1 = _ at r
    ext i (j : Fin 2)
    change _ = twistF f s i * _ * (e j)⁻¹
    rcases hc with ⟨h0, h1, h2⟩ | ⟨h0, h1, h2⟩ | ⟨h0, h1, h2⟩ | ⟨h0, h1, h2⟩ <;> 
      fin_cases i <;> fin_cases j <;> simp [r, h0, h1, h2]
  | RzRx =>
    have p : (linF f s .RzRx * q) (0 : Fin 2) = twistF f s 2 * q (0 : Fin 2) ∧ (linF f s .RzRx * q) (1 : Fin 2) = twistF f s 0 * q (1 : Fin 2) := ⟨rfl, rfl⟩
    have r : linF f s .RzRx (0 : Fin 2) = twistF f s 2 ∧ linF f s .RzRx (1 : Fin 2) = twistF f s 0 := ⟨rfl, rfl⟩
    simp only [LinKind.jac, p]
    clear p
    generalize linF f s .RzRx = e at r ⊢
    change Fin 2 → ℝ at q e
    change e 0 = _ ∧ e 1 = _ at r
    ext i (j : Fin 2)
    change _ = twistF f s i * _ * (e j)⁻¹
    rcases hc with ⟨h0, h1, h2⟩ | ⟨h0, h1, h2⟩ | ⟨h0, h1, h2⟩ | ⟨h0, h1, h2⟩ <;> 
      fin_cases i <;> fin_cases j <;> simp [r, h0, h1, h2]
  | RyRx =>
    have p : (linF f s .RyRx * q) (0 : Fin 2) = twistF f s 1 * q (0 : Fin 2) ∧ (linF f s .RyRx * q) (1 : Fin 2) = twistF f s 0 * q (1 : Fin 2) := ⟨rfl, rfl⟩
    have r : linF f s .RyRx (0 : Fin 2) = twistF f s 1 ∧ linF f s .RyRx (1 : Fin 2) = twistF f s 0 := ⟨rfl, rfl⟩
    simp only [LinKind.jac, p]
    clear p
    generalize linF f s .RyRx = e at r ⊢
    change Fin 2 → ℝ at q e
    change e 0 = _ ∧ e 1 = _ at r
    ext i (j : Fin 2)
    change _ = twistF f s i * _ * (e j)⁻¹
    rcases hc with ⟨h0, h1, h2⟩ | ⟨h0, h1, h2⟩ | ⟨h0, h1, h2⟩ | ⟨h0, h1, h2⟩ <;> 
      fin_cases i <;> fin_cases j <;> simp [r, h0, h1, h2]
  | TxTyTz =>
    have r : linF f s .TxTyTz (0 : Fin 3) = twistF f s 3 ∧ linF f s .TxTyTz (1 : Fin 3) = twistF f s 4 ∧ linF f s .TxTyTz (2 : Fin 3) = twistF f s 5 := ⟨rfl, rfl, rfl⟩
    simp only [LinKind.jac]
    generalize linF f s .TxTyTz = e at r ⊢
    change Fin 3 → ℝ at q e
    change e 0 = _ ∧ e 1 = _ ∧ e 2 = _ at r
    ext i (j : Fin 3)
    change _ = twistF f s i * _ * (e j)⁻¹
    fin_cases i <;> fin_cases j <;> simp [r, n3, n4, n5]
  | Rz =>
    have r : linF f s .Rz (0 : Fin 1) = twistF f s 2 := rfl
    have na := twistF_ne hf hs 2
    simp only [LinKind.jac]
    generalize linF f s .Rz = e at r ⊢
    change Fin 1 → ℝ at q e
    change e 0 = _ at r
    ext i (j : Fin 1)
    change _ = twistF f s i * _ * (e j)⁻¹
    fin_cases i <;> fin_cases j <;> simp [r, na]
  | Ry =>
    have r : linF f s .Ry (0 : Fin 1) = twistF f s 1 := rfl
    have na := twistF_ne hf hs 1
    simp only [LinKind.jac]
    generalize linF f s .Ry = e at r ⊢
    change Fin 1 → ℝ at q e
    change e 0 = _ at r
    ext i (j : Fin 1)
    change _ = twistF f s i * _ * (e j)⁻¹
    fin_cases i <;> fin_cases j <;> simp [r, na]
  | Rx =>
    have r : linF f s .Rx (0 : Fin 1) = twistF f s 0 := rfl
    have na := twistF_ne hf hs 0
    simp only [LinKind.jac]
    generalize linF f s .Rx = e at r ⊢
    change Fin 1 → ℝ at q e
    change e 0 = _ at r
    ext i (j : Fin 1)
    change _ = twistF f s i * _ * (e j)⁻¹
    fin_cases i <;> fin_cases j <;> simp [r, na]
  | Tz =>
    have r : linF f s .Tz (0 : Fin 1) = twistF f s 5 := rfl
    have na := twistF_ne hf hs 5
    simp only [LinKind.jac]
    generalize linF f s .Tz = e at r ⊢
    change Fin 1 → ℝ at q e
    change e 0 = _ at r
    ext i (j : Fin 1)
    change _ = twistF f s i * _ * (e j)⁻¹
    fin_cases i <;> fin_cases j <;> simp [r, na]
  | Ty =>
    have r : linF f s .Ty (0 : Fin 1) = twistF f s 4 := rfl
    have na := twistF_ne hf hs 4
    simp only [LinKind.jac]
    generalize linF f s .Ty = e at r ⊢
    change Fin 1 → ℝ at q e
    change e 0 = _ at r
    ext i (j : Fin 1)
    change _ = twistF f s i * _ * (e j)⁻¹
    fin_cases i <;> fin_cases j <;> simp [r, na]
  | Tx =>
    have r : linF f s .Tx (0 : Fin 1) = twistF f s 3 := rfl
    have na := twistF_ne hf hs 3
    simp only [LinKind.jac]
    generalize linF f s .Tx = e at r ⊢
    change Fin 1 → ℝ at q e
    change e 0 = _ at r
    ext i (j : Fin 1)
    change _ = twistF f s i * _ * (e j)⁻¹
    fin_cases i <;> fin_cases j <;> simp [r, na]

lemma linDjac_image (hs : IsSigns s) (k : LinKind) (q dq : Fin k.ndof → ℝ) :
    k.djac (linF f s k * q) (linF f s k * dq) = resize (twistF f s) (linF f s k)⁻¹ (k.djac q dq) := by
  have hc := rotF_cases (f := f) hs
  cases k with
  | RzRyRx =>
    have p : (linF f s .RzRyRx * q) (0 : Fin 3) = twistF f s 2 * q (0 : Fin 3) ∧ (linF f s .RzRyRx * q) (1 : Fin 3) = twistF f s 1 * q (1 : Fin 3) ∧ (linF f s .RzRyRx * q) (2 : Fin 3) = twistF f s 0 * q (2 : Fin 3) := ⟨rfl, rfl, rfl⟩
    have p' : (linF f s .RzRyRx * dq) (0 : Fin 3) = twistF f s 2 * dq (0 : Fin 3) ∧ (linF f s .RzRyRx * dq) (1 : Fin 3) = twistF f s 1 * dq (1 : Fin 3) ∧ (linF f s .RzRyRx * dq) (2 : Fin 3) = twistF f s 0 * dq (2 : Fin 3) := ⟨rfl, rfl, rfl⟩
    have r : linF f s .RzRyRx (0 : Fin 3) = twistF f s 2 ∧ linF f s .RzRyRx (1 : Fin 3) = twistF f s 1 ∧ linF f s .RzRyRx (2 : Fin 3) = twistF f s 0 := ⟨rfl, rfl, rfl⟩
    simp only [LinKind.djac, p, p']
    clear p p'
    generalize linF f s .RzRyRx = e at r ⊢
    change Fin 3 → ℝ at q e
    change e 0 = _ ∧ e 1 = _ ∧ e 2 = _ at r
    ext i (j : Fin 3)
    change _ = twistF f s i * _ * (e j)⁻¹
    rcases hc with ⟨h0, h1, h2⟩ | ⟨h0, h1, h2⟩ | ⟨h0, h1, h2⟩ | ⟨h0, h1, h2⟩ <;> 
      fin_cases i <;> fin_cases j <;> simp [r, h0, h1, h2] <;> try ring
  | RzRy =>
    have p : (linF f s .RzRy * q) (0 : Fin 2) = twistF f s 2 * q (0 : Fin 2) ∧ (linF f s .RzRy * q) (1 : Fin 2) = twistF f s 1 * q (1 : Fin 2) := ⟨rfl, rfl⟩
    have p' : (linF f s .RzRy * dq) (0 : Fin 2) = twistF f s 2 * dq (0 : Fin 2) ∧ (linF f s .RzRy * dq) (1 : Fin 2) = twistF f s 1 * dq (1 : Fin 2) := ⟨rfl, rfl⟩
    have r : linF f s .RzRy (0 : Fin 2) = twistF f s 2 ∧ linF f s .RzRy (1 : Fin 2) = twistF f s 1 := ⟨rfl, rfl⟩
    simp only [LinKind.djac, p, p']
    clear p p'
    generalize linF f s .RzRy = e at r ⊢
    change Fin 2 → ℝ at q e
    change e 0 = _ ∧ e 1 = _ at r
    ext i (j : Fin 2)
    change _ = twistF f s i * _ * (e j)⁻¹
    rcases hc with ⟨h0, h1, h2⟩ | ⟨h0, h1, h2⟩ | ⟨h0, h1, h2⟩ | ⟨h0, h1, h2⟩ <;> 
      fin_cases i <;> fin_cases j <;> simp [r, h0, h1, h2] <;> try ring
  | RzRx =>
    have p : (linF f s .RzRx * q) (0 : Fin 2) = twistF f s 2 * q (0 : Fin 2) ∧ (linF f s .RzRx * q) (1 : Fin 2) = twistF f s 0 * q (1 : Fin 2) := ⟨rfl, rfl⟩
    have p' : (linF f s .RzRx * dq) (0 : Fin 2) = twistF f s 2 * dq (0 : Fin 2) ∧ (linF f s .RzRx * dq) (1 : Fin 2) = twistF f s 0 * dq (1 : Fin 2) := ⟨rfl, rfl⟩
    have r : linF f s .RzRx (0 : Fin 2) = twistF f s 2 ∧ linF f s .RzRx (1 : Fin 2) = twistF f s 0 := ⟨rfl, rfl⟩
    simp only [LinKind.djac, p, p']
    clear p p'
    generalize linF f s .RzRx = e at r ⊢
    change Fin 2 → ℝ at q e
    change e 0 = _ ∧ e 1 = _ at r
    ext i (j : Fin 2)
    change _ = twistF f s i * _ * (e j)⁻¹
    rcases hc with ⟨h0, h1, h2⟩ | ⟨h0, h1, h2⟩ | ⟨h0, h1, h2⟩ | ⟨h0, h1, h2⟩ <;> 
      fin_cases i <;> fin_cases j <;> simp [r, h0, h1, h2] <;> try ring
  | RyRx =>
    have p : (linF f s .RyRx * q) (0 : Fin 2) = twistF f s 1 * q (0 : Fin 2) ∧ (linF f s .RyRx * q) (1 : Fin 2) = twistF f s 0 * q (1 : Fin 2) := ⟨rfl, rfl⟩
    have p' : (linF f s .RyRx * dq) (0 : Fin 2) = twistF f s 1 * dq (0 : Fin 2) ∧ (linF f s .RyRx * dq) (1 : Fin 2) = twistF f s 0 * dq (1 : Fin 2) := ⟨rfl, rfl⟩
    have r : linF f s .RyRx (0 : Fin 2) = twistF f s 1 ∧ linF f s .RyRx (1 : Fin 2) = twistF f s 0 := ⟨rfl, rfl⟩
    simp only [LinKind.djac, p, p']
    clear p p'
    generalize linF f s .RyRx = e at r ⊢
    change Fin 2 → ℝ at q e
    change e 0 = _ ∧ e 1 = _ at r
    ext i (j : Fin 2)
    change _ = twistF f s i * _ * (e j)⁻¹
    rcases hc with ⟨h0, h1, h2⟩ | ⟨h0, h1, h2⟩ | ⟨h0, h1, h2⟩ | ⟨h0, h1, h2⟩ <;> 
      fin_cases i <;> fin_cases j <;> simp [r, h0, h1, h2] <;> try ring
  | Rz | Ry | Rx | TxTyTz | Tz | Ty | Tx => simp only [LinKind.djac, resize_zero]

end
end Arboris
