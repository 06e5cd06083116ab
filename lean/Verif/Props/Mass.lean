import Verif.Model.Mass
import Verif.Proofs.Mass
import Mathlib.Analysis.Matrix.PosDef

/-! # Properties C13–C15: mass matrices -/

namespace Arboris
open Matrix Real Spec

/-- A rigid-body mass matrix which is symmetric positive definite is accepted by the library's own check. -/
lemma ismass_of {M : Mat6} {m : ℝ} {c : Vec3} {I : Mat3} (h : IsRigidMass M m c I) (hp : SymPD M) :
    ismassmatrix M := by
  refine ⟨?_, ?_, ?_⟩
  · intro i j; rw [hp.1]; simp; positivity
  · have e : b22 M = M 3 3 • (1 : Mat3) := by
      have : M 3 3 = m := by rw [h.eq]; simp [blk]
      rw [this, h.eq, b22_blk]
    intro i j; rw [e]; simp; positivity
  · rintro l ⟨x, hx, e⟩
    have h1 := hp.2 x hx
    rw [e, dotProduct_smul, smul_eq_mul] at h1
    have h2 : 0 ≤ x ⬝ᵥ x := by
      rw [dotProduct]; exact Finset.sum_nonneg fun i _ => mul_self_nonneg _
    have : 0 < l := by
      by_contra hl
      nlinarith [mul_nonneg (neg_nonneg.mpr (not_lt.mp hl)) h2]
    simpa using this

lemma diag6_rigid (a b c m : ℝ) : IsRigidMass (diag6 a b c m) m 0 (Matrix.diagonal ![a,b,c]) := by
  refine ⟨Matrix.diagonal_transpose _, ?_⟩
  ext i j; fin_cases i <;> fin_cases j <;> simp [diag6, blk, skew, e6, finSumFinEquiv, Fin.addCases, Matrix.diagonal]

lemma diag6_pd {a b c m : ℝ} (ha : 0 < a) (hb : 0 < b) (hc : 0 < c) (hm : 0 < m) : SymPD (diag6 a b c m) := by
  refine ⟨Matrix.diagonal_transpose _, fun x hx => ?_⟩
  have hd : ∀ i, 0 < (![a, b, c, m, m, m] : Fin 6 → ℝ) i := by
    intro i; fin_cases i <;> simp <;> assumption
  simp only [diag6, Matrix.mulVec_diagonal, dotProduct]
  obtain ⟨i, hi⟩ := Function.ne_iff.mp hx
  apply Finset.sum_pos'
  · intro j _
    have := mul_nonneg (hd j).le (mul_self_nonneg (x j))
    nlinarith
  · refine ⟨i, Finset.mem_univ _, ?_⟩
    have h1 : x i ≠ 0 := by simpa using hi
    have := mul_pos (hd i) (mul_self_pos.mpr h1)
    nlinarith

/-- C13: for positive dimensions and mass, every shape constructor returns a symmetric positive definite matrix with
rigid-body structure (its mass argument as mass, centre of mass at the origin), accepted by `ismassmatrix`. -/
theorem C13_shapes {x y z r L m : ℝ} (hx : 0 < x) (hy : 0 < y) (hz : 0 < z) (hr : 0 < r) (hL : 0 < L) (hm : 0 < m) :
    ∀ M ∈ [massBox x y z m, massEllipsoid x y z m, massCylinder L r m, massSphere r m],
      (∃ I, IsRigidMass M m 0 I) ∧ SymPD M ∧ ismassmatrix M := by
  have key : ∀ a b c : ℝ, 0 < a → 0 < b → 0 < c →
      (∃ I, IsRigidMass (diag6 a b c m) m 0 I) ∧ SymPD (diag6 a b c m) ∧ ismassmatrix (diag6 a b c m) :=
    fun a b c ha hb hc => ⟨⟨_, diag6_rigid a b c m⟩, diag6_pd ha hb hc hm,
      ismass_of (diag6_rigid a b c m) (diag6_pd ha hb hc hm)⟩
  intro M hM
  simp only [List.mem_cons, List.not_mem_nil, or_false] at hM
  rcases hM with rfl | rfl | rfl | rfl <;> apply key <;> positivity
/-- C13: the inertias are the textbook ones: for a box of sides `2x,2y,2z`, `m/12·((2y)²+(2z)²)` …; for an ellipsoid
`m/5 (y²+z²)` …; for a cylinder about z `m(3r²+L²)/12` and `m r²/2`; for a sphere `2/5 m r²`. -/
theorem C13_values (x y z r L m : ℝ) :
    massBox x y z m = diag6 (m/12*((2*y)^2+(2*z)^2)) (m/12*((2*x)^2+(2*z)^2)) (m/12*((2*x)^2+(2*y)^2)) m ∧
    massEllipsoid x y z m = diag6 (m/5*(y^2+z^2)) (m/5*(x^2+z^2)) (m/5*(x^2+y^2)) m ∧
    massCylinder L r m = diag6 (m/12*(3*r^2+L^2)) (m/12*(3*r^2+L^2)) (m/2*r^2) m ∧
    massSphere r m = massEllipsoid r r r m ∧ massSphere r m = diag6 (2/5*m*r^2) (2/5*m*r^2) (2/5*m*r^2) m := by
  simp only [massBox, massEllipsoid, massCylinder, massSphere]
  refine ⟨?_, trivial, ?_, ?_, ?_⟩ <;> congr 1 <;> ring
/-- C13: what acceptance means: an exactly symmetric matrix accepted by `ismassmatrix` is positive definite (positive
semi-definite with `semi=True`). -/
theorem C13_accepted {M : Mat6} (hs : Mᵀ = M) :
    (ismassmatrix M → SymPD M) ∧ (ismassmatrix M true → SymPSD M) := by
  have hH : M.IsHermitian := by rw [Matrix.IsHermitian, Matrix.conjTranspose_eq_transpose_of_trivial, hs]
  have hev : ∀ i, IsEigval M (hH.eigenvalues i) := by
    intro i
    refine ⟨hH.eigenvectorBasis i, ?_, ?_⟩
    · intro e
      have h1 := hH.eigenvectorBasis.orthonormal.1 i
      have h2 : hH.eigenvectorBasis i = 0 := by
        ext j; exact congrFun e j
      rw [h2] at h1; simp at h1
    · exact hH.mulVec_eigenvectorBasis i
  constructor
  · intro h
    have hp := hH.posDef_iff_eigenvalues_pos.mpr (fun i => by simpa using h.2.2 _ (hev i))
    refine ⟨hs, fun x hx => ?_⟩
    have := hp.dotProduct_mulVec_pos hx
    simpa using this
  · intro h
    have hp := hH.posSemidef_iff_eigenvalues_nonneg.mpr (fun i => by simpa using h.2.2 _ (hev i))
    refine ⟨hs, fun x => ?_⟩
    have := hp.dotProduct_mulVec_nonneg x
    simpa using this

/-! ### C14 -/

/-- C14: `transport` succeeds on every accepted mass matrix and rigid motion. -/
theorem C14_succeeds {M : Mat6} {H : Mat4} (hM : ismassmatrix M) (hH : IsRigid H) :
    transport M H = .ok (transportBody M H) := by
  rw [transport, if_pos hM, if_pos hH.ishom, adjoint, assertHom_ok hH.ishom]; rfl
/-- C14: a group action, on the right. -/
theorem C14_compose (M : Mat6) {H K : Mat4} (hH : IsRigid H) (hK : IsRigid K) :
    transportBody (transportBody M H) K = transportBody M (H * K) ∧ transportBody M 1 = M := by
  constructor
  · simp only [transportBody, adjointBody_mul hH hK, Matrix.transpose_mul, Matrix.mul_assoc]
  · simp [transportBody, adjointBody_one]
/-- C14: kinetic energy does not depend on the frame: `T'ᵀ M' T' = Tᵀ M T` for `T = adjoint(H) T'`. -/
theorem C14_energy (M : Mat6) (H : Mat4) (T : Vec6) :
    T ⬝ᵥ transportBody M H *ᵥ T = (adjointBody H *ᵥ T) ⬝ᵥ M *ᵥ (adjointBody H *ᵥ T) := by
  simp only [transportBody]
  rw [← Matrix.mulVec_mulVec, ← Matrix.mulVec_mulVec, Matrix.dotProduct_mulVec, Matrix.vecMul_transpose]
/-- C14: symmetry and positive definiteness are preserved. -/
theorem C14_symPD {M : Mat6} {H : Mat4} (hM : SymPD M) (hH : IsRigid H) : SymPD (transportBody M H) := by
  refine ⟨?_, fun x hx => ?_⟩
  · simp only [transportBody, Matrix.transpose_mul, Matrix.transpose_transpose, hM.1, Matrix.mul_assoc]
  · rw [C14_energy]
    apply hM.2
    intro e
    apply hx
    have := congrArg (fun v => adjointBody (invBody H) *ᵥ v) e
    simpa [Matrix.mulVec_mulVec, hH.adjoint_inv_mul] using this
/-- C14: rigid-body structure is preserved: same mass, and the centre of mass is the same point in the new frame. -/
theorem C14_structure {M : Mat6} {m : ℝ} {c : Vec3} {I : Mat3} (h : IsRigidMass M m c I) {H : Mat4}
    (hH : IsRigid H) : ∃ c' I', IsRigidMass (transportBody M H) m c' I' ∧ pdotBody H c' = c := by
  obtain ⟨R, p, hR, rfl⟩ := isRigid_iff.mp hH
  refine ⟨Rᵀ *ᵥ (c - p), Rᵀ * (I + m • (skew c * skew p) + m • (skew p * skew c) - m • (skew p * skew p)) * R,
    ⟨?_, ?_⟩, ?_⟩
  · simp only [Matrix.transpose_mul, Matrix.transpose_transpose, Matrix.transpose_add, Matrix.transpose_sub,
      Matrix.transpose_smul, skew_transpose, h.symm, Matrix.mul_assoc, neg_mul_neg]
    congr 3
    abel
  · have hs : m • skew (Rᵀ *ᵥ (c - p)) = Rᵀ * (m • skew c - m • skew p) * R := by
      rw [hR.transpose.skew_mulVec, sub_eq_add_neg, skew_add, skew_neg, Matrix.transpose_transpose]
      simp [Matrix.mul_add, Matrix.add_mul, sub_eq_add_neg]
    rw [hs, h.eq]
    simp only [transportBody, adjointBody_mkH, blk_transpose, blk_mul, Matrix.transpose_mul, skew_transpose,
      Matrix.transpose_zero]
    rw [blk_inj]
    refine ⟨?_, ?_, ?_, ?_⟩
    · simp only [Matrix.mul_add, Matrix.add_mul, Matrix.mul_sub, Matrix.sub_mul, Matrix.mul_neg, Matrix.neg_mul,
        Matrix.mul_assoc, Matrix.smul_mul, Matrix.mul_smul, smul_neg, neg_neg, smul_zero, Matrix.one_mul]
      abel
    · simp only [Matrix.mul_add, Matrix.add_mul, Matrix.mul_sub, Matrix.sub_mul, Matrix.mul_neg, Matrix.neg_mul,
        Matrix.mul_assoc, Matrix.smul_mul, Matrix.mul_smul, smul_neg, neg_neg, smul_zero, Matrix.one_mul, Matrix.mul_zero, zero_add]
      abel
    · simp only [Matrix.mul_add, Matrix.add_mul, Matrix.mul_sub, Matrix.sub_mul, Matrix.mul_neg, Matrix.neg_mul,
        Matrix.mul_assoc, Matrix.smul_mul, Matrix.mul_smul, smul_neg, neg_neg, smul_zero, Matrix.one_mul, Matrix.zero_mul, zero_add]
      abel
    · simp [hR.2.1]
  · simp [pdotBody, Matrix.mulVec_mulVec, hR.1]
/-- the hypotheses of C14 are met by a box and a rotation–translation -/
example : ismassmatrix (massBox 1 2 3 4) ∧ IsRigid (rotz 1 * transl 1 2 3) :=
  ⟨((C13_shapes (x := 1) (y := 2) (z := 3) (r := 1) (L := 1) (m := 4) (by norm_num) (by norm_num) (by norm_num)
    (by norm_num) (by norm_num) (by norm_num)) _ (by simp)).2.2, (C01_rotz 1).mul (C01_transl 1 2 3)⟩

/-! ### C15 -/

/-- `R` is a valid answer of `eig(S)` with orthonormal eigenvectors (unit columns alone if the eigenvalues differ, see
`C15_distinct`). -/
def IsEig (S R : Mat3) (d : Vec3) : Prop := S * R = R * Matrix.diagonal d

/-- C15: for every rigid-body, positive definite mass matrix and every orthonormal eigen-decomposition,
`principalframe` succeeds with a rigid motion, at the centre of mass, in which the mass matrix is diagonal. -/
theorem C15_principal {M : Mat6} {m : ℝ} {c : Vec3} {I : Mat3} (h : IsRigidMass M m c I) (hp : SymPD M)
    {R : Mat3} {d : Vec3} (ho : Rᵀ * R = 1) (he : IsEig (centralInertia M) R d) :
    ∃ H, principalframe M R = .ok H ∧ IsRigid H ∧ pos H = c ∧
      ∃ d' : Vec3, transportBody M H = diag6 (d' 0) (d' 1) (d' 2) m := by
  have hm : 0 < m := by
    have := hp.2 (Pi.single 5 1) (by intro e; simpa using congrFun e 5)
    simpa [h.m55] using this
  refine ⟨_, by rw [principalframe, if_pos (ismass_of h hp)], ?_⟩
  have hrx : (M 5 5)⁻¹ • b12 M = skew c := by
    rw [h.m55, h.b12, smul_smul, inv_mul_cancel₀ hm.ne', one_smul]
  have hdet2 : R.det * R.det = 1 := by
    have := congrArg Matrix.det ho
    rwa [Matrix.det_mul, Matrix.det_transpose, Matrix.det_one] at this
  let iI : Mat3 := !![0, 0, 1; 0, 1, 0; 1, 0, 0]
  have iI_tr : iIᵀ = iI := by ext i j; fin_cases i <;> fin_cases j <;> simp [iI]
  have iI_sq : iI * iI = 1 := by
    ext i j; fin_cases i <;> fin_cases j <;> simp [iI, Matrix.mul_apply, Fin.sum_univ_three]
  have iI_det : iI.det = -1 := by simp [iI, det_fin_three]
  -- the corrected rotation
  obtain ⟨Q, e, hQ, hS, hHe⟩ : ∃ (Q : Mat3) (e : Vec3), IsRotation Q ∧
      centralInertia M * Q = Q * Matrix.diagonal e ∧ principalframeBody M R = mkH Q c := by
    have hp3 : (![(skew c) 2 1, (skew c) 0 2, (skew c) 1 0] : Vec3) = c := by
      ext i; fin_cases i <;> simp [skew]
    by_cases hneg : R.det < 0
    · refine ⟨R * iI, ![d 2, d 1, d 0], IsRotation.of_orth ?_ ?_, ?_, ?_⟩
      · rw [Matrix.transpose_mul, iI_tr, Matrix.mul_assoc, ← Matrix.mul_assoc Rᵀ, ho, Matrix.one_mul, iI_sq]
      · rw [Matrix.det_mul, iI_det]
        have : R.det = -1 := by nlinarith
        rw [this]; ring
      · have : iI * Matrix.diagonal ![d 2, d 1, d 0] = Matrix.diagonal d * iI := by
          ext i j; fin_cases i <;> fin_cases j <;> simp [iI, Matrix.mul_apply, Fin.sum_univ_three, Matrix.diagonal]
        rw [Matrix.mul_assoc, this, ← Matrix.mul_assoc, ← Matrix.mul_assoc]
        exact congrArg (fun X => X * iI) he
      · simp only [principalframeBody, hrx, if_pos hneg, hp3]; rfl
    · refine ⟨R, d, IsRotation.of_orth ho ?_, he, ?_⟩
      · have : 0 ≤ R.det := not_lt.mp hneg
        nlinarith
      · simp only [principalframeBody, hrx, if_neg hneg, hp3]
  rw [hHe]
  refine ⟨isRigid_mkH hQ, pos_mkH _ _, e, ?_⟩
  have hCI : centralInertia M = I + m • (skew c * skew c) := by
    simp only [centralInertia]
    rw [hrx, h.m55, h.eq, b11_blk]
  have hdiag : (diag6 (e 0) (e 1) (e 2) m) = blk (Matrix.diagonal e) 0 0 (m • 1) := by
    rw [(diag6_rigid (e 0) (e 1) (e 2) m).eq]
    have : (![e 0, e 1, e 2] : Vec3) = e := by ext i; fin_cases i <;> rfl
    simp [skew_zero, this]
  rw [hdiag, h.eq]
  simp only [transportBody, adjointBody_mkH, blk_transpose, blk_mul, Matrix.transpose_mul, skew_transpose,
    Matrix.transpose_zero]
  rw [blk_inj]
  refine ⟨?_, ?_, ?_, ?_⟩
  · have : Qᵀ * (centralInertia M * Q) = Matrix.diagonal e := by
      rw [hS, ← Matrix.mul_assoc, hQ.2.1, Matrix.one_mul]
    rw [← this, hCI]
    simp only [Matrix.mul_add, Matrix.add_mul, Matrix.mul_neg, Matrix.neg_mul,
        Matrix.mul_assoc, Matrix.smul_mul, Matrix.mul_smul, smul_neg, neg_neg, smul_zero, Matrix.one_mul]
    abel
  · simp only [Matrix.mul_add, Matrix.add_mul, Matrix.mul_neg, Matrix.neg_mul,
        Matrix.mul_assoc, Matrix.smul_mul, Matrix.mul_smul, smul_neg, neg_neg, smul_zero, Matrix.one_mul, Matrix.mul_zero, zero_add]
    abel
  · simp only [Matrix.mul_add, Matrix.add_mul, Matrix.mul_neg, Matrix.neg_mul,
        Matrix.mul_assoc, Matrix.smul_mul, Matrix.mul_smul, smul_neg, neg_neg, smul_zero, Matrix.one_mul, Matrix.zero_mul, zero_add]
    abel
  · simp [hQ.2.1]
/-- C15: when the principal inertias are pairwise distinct, unit columns (all that `eig` promises) are orthonormal. -/
theorem C15_distinct {S R : Mat3} {d : Vec3} (hs : Sᵀ = S) (he : IsEig S R d)
    (hunit : ∀ j, (Rᵀ * R) j j = 1) (hd : ∀ i j, i ≠ j → d i ≠ d j) : Rᵀ * R = 1 := by
  have h1 : Rᵀ * S * R = Rᵀ * R * Matrix.diagonal d := by
    rw [Matrix.mul_assoc, show S * R = R * Matrix.diagonal d from he, Matrix.mul_assoc]
  have h2 : Rᵀ * S * R = Matrix.diagonal d * (Rᵀ * R) := by
    have := congrArg Matrix.transpose h1
    simp only [Matrix.transpose_mul, Matrix.transpose_transpose, hs, Matrix.diagonal_transpose] at this
    rw [← this, Matrix.mul_assoc]
  have h3 := h1.symm.trans h2
  ext i j
  by_cases hij : i = j
  · subst hij; rw [hunit]; simp
  · have := congrFun (congrFun h3 i) j
    rw [Matrix.mul_diagonal, Matrix.diagonal_mul] at this
    have h4 : (d j - d i) * (Rᵀ * R) i j = 0 := by linarith
    rcases mul_eq_zero.mp h4 with h | h
    · exact absurd (by linarith) (hd i j hij)
    · rw [h, Matrix.one_apply_ne hij]
/-- the hypotheses of C15 are met, with a left-handed eigenbasis -/
example : ∃ R d, (Rᵀ * R = 1 ∧ R.det < 0) ∧ IsEig (centralInertia (massBox 1 2 3 4)) R d := by
  refine ⟨Matrix.diagonal ![-1, 1, 1], ![4/3*(2^2+3^2), 4/3*(1^2+3^2), 4/3*(1^2+2^2)], ⟨?_, ?_⟩, ?_⟩
  · rw [Matrix.diagonal_transpose, Matrix.diagonal_mul_diagonal, ← Matrix.diagonal_one]
    congr 1; ext i; fin_cases i <;> simp
  · simp [Matrix.det_diagonal, Fin.prod_univ_three]
  · have : centralInertia (massBox 1 2 3 4) = Matrix.diagonal ![4/3*(2^2+3^2), 4/3*(1^2+3^2), 4/3*(1^2+2^2)] := by
      simp only [centralInertia, massBox]
      rw [(diag6_rigid _ _ _ _).eq]
      simp [skew_zero]
    rw [this, IsEig, Matrix.diagonal_mul_diagonal, Matrix.diagonal_mul_diagonal]
    congr 1; ext i; ring

end Arboris
