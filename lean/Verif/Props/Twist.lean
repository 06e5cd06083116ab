import Verif.Proofs.Twist

/-! # Properties C08–C11: angle extraction, aligned frames, exponential map, free-joint integration -/

namespace Arboris
open Matrix Real Spec

/-! ### C08 -/

private lemma cofactor {K : Mat3} (h : IsRotation K) : K = K.adjugateᵀ := by
  have h1 : K.adjugate = Kᵀ := by
    have := Matrix.mul_adjugate K
    rw [h.2.2, one_smul] at this
    calc K.adjugate = Kᵀ * K * K.adjugate := by rw [h.2.1, Matrix.one_mul]
      _ = Kᵀ := by rw [Matrix.mul_assoc, this, Matrix.mul_one]
  rw [h1, Matrix.transpose_transpose]

/-- a rotation whose entry (1,0) vanishes is `Ry(ay) Rx(ax)` with the angles read from column 0 and row 1 -/
private lemma rot_of_angles {K : Mat3} (h : IsRotation K) (h10 : K 1 0 = 0) {ay ax : ℝ}
    (c1 : cos ay = K 0 0) (s1 : sin ay = -K 2 0) (c2 : cos ax = K 1 1) (s2 : sin ax = -K 1 2) :
    K = Ry ay * Rx ax := by
  have hc := cofactor h
  have e : ∀ i j, K i j = K.adjugateᵀ i j := fun i j => congrFun (congrFun hc i) j
  have e01 := e 0 1
  have e02 := e 0 2
  have e21 := e 2 1
  have e22 := e 2 2
  rw [Matrix.adjugate_fin_three] at e01 e02 e21 e22
  simp [h10] at e01 e02 e21 e22
  ext i j
  fin_cases i <;> fin_cases j <;> simp [Ry, Rx, Matrix.mul_apply, Fin.sum_univ_three, c1, s1, c2, s2, h10]
  · linarith
  · linarith
  · linarith
  · linarith

private lemma col_row {K : Mat3} (h : IsRotation K) (h10 : K 1 0 = 0) :
    K 0 0 ^ 2 + (-K 2 0) ^ 2 = 1 ∧ K 1 1 ^ 2 + (-K 1 2) ^ 2 = 1 := by
  have h0 := congrFun (congrFun h.2.1 0) 0
  have h1 := congrFun (congrFun h.1 1) 1
  simp [Matrix.mul_apply, Fin.sum_univ_three, h10] at h0 h1
  constructor <;> nlinarith

lemma rot_rotzyx (z y x : ℝ) : rot (rotzyx z y x) = Rz z * (Ry y * Rx x) := by
  rw [C02_rotzyx, rotz_eq, roty_eq, rotx_eq, mkH_mul, mkH_mul, rot_mkH, Matrix.mul_assoc]

/-- C08: away from the tolerance band of the gimbal singularity, and exactly at the singularity, the angles returned
by `rotzyx_angles` rebuild the rotation. -/
theorem C08_roundtrip {H : Mat4} (h : IsRigid H)
    (hs : (tol ≤ |H 0 0| ∨ tol ≤ |H 1 0|) ∨ (H 0 0 = 0 ∧ H 1 0 = 0)) :
    ∃ az ay ax, rotzyx_angles H = .ok (az, ay, ax) ∧ rot (rotzyx az ay ax) = rot H := by
  have hR := h.rotation
  set R := rot H with hRdef
  have r00 : R 0 0 = H 0 0 := rfl
  have r10 : R 1 0 = H 1 0 := rfl
  have r20 : R 2 0 = H 2 0 := rfl
  have r01 : R 0 1 = H 0 1 := rfl
  have r11 : R 1 1 = H 1 1 := rfl
  have r02 : R 0 2 = H 0 2 := rfl
  have r12 : R 1 2 = H 1 2 := rfl
  rw [rotzyx_angles, assertHom_ok h.ishom]
  by_cases hb : |H 0 0| < tol ∧ |H 1 0| < tol
  · have h0 : H 0 0 = 0 ∧ H 1 0 = 0 := by
      rcases hs with (h1 | h1) | h1
      · exact absurd hb.1 (not_lt.mpr h1)
      · exact absurd hb.2 (not_lt.mpr h1)
      · exact h1
    refine ⟨0, arctan2 (-H 2 0) (H 0 0), arctan2 (-H 1 2) (H 1 1), by rw [rotzyx_anglesBody, if_pos hb], ?_⟩
    have hcr := col_row hR (by rw [r10, h0.2])
    rw [r00, r20, r11, r12] at hcr
    have a1 := arctan2_cos_sin hcr.1
    have a2 := arctan2_cos_sin hcr.2
    rw [rot_rotzyx]
    have hz : Rz 0 = 1 := by
      ext i j; fin_cases i <;> fin_cases j <;> simp [Rz]
    rw [hz, Matrix.one_mul]
    exact (rot_of_angles hR (by rw [r10, h0.2]) a1.1 a1.2 a2.1 a2.2).symm
  · have hne : ¬(H 0 0 = 0 ∧ H 1 0 = 0) := by
      rintro ⟨a, b⟩
      exact hb ⟨by rw [a, abs_zero]; exact tol_pos, by rw [b, abs_zero]; exact tol_pos⟩
    set az := arctan2 (H 1 0) (H 0 0) with haz
    refine ⟨az, _, _, by rw [rotzyx_anglesBody, if_neg hb], ?_⟩
    -- polar coordinates of the first column
    have hz : (⟨H 0 0, H 1 0⟩ : ℂ) ≠ 0 := by
      intro e; apply hne; exact ⟨congrArg Complex.re e, congrArg Complex.im e⟩
    set ρ := ‖(⟨H 0 0, H 1 0⟩ : ℂ)‖ with hρ
    have hρp : 0 < ρ := norm_pos_iff.mpr hz
    have hρ2 : ρ ^ 2 = H 0 0 ^ 2 + H 1 0 ^ 2 := by
      rw [hρ, Complex.sq_norm, Complex.normSq_mk]; ring
    have cz : cos az = H 0 0 / ρ := by rw [haz, arctan2, Complex.cos_arg hz]
    have sz : sin az = H 1 0 / ρ := by rw [haz, arctan2, Complex.sin_arg]
    -- the rotation with the yaw removed
    have hK : IsRotation ((Rz az)ᵀ * R) := (isRotation_Rz az).transpose.mul hR
    set K := (Rz az)ᵀ * R with hKdef
    have k00 : K 0 0 = cos az * H 0 0 + sin az * H 1 0 := by
      simp [hKdef, Rz, Matrix.mul_apply, Fin.sum_univ_three, r00, r10]
    have k10 : K 1 0 = 0 := by
      simp [hKdef, Rz, Matrix.mul_apply, Fin.sum_univ_three, r00, r10]; rw [cz, sz]; ring
    have k20 : K 2 0 = H 2 0 := by simp [hKdef, Rz, Matrix.mul_apply, Fin.sum_univ_three, r20]
    have k11 : K 1 1 = cos az * H 1 1 - sin az * H 0 1 := by
      simp [hKdef, Rz, Matrix.mul_apply, Fin.sum_univ_three, r01, r11]; ring
    have k12 : -K 1 2 = sin az * H 0 2 - cos az * H 1 2 := by
      simp [hKdef, Rz, Matrix.mul_apply, Fin.sum_univ_three, r02, r12]
      try ring
    have hcr := col_row hK k10
    rw [k00, k20, k11, k12] at hcr
    have a1 := arctan2_cos_sin hcr.1
    have a2 := arctan2_cos_sin hcr.2
    rw [rot_rotzyx]
    rw [← rot_of_angles hK k10 (a1.1.trans k00.symm) (by rw [a1.2, k20]) (a2.1.trans k11.symm) (a2.2.trans k12.symm)]
    rw [hKdef, ← Matrix.mul_assoc, (isRotation_Rz az).1, Matrix.one_mul]

/-- C08: in the chart, outside the band, `rotzyx_angles` gives back the very angles. -/
theorem C08_angles {z y x : ℝ} (hz : z ∈ Set.Ioc (-π) π) (hx : x ∈ Set.Ioc (-π) π) (hy : |y| < π / 2)
    (hb : tol ≤ |cos z * cos y| ∨ tol ≤ |sin z * cos y|) :
    rotzyx_angles (rotzyx z y x) = .ok (z, y, x) := by
  rw [rotzyx_angles, assertHom_ok (C01_rotzyx z y x).ishom]
  have hcy : 0 < cos y := cos_pos_of_mem_Ioo (abs_lt.mp hy)
  have e00 : rotzyx z y x 0 0 = cos z * cos y := by simp [rotzyx]
  have e10 : rotzyx z y x 1 0 = sin z * cos y := by simp [rotzyx]
  have e20 : rotzyx z y x 2 0 = -sin y := by simp [rotzyx]
  have e01 : rotzyx z y x 0 1 = cos z * sin y * sin x - sin z * cos x := by simp [rotzyx]
  have e11 : rotzyx z y x 1 1 = sin z * sin y * sin x + cos z * cos x := by simp [rotzyx]
  have e02 : rotzyx z y x 0 2 = cos z * sin y * cos x + sin z * sin x := by simp [rotzyx]
  have e12 : rotzyx z y x 1 2 = sin z * sin y * cos x - cos z * sin x := by simp [rotzyx]
  have hnb : ¬(|rotzyx z y x 0 0| < tol ∧ |rotzyx z y x 1 0| < tol) := by
    rw [e00, e10]; rintro ⟨a, b⟩
    rcases hb with h | h
    · exact absurd a (not_lt.mpr h)
    · exact absurd b (not_lt.mpr h)
  rw [rotzyx_anglesBody, if_neg hnb, e00, e10, e20, e01, e11, e02, e12]
  have haz : arctan2 (sin z * cos y) (cos z * cos y) = z := by
    rw [mul_comm (sin z), mul_comm (cos z)]; exact arctan2_polar hcy hz
  have hsc := sin_sq_add_cos_sq z
  simp only [haz]
  have h1 : cos z * (cos z * cos y) + sin z * (sin z * cos y) = cos y := by
    have : cos z * (cos z * cos y) + sin z * (sin z * cos y) = (sin z ^ 2 + cos z ^ 2) * cos y := by ring
    rw [this, hsc, one_mul]
  have h2 : sin z * (cos z * sin y * cos x + sin z * sin x) - cos z * (sin z * sin y * cos x - cos z * sin x) =
      sin x := by
    have : sin z * (cos z * sin y * cos x + sin z * sin x) - cos z * (sin z * sin y * cos x - cos z * sin x) =
      (sin z ^ 2 + cos z ^ 2) * sin x := by ring
    rw [this, hsc, one_mul]
  have h3 : cos z * (sin z * sin y * sin x + cos z * cos x) - sin z * (cos z * sin y * sin x - sin z * cos x) =
      cos x := by
    have : cos z * (sin z * sin y * sin x + cos z * cos x) - sin z * (cos z * sin y * sin x - sin z * cos x) =
      (sin z ^ 2 + cos z ^ 2) * cos x := by ring
    rw [this, hsc, one_mul]
  rw [h1, h2, h3, neg_neg]
  have hy' : y ∈ Set.Ioc (-π) π := by
    have := abs_lt.mp hy; have := pi_pos; constructor <;> linarith
  have a1 := arctan2_polar one_pos hy'
  have a2 := arctan2_polar one_pos hx
  simp only [one_mul] at a1 a2
  rw [a1, a2]
/-- the hypotheses of C08_angles are met -/
example : tol ≤ |cos 0 * cos 0| ∨ tol ≤ |sin 0 * cos (0:ℝ)| := Or.inl (by simp [tol]; norm_num)

/-! ### C09 -/

/-- C09: for every unit vector and every way of breaking the ties of `argsort`, `zaligned` succeeds, the z axis of the
result is the vector, and it is a rigid motion without translation. -/
theorem C09_zaligned {v : Vec3} (hv : norm3 v = 1) {idx : Equiv.Perm (Fin 3)} (hi : IsArgsortAbs v idx) :
    ∃ H, zaligned v idx = .ok H ∧ IsRigid H ∧ (∀ i : Fin 3, H i.castSucc 2 = v i) ∧
      (∀ i : Fin 3, H i.castSucc 3 = 0) := by
  refine ⟨zalignedBody v idx, by rw [zaligned, if_pos]; rw [hv]; norm_num, ?_, ?_, ?_⟩
  · have hn : v 0 ^ 2 + v 1 ^ 2 + v 2 ^ 2 = 1 := by
      have := norm3_sq v
      rw [hv] at this
      simp [dotProduct, Fin.sum_univ_three] at this
      nlinarith
    set x0 : Vec3 := Function.update (Function.update (Function.update (fun i => if i = 0 then 1 else 0)
      (idx 0) 0) (idx 1) (v (idx 2))) (idx 2) (-v (idx 1)) with hx0
    have i01 : idx 0 ≠ idx 1 := fun e => by simpa using idx.injective e
    have i02 : idx 0 ≠ idx 2 := fun e => by simpa using idx.injective e
    have i12 : idx 1 ≠ idx 2 := fun e => by simpa using idx.injective e
    have x_0 : x0 (idx 0) = 0 := by simp [hx0, i01, i02]
    have x_1 : x0 (idx 1) = v (idx 2) := by simp [hx0, i12]
    have x_2 : x0 (idx 2) = -v (idx 1) := by simp [hx0]
    have perm : ∀ f : Fin 3 → ℝ, f 0 + f 1 + f 2 = f (idx 0) + f (idx 1) + f (idx 2) := by
      intro f
      have := Equiv.sum_comp idx f
      simp only [Fin.sum_univ_three] at this
      linarith
    have horth : x0 0 * v 0 + x0 1 * v 1 + x0 2 * v 2 = 0 := by
      rw [perm (fun i => x0 i * v i), x_0, x_1, x_2]; ring
    have hv2 : v (idx 0) ^ 2 + v (idx 1) ^ 2 + v (idx 2) ^ 2 = 1 := by
      rw [← perm (fun i => v i ^ 2), hn]
    have hpos : 0 < x0 0 ^ 2 + x0 1 ^ 2 + x0 2 ^ 2 := by
      rw [perm (fun i => x0 i ^ 2), x_0, x_1, x_2]
      have h1 : v (idx 0) ^ 2 ≤ v (idx 1) ^ 2 := sq_le_sq.mpr hi.1
      have h2 : v (idx 1) ^ 2 ≤ v (idx 2) ^ 2 := sq_le_sq.mpr hi.2
      nlinarith
    have hN : 0 < norm3 x0 := Real.sqrt_pos.mpr hpos
    have hN2 : norm3 x0 ^ 2 = x0 0 ^ 2 + x0 1 ^ 2 + x0 2 ^ 2 := Real.sq_sqrt hpos.le
    set x : Vec3 := (norm3 x0)⁻¹ • x0 with hx
    have hxx : x 0 ^ 2 + x 1 ^ 2 + x 2 ^ 2 = 1 := by
      simp only [hx, Pi.smul_apply, smul_eq_mul]
      have : ((norm3 x0)⁻¹ * x0 0) ^ 2 + ((norm3 x0)⁻¹ * x0 1) ^ 2 + ((norm3 x0)⁻¹ * x0 2) ^ 2 =
        (norm3 x0)⁻¹ ^ 2 * (x0 0 ^ 2 + x0 1 ^ 2 + x0 2 ^ 2) := by ring
      rw [this, ← hN2]; field_simp
    have hxv : x 0 * v 0 + x 1 * v 1 + x 2 * v 2 = 0 := by
      simp only [hx, Pi.smul_apply, smul_eq_mul]
      have : (norm3 x0)⁻¹ * x0 0 * v 0 + (norm3 x0)⁻¹ * x0 1 * v 1 + (norm3 x0)⁻¹ * x0 2 * v 2 =
        (norm3 x0)⁻¹ * (x0 0 * v 0 + x0 1 * v 1 + x0 2 * v 2) := by ring
      rw [this, horth, mul_zero]
    have hH : zalignedBody v idx = mkH (!![x 0, (v ⨯₃ x) 0, v 0; x 1, (v ⨯₃ x) 1, v 1; x 2, (v ⨯₃ x) 2, v 2]) 0 := by
      ext i j; fin_cases i <;> fin_cases j <;> simp [zalignedBody, mkH, hx, hx0]
    rw [hH]
    generalize x = a at *
    apply isRigid_mkH
    apply IsRotation.of_orth
    · ext i j
      fin_cases i <;> fin_cases j <;>
        simp [Matrix.mul_apply, Fin.sum_univ_three, cross_apply]
      · linarith
      · ring
      · linarith
      · ring
      · have : (v 1 * a 2 - v 2 * a 1) * (v 1 * a 2 - v 2 * a 1) + (v 2 * a 0 - v 0 * a 2) * (v 2 * a 0 - v 0 * a 2) +
          (v 0 * a 1 - v 1 * a 0) * (v 0 * a 1 - v 1 * a 0) = (v 0 ^ 2 + v 1 ^ 2 + v 2 ^ 2) * (a 0 ^ 2 + a 1 ^ 2 + a 2 ^ 2)
            - (a 0 * v 0 + a 1 * v 1 + a 2 * v 2) ^ 2 := by ring
        rw [this, hn, hxx, hxv]; ring
      · ring
      · linarith
      · ring
      · linarith
    · rw [det_fin_three]
      simp [cross_apply]
      have : (v 0 ^ 2 + v 1 ^ 2 + v 2 ^ 2) * (a 0 ^ 2 + a 1 ^ 2 + a 2 ^ 2)
            - (a 0 * v 0 + a 1 * v 1 + a 2 * v 2) ^ 2 = 1 := by rw [hn, hxx, hxv]; ring
      rw [← this]; ring
  · intro i; fin_cases i <;> simp [zalignedBody]
  · intro i; fin_cases i <;> simp [zalignedBody]
/-- the hypotheses of C09 are met, with a tie -/
example : norm3 ![0, 0, 1] = 1 ∧ IsArgsortAbs ![0, 0, 1] 1 ∧ IsArgsortAbs ![0, 0, 1] (Equiv.swap 0 1) := by
  refine ⟨by simp [norm3], by simp [IsArgsortAbs], ?_, ?_⟩ <;> simp [Equiv.swap_apply_def]

/-! ### C10 -/

/-- C10: outside the small-angle branch, `exp(tw)` is the matrix exponential of the twist matrix, and rigid. -/
theorem C10_exp {T : Vec6} (h : 0.001 ≤ norm3 (ang T)) :
    twistExp T = NormedSpace.exp (hat T) ∧ IsRigid (twistExp T) := by
  refine ⟨?_, twistExp_rigid h⟩
  rw [twistExp_large h]
  exact eq_exp_of_hasTwist (rodH_zero _ _) (rodH_hasTwist (lt_of_lt_of_le (by norm_num) h) T rfl)
/-- C10: for a twist without rotation `exp` is exact too: the translation by the linear part. -/
theorem C10_translation {T : Vec6} (h : ang T = 0) : twistExp T = mkH 1 (lin T) ∧ IsRigid (twistExp T) ∧
    twistExp T = NormedSpace.exp (hat T) := by
  have hn : norm3 (ang T) = 0 := by rw [h]; simp [norm3]
  have e : twistExp T = mkH 1 (lin T) := by
    rw [twistExp_small (by rw [hn]; norm_num), hn]
    have : outer3 0 0 = 0 := by ext i j; simp [outer3]
    simp [expCoeffs, h, skew_zero, this]
  refine ⟨e, by rw [e]; exact isRigid_mkH IsRotation.one, ?_⟩
  rw [e]
  have hT : ∀ s, HasTwist (fun u : ℝ => mkH 1 (u • lin T)) T s := by
    intro s
    have hl : HasDerivV (fun u : ℝ => u • lin T) (lin T) s := by
      intro i; simpa using (hasDerivAt_id s).mul_const (lin T i)
    have := (HasDeriv.const (1 : Mat3) s).mkH hl
    refine HasDeriv.congr this ?_
    rw [hat_eq, mkH_mul_mkh, h, skew_zero]; simp
  have := eq_exp_of_hasTwist (by simp [mkH_one]) hT
  simpa using this
/-- C10: in the small-angle branch the result is not a rotation, but its determinant is `1 - t⁴/12 + t⁶/36`, within
`1e-13` of 1, so that it is accepted by `ishomogeneousmatrix`. -/
theorem C10_small {T : Vec6} (h : norm3 (ang T) < 0.001) :
    (rot (twistExp T)).det = 1 - norm3 (ang T) ^ 4 / 12 + norm3 (ang T) ^ 6 / 36 ∧
    ishomogeneousmatrix (twistExp T) := by
  have hd : (rot (twistExp T)).det = 1 - norm3 (ang T) ^ 4 / 12 + norm3 (ang T) ^ 6 / 36 := by
    rw [twistExp_small h, expCoeffs, rot_mkH, rodrigues_det]; ring
  refine ⟨hd, ?_, ?_⟩
  · rw [hd]
    have h0 := norm3_nonneg (ang T)
    generalize norm3 (ang T) = t at *
    have h4 : t ^ 4 ≤ 0.001 ^ 4 := by gcongr
    have h6 : t ^ 6 ≤ 0.001 ^ 6 := by gcongr
    have h4' : 0 ≤ t ^ 4 := by positivity
    have h6' : 0 ≤ t ^ 6 := by positivity
    rw [abs_le, tol]
    constructor <;> norm_num at h4 h6 ⊢ <;> linarith
  · rw [twistExp_small h, expCoeffs]; simp [mkH]

/-! ### C11 -/

/-- C11, proved part: after any number of `FreeJoint.integrate` steps each of which either does not rotate or rotates
by at least 0.001 rad, the joint position is a rigid motion and passes `ishomogeneousmatrix`.  Missing: the small-angle
branch, for which the claim is false. -/
theorem C11_partial {gpos : Mat4} (h : IsRigid gpos) (steps : List (Vec6 × ℝ))
    (hs : ∀ x ∈ steps, ang (x.2 • x.1) = 0 ∨ 0.001 ≤ norm3 (ang (x.2 • x.1))) :
    IsRigid (freeRun gpos steps) ∧ ishomogeneousmatrix (freeRun gpos steps) := by
  have : IsRigid (freeRun gpos steps) := by
    induction steps generalizing gpos with
    | nil => exact h
    | cons x xs ih =>
      have hx : IsRigid (freeIntegrate gpos x.1 x.2) := by
        rcases hs x (by simp) with h0 | h1
        · exact h.mul (C10_translation h0).2.1
        · exact h.mul (C10_exp h1).2
      exact ih hx (fun y hy => hs y (by simp [hy]))
  exact ⟨this, this.ishom⟩

lemma freeRun_replicate (gpos : Mat4) (T : Vec6) (dt : ℝ) (n : ℕ) :
    freeRun gpos (List.replicate n (T, dt)) = gpos * twistExp (dt • T) ^ n := by
  induction n generalizing gpos with
  | zero => simp [freeRun]
  | succ n ih =>
    have : freeRun gpos (List.replicate (n + 1) (T, dt)) =
        freeRun (freeIntegrate gpos T dt) (List.replicate n (T, dt)) := rfl
    rw [this, ih, freeIntegrate, Matrix.mul_assoc, ← pow_succ']

lemma pow_row {K : Mat4} (hK : K 3 0 = 0 ∧ K 3 1 = 0 ∧ K 3 2 = 0 ∧ K 3 3 = 1) (n : ℕ) :
    ((K ^ n) 3 0 = 0 ∧ (K ^ n) 3 1 = 0 ∧ (K ^ n) 3 2 = 0 ∧ (K ^ n) 3 3 = 1) ∧ rot (K ^ n) = rot K ^ n := by
  induction n with
  | zero =>
    refine ⟨by simp, ?_⟩
    have := rot_mkH 1 0
    rw [mkH_one] at this
    simpa using this
  | succ n ih =>
    constructor
    · rw [pow_succ]
      simp [Matrix.mul_apply, Fin.sum_univ_four, ih.1, hK]
    · rw [pow_succ, pow_succ, rot_mul_row ih.1 hK, ih.2]

/-- C11 is false of the code: for every constant rotation rate with `0 < ‖w dt‖ < 0.001`, from any rigid start, after
finitely many steps `FreeJoint.integrate` has produced a position which `ishomogeneousmatrix` rejects for ever after,
so that `inv`, `adjoint` and every update raise AssertionError. -/
theorem C11_false {gpos : Mat4} (h : IsRigid gpos) {T : Vec6} {dt : ℝ}
    (h0 : 0 < norm3 (ang (dt • T))) (h1 : norm3 (ang (dt • T)) < 0.001) :
    ∃ N, ∀ n, N ≤ n → ¬ ishomogeneousmatrix (freeRun gpos (List.replicate n (T, dt))) ∧
      inv (freeRun gpos (List.replicate n (T, dt))) = .error .assertion := by
  set t := norm3 (ang (dt • T)) with ht
  obtain ⟨hdet, hhom⟩ := C10_small h1
  rw [← ht] at hdet
  set D := (rot (twistExp (dt • T))).det with hD
  have hD1 : D < 1 := by
    rw [hdet]
    have : t ^ 6 / 36 < t ^ 4 / 12 := by
      have : t ^ 6 = t ^ 4 * t ^ 2 := by ring
      have h4 : 0 < t ^ 4 := by positivity
      have : t ^ 2 < 1 := by nlinarith
      nlinarith
    linarith
  have hD0 : 0 ≤ D := by
    rw [hdet]
    have : t ^ 4 ≤ 1 := pow_le_one₀ h0.le (by linarith)
    have : 0 < t ^ 6 := by positivity
    linarith
  have htend := tendsto_pow_atTop_nhds_zero_of_lt_one hD0 hD1
  have hev : ∀ᶠ n in Filter.atTop, D ^ n < 1 / 2 := htend.eventually (gt_mem_nhds (by norm_num))
  obtain ⟨N, hN⟩ := Filter.eventually_atTop.mp hev
  refine ⟨N, fun n hn => ?_⟩
  have hrej : ¬ ishomogeneousmatrix (freeRun gpos (List.replicate n (T, dt))) := by
    rw [freeRun_replicate]
    intro hh
    have hk := pow_row hhom.2 n
    have hr : rot (gpos * twistExp (dt • T) ^ n) = rot gpos * rot (twistExp (dt • T)) ^ n := by
      rw [rot_mul_row h.ishom.2 hk.1, hk.2]
    have := hh.1
    rw [hr, Matrix.det_mul, Matrix.det_pow, h.rotation.2.2, one_mul, ← hD, abs_le] at this
    have h2 := hN n hn
    have h3 : tol < 1 / 2 := by norm_num [tol]
    linarith [this.1]
  exact ⟨hrej, assertHom_error hrej _⟩
/-- C11: the number of steps that can be relied on: at least 12000 steps of any kind are accepted from a rigid start. -/
theorem C11_budget_partial {gpos : Mat4} (h : IsRigid gpos) (steps : List (Vec6 × ℝ))
    (hlen : steps.length ≤ 12000) : ishomogeneousmatrix (freeRun gpos steps) := by
  have key : ∀ (xs : List (Vec6 × ℝ)) (G : Mat4), (G 3 0 = 0 ∧ G 3 1 = 0 ∧ G 3 2 = 0 ∧ G 3 3 = 1) →
      0 < (rot G).det → (rot G).det ≤ 1 →
      (let F := freeRun G xs; (F 3 0 = 0 ∧ F 3 1 = 0 ∧ F 3 2 = 0 ∧ F 3 3 = 1) ∧ (rot F).det ≤ 1 ∧
        (rot G).det - xs.length * (1 / 12 * 0.001 ^ 4) ≤ (rot F).det) := by
    intro xs
    induction xs with
    | nil => intro G hG _ h1; exact ⟨hG, h1, by simp [freeRun]⟩
    | cons x xs ih =>
      intro G hG hp h1
      have hrowE : (twistExp (x.2 • x.1)) 3 0 = 0 ∧ (twistExp (x.2 • x.1)) 3 1 = 0 ∧
          (twistExp (x.2 • x.1)) 3 2 = 0 ∧ (twistExp (x.2 • x.1)) 3 3 = 1 := by
        rcases le_or_gt 0.001 (norm3 (ang (x.2 • x.1))) with hl | hl
        · exact (C10_exp hl).2.ishom.2
        · exact (C10_small hl).2.2
      have hdetE : 0 < (rot (twistExp (x.2 • x.1))).det ∧ (rot (twistExp (x.2 • x.1))).det ≤ 1 ∧
          1 - 1 / 12 * 0.001 ^ 4 ≤ (rot (twistExp (x.2 • x.1))).det := by
        rcases le_or_gt 0.001 (norm3 (ang (x.2 • x.1))) with hl | hl
        · have := (C10_exp hl).2.rotation.2.2
          rw [this]; norm_num
        · rw [(C10_small hl).1]
          have h0 := norm3_nonneg (ang (x.2 • x.1))
          generalize norm3 (ang (x.2 • x.1)) = t at *
          have h4 : t ^ 4 ≤ 0.001 ^ 4 := by gcongr
          have h6 : t ^ 6 ≤ t ^ 4 := pow_le_pow_of_le_one h0 (by norm_num at hl; linarith) (by norm_num)
          have h6' : 0 ≤ t ^ 6 := by positivity
          have h4' : 0 ≤ t ^ 4 := by positivity
          norm_num at h4 ⊢
          refine ⟨?_, ?_, ?_⟩ <;> linarith
      have hrot : rot (freeIntegrate G x.1 x.2) = rot G * rot (twistExp (x.2 • x.1)) := rot_mul_row hG hrowE
      have hrow : (freeIntegrate G x.1 x.2) 3 0 = 0 ∧ (freeIntegrate G x.1 x.2) 3 1 = 0 ∧
          (freeIntegrate G x.1 x.2) 3 2 = 0 ∧ (freeIntegrate G x.1 x.2) 3 3 = 1 := by
        simp [freeIntegrate, Matrix.mul_apply, Fin.sum_univ_four, hG, hrowE]
      obtain ⟨r1, r2, r3⟩ := ih (freeIntegrate G x.1 x.2) hrow
        (by rw [hrot, Matrix.det_mul]; exact mul_pos hp hdetE.1)
        (by rw [hrot, Matrix.det_mul]; exact mul_le_one₀ h1 hdetE.1.le hdetE.2.1)
      refine ⟨r1, r2, ?_⟩
      refine le_trans ?_ r3
      rw [hrot, Matrix.det_mul]
      have : (rot G).det * (1 - 1 / 12 * 0.001 ^ 4) ≤ (rot G).det * (rot (twistExp (x.2 • x.1))).det :=
        mul_le_mul_of_nonneg_left hdetE.2.2 hp.le
      simp only [List.length_cons, Nat.cast_add, Nat.cast_one]
      nlinarith
  obtain ⟨h1, h2, h3⟩ := key steps gpos h.ishom.2 (by rw [h.rotation.2.2]; norm_num) (by rw [h.rotation.2.2])
  refine ⟨?_, h1⟩
  rw [h.rotation.2.2] at h3
  have hl : (steps.length : ℝ) ≤ 12000 := by exact_mod_cast hlen
  rw [abs_le, tol]
  constructor
  · norm_num at h3 ⊢; linarith
  · norm_num; linarith

end Arboris
