import Verif.Props.Collisions
import Mathlib.Analysis.SpecialFunctions.Sqrt

/-!
# C75: `PointContact.update`
-/

namespace Arboris
open Matrix Spec

lemma adjoint_ok {H : Mat4} (h : IsRigid H) : adjoint H = .ok (adjointBody H) := assertHom_ok h.ishom _

lemma contactUpdate_ok {c : Collision} {B0 B1 : Mat4} (hB0 : IsRigid B0) (hB1 : IsRigid B1) (h0 : IsRigid c.H0)
    (h1 : IsRigid c.H1) (T0 T1 : Vec6) (proximity dt : ℝ) : ∃ u, contactUpdate c B0 B1 T0 T1 proximity dt = .ok u ∧
    u.bpose0 = invBody B0 * c.H0 ∧ u.bpose1 = invBody B1 * c.H1 ∧ u.sdist = c.sdist ∧
    u.dsdist = (adjointBody (invBody c.H0 * c.H1) *ᵥ (iadjointBody (invBody B1 * c.H1) *ᵥ T1)) 5 -
      (iadjointBody (invBody B0 * c.H0) *ᵥ T0) 5 ∧
    (u.active = true ↔ c.sdist + u.dsdist * dt < proximity) := by
  classical
  refine ⟨⟨invBody B0 * c.H0, invBody B1 * c.H1, c.sdist,
    (adjointBody (invBody c.H0 * c.H1) *ᵥ (iadjointBody (invBody B1 * c.H1) *ᵥ T1)) 5 -
      (iadjointBody (invBody B0 * c.H0) *ᵥ T0) 5,
    decide (c.sdist + ((adjointBody (invBody c.H0 * c.H1) *ᵥ (iadjointBody (invBody B1 * c.H1) *ᵥ T1)) 5 -
      (iadjointBody (invBody B0 * c.H0) *ᵥ T0) 5) * dt < proximity)⟩, ?_, rfl, rfl, rfl, rfl, ?_⟩
  · simp only [contactUpdate, inv_ok hB0, inv_ok hB1, inv_ok h0, (hB0.invBody.mul h0).ishom, (hB1.invBody.mul h1).ishom,
      not_true_eq_false, if_false, adjoint_ok (h0.invBody.mul h1), iadjoint_ok (hB0.invBody.mul h0),
      iadjoint_ok (hB1.invBody.mul h1), bind, Except.bind]
    rfl
  · simp only [decide_eq_true_eq]

/-- C75: `update` succeeds on rigid poses; the contact frames then have the ground poses (body pose times `bpose`) computed
by the collision solver; the contact is active iff the gap predicted at the end of the step is below the proximity. -/
theorem C75_frames {c : Collision} {B0 B1 : Mat4} (hB0 : IsRigid B0) (hB1 : IsRigid B1) (h0 : IsRigid c.H0)
    (h1 : IsRigid c.H1) (T0 T1 : Vec6) (proximity dt : ℝ) : ∃ u, contactUpdate c B0 B1 T0 T1 proximity dt = .ok u ∧
    B0 * u.bpose0 = c.H0 ∧ B1 * u.bpose1 = c.H1 ∧ u.sdist = c.sdist ∧
    (u.active = true ↔ c.sdist + u.dsdist * dt < proximity) := by
  obtain ⟨u, e, e0, e1, es, -, ea⟩ := contactUpdate_ok hB0 hB1 h0 h1 T0 T1 proximity dt
  refine ⟨u, e, ?_, ?_, es, ea⟩
  · rw [e0, ← Matrix.mul_assoc, hB0.mul_invBody, Matrix.one_mul]
  · rw [e1, ← Matrix.mul_assoc, hB1.mul_invBody, Matrix.one_mul]

/-- velocity, along the z axis of `C`, of the point of a body that is at the origin of `C` -/
lemma frame_twist_5 {B C : Mat4} (hB : IsRigid B) (hC : IsRigid C) (T : Vec6) :
    (adjointBody (invBody C) *ᵥ (adjointBody B *ᵥ T)) 5 =
      zAxis C ⬝ᵥ (rot B *ᵥ lin T + (rot B *ᵥ ang T) ⨯₃ (pos C - pos B)) := by
  obtain ⟨R, p, hR, rfl⟩ := isRigid_iff.mp hB
  obtain ⟨S, q, hS, rfl⟩ := isRigid_iff.mp hC
  simp only [rot_mkH, pos_mkH, zAxis_mkH]
  conv_lhs => rw [← tw_ang_lin T]
  rw [adjointBody_mkH, blk_mulVec]
  unfold invBody
  simp only [rot_mkH, pos_mkH]
  rw [adjointBody_mkH, blk_mulVec, ← Matrix.mulVec_mulVec, ← Matrix.mulVec_mulVec]
  generalize R *ᵥ ang T = W
  generalize R *ᵥ lin T = V
  have e1 : skew (-(Sᵀ *ᵥ q)) *ᵥ (Sᵀ *ᵥ W) = Sᵀ *ᵥ (W ⨯₃ q) := by
    rw [Arboris.skew_mulVec, map_neg, LinearMap.neg_apply, cross_anticomm, hS.transpose.cross]
  have e2 : skew p *ᵥ W = -(W ⨯₃ p) := by rw [Arboris.skew_mulVec, ← cross_anticomm]
  simp only [Matrix.zero_mulVec, add_zero]
  rw [e1, e2, ← Matrix.mulVec_add]
  have : ∀ u : Vec3, tw (Sᵀ *ᵥ W) (Sᵀ *ᵥ u) 5 = (fun i => S i 2) ⬝ᵥ u := by
    intro u
    simp [tw, Matrix.mulVec, dotProduct, Fin.sum_univ_three]
  rw [this]
  congr 1
  rw [map_sub]; abel

lemma dsdist_eq {B0 B1 C0 C1 : Mat4} (hB0 : IsRigid B0) (hB1 : IsRigid B1) (h0 : IsRigid C0) (h1 : IsRigid C1)
    (T0 T1 : Vec6) :
    (adjointBody (invBody C0 * C1) *ᵥ (iadjointBody (invBody B1 * C1) *ᵥ T1)) 5 - (iadjointBody (invBody B0 * C0) *ᵥ T0) 5 =
      zAxis C0 ⬝ᵥ (rot B1 *ᵥ lin T1 + (rot B1 *ᵥ ang T1) ⨯₃ (pos C0 - pos B1)) -
      zAxis C0 ⬝ᵥ (rot B0 *ᵥ lin T0 + (rot B0 *ᵥ ang T0) ⨯₃ (pos C0 - pos B0)) := by
  have e : ∀ {B C : Mat4}, IsRigid B → IsRigid C → iadjointBody (invBody B * C) = adjointBody (invBody C) * adjointBody B := by
    intro B C hB hC
    rw [iadjointBody, hB.invBody.invBody_mul_rev hC, hB.invBody_invBody, adjointBody_mul hC.invBody hB]
  rw [e hB1 h1, e hB0 h0, adjointBody_mul h0.invBody h1, ← frame_twist_5 hB0 h0, ← frame_twist_5 hB1 h0]
  simp only [Matrix.mulVec_mulVec]
  congr 2
  rw [show adjointBody (invBody C0) * adjointBody C1 * (adjointBody (invBody C1) * adjointBody B1) =
    adjointBody (invBody C0) * adjointBody B1 from ?_]
  calc adjointBody (invBody C0) * adjointBody C1 * (adjointBody (invBody C1) * adjointBody B1)
      = adjointBody (invBody C0) * (adjointBody C1 * adjointBody (invBody C1)) * adjointBody B1 := by
        simp only [Matrix.mul_assoc]
    _ = _ := by rw [h1.adjoint_mul_inv, Matrix.mul_one]

lemma hasDerivAt_toGround {H : ℝ → Mat4} {T : Vec6} {t : ℝ} (hH : IsRigid (H t)) (hT : HasTwist H T t) (c : Vec3) (i : Fin 3) :
    HasDerivAt (fun s => toGround (H s) c i)
      ((rot (H t) *ᵥ lin T + (rot (H t) *ᵥ ang T) ⨯₃ (toGround (H t) c - pos (H t))) i) t := by
  have h1 := ((((hT i.castSucc 0).mul_const (c 0)).add ((hT i.castSucc 1).mul_const (c 1))).add
      ((hT i.castSucc 2).mul_const (c 2))).add (hT i.castSucc 3)
  refine h1.congr_deriv ?_
  obtain ⟨R, p, hR, e⟩ := isRigid_iff.mp hH
  rw [e, hat_eq, mkH_mul_mkh, rot_mkH, pos_mkH, toGround_mkH, add_sub_cancel_right, hR.cross, ← skew_mulVec]
  fin_cases i <;> simp [mkh, Matrix.mulVec, dotProduct, Fin.sum_univ_three, Matrix.mul_apply] <;> ring

lemma cross_dot_self (z w u : Vec3) (a : ℝ) : z ⬝ᵥ (w ⨯₃ (u + a • z)) = z ⬝ᵥ (w ⨯₃ u) := by
  simp [dotProduct, Fin.sum_univ_three, cross_apply]; ring

/-- C75: for two spheres carried by moving bodies, the gap velocity computed by `update` is the time derivative of the
signed distance of the spheres. -/
theorem C75_gap_velocity {sort : Vec3 → Equiv.Perm (Fin 3)} (hs : ∀ z, IsArgsortAbs z (sort z)) {B0 B1 : ℝ → Mat4}
    {T0 T1 : Vec6} {t : ℝ} (hB0 : IsRigid (B0 t)) (hB1 : IsRigid (B1 t)) (hT0 : HasTwist B0 T0 t) (hT1 : HasTwist B1 T1 t)
    (q0 q1 : Vec3) (r0 r1 : ℝ) (hq : toGround (B0 t) q0 ≠ toGround (B1 t) q1) (proximity dt : ℝ) :
    ∃ c u, sphereSphere sort (toGround (B0 t) q0) r0 (toGround (B1 t) q1) r1 = .ok c ∧
      contactUpdate c (B0 t) (B1 t) T0 T1 proximity dt = .ok u ∧
      HasDerivAt (fun s => dist3 (toGround (B0 s) q0) (toGround (B1 s) q1) - r0 - r1) u.dsdist t := by
  obtain ⟨c, e, -, h0, h1, -, hz, ho, -⟩ := C48_sphere_sphere hs hq r0 r1
  obtain ⟨u, e', -, -, -, hd, -⟩ := contactUpdate_ok hB0 hB1 h0 h1 T0 T1 proximity dt
  refine ⟨c, u, e, e', ?_⟩
  rw [hd, dsdist_eq hB0 hB1 h0 h1]
  have hpos : pos c.H0 = origin c.H0 := by
    ext i; fin_cases i <;> rfl
  set d := dist3 (toGround (B0 t) q0) (toGround (B1 t) q1) with hdd
  have hd0 : 0 < d := dist3_pos hq
  set P0 := toGround (B0 t) q0 with hP0
  set P1 := toGround (B1 t) q1 with hP1
  set z := zAxis c.H0 with hzz
  have ez : P1 = P0 + d • z := by
    rw [hz, smul_smul, mul_inv_cancel₀ hd0.ne', one_smul]; abel
  set V1 := rot (B1 t) *ᵥ lin T1 + (rot (B1 t) *ᵥ ang T1) ⨯₃ (P1 - pos (B1 t)) with hV1
  set V0 := rot (B0 t) *ᵥ lin T0 + (rot (B0 t) *ᵥ ang T0) ⨯₃ (P0 - pos (B0 t)) with hV0
  have e1 : z ⬝ᵥ (rot (B1 t) *ᵥ lin T1 + (rot (B1 t) *ᵥ ang T1) ⨯₃ (pos c.H0 - pos (B1 t))) = z ⬝ᵥ V1 := by
    rw [hV1, dotProduct_add, dotProduct_add]
    congr 1
    rw [hpos, ho, show P0 + r0 • z - pos (B1 t) = P1 - pos (B1 t) + (r0 - d) • z by rw [ez, sub_smul]; abel, cross_dot_self]
  have e0 : z ⬝ᵥ (rot (B0 t) *ᵥ lin T0 + (rot (B0 t) *ᵥ ang T0) ⨯₃ (pos c.H0 - pos (B0 t))) = z ⬝ᵥ V0 := by
    rw [hV0, dotProduct_add, dotProduct_add]
    congr 1
    rw [hpos, ho, show P0 + r0 • z - pos (B0 t) = P0 - pos (B0 t) + r0 • z by abel, cross_dot_self]
  rw [e1, e0]
  have hp0 : ∀ i, HasDerivAt (fun s => toGround (B0 s) q0 i) (V0 i) t := hasDerivAt_toGround hB0 hT0 q0
  have hp1 : ∀ i, HasDerivAt (fun s => toGround (B1 s) q1 i) (V1 i) t := hasDerivAt_toGround hB1 hT1 q1
  have hsq : HasDerivAt (fun s => (toGround (B0 s) q0 0 - toGround (B1 s) q1 0) ^ 2 +
      (toGround (B0 s) q0 1 - toGround (B1 s) q1 1) ^ 2 + (toGround (B0 s) q0 2 - toGround (B1 s) q1 2) ^ 2)
      (2 * (P0 0 - P1 0) * (V0 0 - V1 0) + 2 * (P0 1 - P1 1) * (V0 1 - V1 1) + 2 * (P0 2 - P1 2) * (V0 2 - V1 2)) t := by
    refine ((((((hp0 0).sub (hp1 0)).pow 2).add (((hp0 1).sub (hp1 1)).pow 2)).add (((hp0 2).sub (hp1 2)).pow 2))).congr_deriv ?_
    simp only [Pi.sub_apply]
    push_cast
    ring
  have hsq0 : (P0 0 - P1 0) ^ 2 + (P0 1 - P1 1) ^ 2 + (P0 2 - P1 2) ^ 2 ≠ 0 := by
    rw [← dist3_sq]; positivity
  have hfin := ((hsq.sqrt hsq0).sub_const r0).sub_const r1
  refine hfin.congr_deriv ?_
  change _ / (2 * d) = _
  have hc : ∀ i, P0 i - P1 i = -(d * z i) := by intro i; rw [ez]; simp
  rw [hc, hc, hc]
  simp only [dotProduct, Fin.sum_univ_three]
  field_simp
  ring

/-- C75: the fourth row of the constraint's jacobian, times the generalized velocity, is that gap velocity, whatever the
collision solver. -/
theorem C75_row {n : ℕ} {c : Collision} {B0 B1 : Mat4} (hB0 : IsRigid B0) (hB1 : IsRigid B1) (h0 : IsRigid c.H0)
    (h1 : IsRigid c.H1) (J0 J1 : Matrix (Fin 6) (Fin n) ℝ) (ν : Fin n → ℝ) (proximity dt : ℝ) :
    ∃ u, contactUpdate c B0 B1 (J0 *ᵥ ν) (J1 *ᵥ ν) proximity dt = .ok u ∧
      (sfJac (B0 * u.bpose0) (B1 * u.bpose1) (iadjointBody u.bpose0 * J0) (iadjointBody u.bpose1 * J1) *ᵥ ν) 3 = u.dsdist := by
  obtain ⟨u, e, e0, e1, -, hd, -⟩ := contactUpdate_ok hB0 hB1 h0 h1 (J0 *ᵥ ν) (J1 *ᵥ ν) proximity dt
  refine ⟨u, e, ?_⟩
  have f0 : B0 * u.bpose0 = c.H0 := by rw [e0, ← Matrix.mul_assoc, hB0.mul_invBody, Matrix.one_mul]
  have f1 : B1 * u.bpose1 = c.H1 := by rw [e1, ← Matrix.mul_assoc, hB1.mul_invBody, Matrix.one_mul]
  rw [hd, f0, f1, ← e0, ← e1, sfJac, relFrame]
  have r5 : ∀ (A : Matrix (Fin 6) (Fin n) ℝ), (rows26 A *ᵥ ν) 3 = (A *ᵥ ν) 5 := by
    intro A; simp [rows26, Matrix.mulVec, dotProduct]
  have r6 : ∀ (A : Mat6) (x : Vec6), (rows26 A *ᵥ x) 3 = (A *ᵥ x) 5 := by
    intro A x; simp [rows26, Matrix.mulVec, dotProduct]
  rw [Matrix.sub_mulVec, Pi.sub_apply, r5, ← Matrix.mulVec_mulVec, r6]
  simp only [← Matrix.mulVec_mulVec]

/-- the premises of C75 are met: two unit spheres, one moving towards the other along x at unit speed -/
example : ∃ (B0 B1 : ℝ → Mat4) (T0 T1 : Vec6), IsRigid (B0 0) ∧ IsRigid (B1 0) ∧ HasTwist B0 T0 0 ∧ HasTwist B1 T1 0 ∧
    toGround (B0 0) 0 ≠ toGround (B1 0) 0 ∧ T1 ≠ 0 := by
  refine ⟨fun _ => 1, fun s => mkH 1 ![3 - s, 0, 0], 0, ![0,0,0,-1,0,0], isRigid_one, isRigid_mkH IsRotation.one,
    HasTwist.const 0, ?_, ?_, ?_⟩
  · intro i j
    simp only [hat_eq, mkH_mul_mkh]
    have hd : HasDerivAt (fun s : ℝ => 3 - s) (-1) 0 := by
      simpa using (hasDerivAt_id (0:ℝ)).const_sub 3
    fin_cases i <;> fin_cases j <;> simp [mkH, mkh, skew, ang, lin, hasDerivAt_const] <;> exact hd
  · intro h
    have := congrFun h 0
    rw [toGround_mkH] at this
    simp [toGround] at this
  · intro h; have := congrFun h 3; simp at this

end Arboris
