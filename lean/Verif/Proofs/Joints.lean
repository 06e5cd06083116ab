import Verif.Model.Joints
import Verif.Props.Rigid
import Verif.Proofs.Rigid

/-! # Helper lemmas on joints: the pose derivative of each class -/

namespace Arboris
open Matrix Real Spec

lemma rotx_hasTwist (a : ℝ → ℝ) (a' t : ℝ) (h : HasDerivAt a a' t) :
    HasTwist (fun s => rotx (a s)) ![a',0,0,0,0,0] t := by
  intro i j
  fin_cases i <;> fin_cases j <;>
    simp [rotx, hat, Matrix.mul_apply, Fin.sum_univ_four] <;>
    first
      | exact hasDerivAt_const t _
      | exact h.sin.congr_deriv (by ring)
      | exact h.cos.congr_deriv (by ring)
      | exact h.sin.fun_neg.congr_deriv (by ring)

lemma roty_hasTwist (a : ℝ → ℝ) (a' t : ℝ) (h : HasDerivAt a a' t) :
    HasTwist (fun s => roty (a s)) ![0,a',0,0,0,0] t := by
  intro i j
  fin_cases i <;> fin_cases j <;>
    simp [roty, hat, Matrix.mul_apply, Fin.sum_univ_four] <;>
    first
      | exact hasDerivAt_const t _
      | exact h.sin.congr_deriv (by ring)
      | exact h.cos.congr_deriv (by ring)
      | exact h.sin.fun_neg.congr_deriv (by ring)

lemma transl_hasTwist (x y z : ℝ → ℝ) (x' y' z' t : ℝ) (hx : HasDerivAt x x' t) (hy : HasDerivAt y y' t)
    (hz : HasDerivAt z z' t) :
    HasTwist (fun s => transl (x s) (y s) (z s)) ![0,0,0,x',y',z'] t := by
  intro i j
  fin_cases i <;> fin_cases j <;>
    simp [transl, hat, Matrix.mul_apply, Fin.sum_univ_four] <;>
    first
      | exact hasDerivAt_const t _
      | exact hx
      | exact hy
      | exact hz

/-- rotation block of the elementary rotations -/
noncomputable def Rx (a : ℝ) : Mat3 := !![1, 0, 0; 0, cos a, -sin a; 0, sin a, cos a]
noncomputable def Ry (a : ℝ) : Mat3 := !![cos a, 0, sin a; 0, 1, 0; -sin a, 0, cos a]
noncomputable def Rz (a : ℝ) : Mat3 := !![cos a, -sin a, 0; sin a, cos a, 0; 0, 0, 1]

lemma rotx_eq (a : ℝ) : rotx a = mkH (Rx a) 0 := by
  ext i j; fin_cases i <;> fin_cases j <;> simp [rotx, mkH, Rx]
lemma roty_eq (a : ℝ) : roty a = mkH (Ry a) 0 := by
  ext i j; fin_cases i <;> fin_cases j <;> simp [roty, mkH, Ry]
lemma rotz_eq (a : ℝ) : rotz a = mkH (Rz a) 0 := by
  ext i j; fin_cases i <;> fin_cases j <;> simp [rotz, mkH, Rz]
lemma transl_eq (x y z : ℝ) : transl x y z = mkH 1 ![x,y,z] := by
  ext i j; fin_cases i <;> fin_cases j <;> simp [transl, mkH]

lemma isRotation_Rx (a : ℝ) : IsRotation (Rx a) := by
  have := (C01_rotx a).rotation; rwa [rotx_eq, rot_mkH] at this
lemma isRotation_Ry (a : ℝ) : IsRotation (Ry a) := by
  have := (C01_roty a).rotation; rwa [roty_eq, rot_mkH] at this
lemma isRotation_Rz (a : ℝ) : IsRotation (Rz a) := by
  have := (C01_rotz a).rotation; rwa [rotz_eq, rot_mkH] at this

lemma adjoint_inv_rot (R : Mat3) (w : Vec3) (v : Vec3) :
    adjointBody (invBody (mkH R 0)) *ᵥ tw w v = tw (Rᵀ *ᵥ w) (Rᵀ *ᵥ v) := by
  simp [invBody, adjointBody_mkH, blk_mulVec, skew_zero]

lemma vec6_tw (a b c d e f : ℝ) : (![a,b,c,d,e,f] : Vec6) = tw ![a,b,c] ![d,e,f] := by
  ext i; fin_cases i <;> simp [tw]

lemma mulVec3 (A : Mat3) (a b c : ℝ) : A *ᵥ ![a,b,c] =
    ![A 0 0 * a + A 0 1 * b + A 0 2 * c, A 1 0 * a + A 1 1 * b + A 1 2 * c,
      A 2 0 * a + A 2 1 * b + A 2 2 * c] := by
  ext i; fin_cases i <;> simp [Matrix.mulVec, dotProduct, Fin.sum_univ_three]

lemma vec3_add (a b c d e f : ℝ) : (![a,b,c] : Vec3) + ![d,e,f] = ![a+d,b+e,c+f] := by
  ext i; fin_cases i <;> simp

lemma LinKind.isRigid_pose (k : LinKind) (q : Fin k.ndof → ℝ) : IsRigid (k.pose q) := by
  cases k
  · exact C01_rotzyx _ _ _
  · exact C01_rotzy _ _
  · exact C01_rotzx _ _
  · exact C01_rotyx _ _
  · exact C01_rotz _
  · exact C01_roty _
  · exact C01_rotx _
  · exact C01_transl _ _ _
  · exact C01_transl _ _ _
  · exact C01_transl _ _ _
  · exact C01_transl _ _ _

lemma invBody_rotx (a : ℝ) : invBody (rotx a) = rotx (-a) := by
  rw [rotx_eq, rotx_eq]; simp only [invBody, rot_mkH, pos_mkH, mkH_inj]
  refine ⟨?_, by simp⟩
  ext i j; fin_cases i <;> fin_cases j <;> simp [Rx]
lemma invBody_roty (a : ℝ) : invBody (roty a) = roty (-a) := by
  rw [roty_eq, roty_eq]; simp only [invBody, rot_mkH, pos_mkH, mkH_inj]
  refine ⟨?_, by simp⟩
  ext i j; fin_cases i <;> fin_cases j <;> simp [Ry]
lemma invBody_rotz (a : ℝ) : invBody (rotz a) = rotz (-a) := by
  rw [rotz_eq, rotz_eq]; simp only [invBody, rot_mkH, pos_mkH, mkH_inj]
  refine ⟨?_, by simp⟩
  ext i j; fin_cases i <;> fin_cases j <;> simp [Rz]
lemma invBody_transl (x y z : ℝ) : invBody (transl x y z) = transl (-x) (-y) (-z) := by
  rw [transl_eq, transl_eq]; simp only [invBody, rot_mkH, pos_mkH, mkH_inj]
  refine ⟨by simp, ?_⟩
  ext i; fin_cases i <;> simp

lemma LinKind.ipose_eq (k : LinKind) (q : Fin k.ndof → ℝ) : k.ipose q = invBody (k.pose q) := by
  cases k
  · rfl
  · rfl
  · rfl
  · rfl
  · exact (invBody_rotz _).symm
  · exact (invBody_roty _).symm
  · exact (invBody_rotx _).symm
  · rfl
  · show transl _ _ _ = invBody (transl _ _ _); rw [invBody_transl]; simp
  · show transl _ _ _ = invBody (transl _ _ _); rw [invBody_transl]; simp
  · show transl _ _ _ = invBody (transl _ _ _); rw [invBody_transl]; simp


lemma twist_RzRyRx (q q' : Fin 3 → ℝ) : LinKind.jac .RzRyRx q *ᵥ q' =
    (![-sin (q 1) * q' 0 + q' 2, sin (q 2) * cos (q 1) * q' 0 + cos (q 2) * q' 1,
      cos (q 2) * cos (q 1) * q' 0 - sin (q 2) * q' 1, 0, 0, 0] : Vec6) := by
  ext i; simp only [LinKind.jac, Matrix.mulVec, dotProduct]
  change ∑ k : Fin 3, _ = _
  rw [Fin.sum_univ_three]
  fin_cases i <;> simp
  ring
lemma twist_RzRy (q q' : Fin 2 → ℝ) : LinKind.jac .RzRy q *ᵥ q' =
    (![-sin (q 1) * q' 0, q' 1, cos (q 1) * q' 0, 0, 0, 0] : Vec6) := by
  ext i; simp only [LinKind.jac, Matrix.mulVec, dotProduct]
  change ∑ k : Fin 2, _ = _
  rw [Fin.sum_univ_two]
  fin_cases i <;> simp
lemma twist_RzRx (q q' : Fin 2 → ℝ) : LinKind.jac .RzRx q *ᵥ q' =
    (![q' 1, sin (q 1) * q' 0, cos (q 1) * q' 0, 0, 0, 0] : Vec6) := by
  ext i; simp only [LinKind.jac, Matrix.mulVec, dotProduct]
  change ∑ k : Fin 2, _ = _
  rw [Fin.sum_univ_two]
  fin_cases i <;> simp
lemma twist_RyRx (q q' : Fin 2 → ℝ) : LinKind.jac .RyRx q *ᵥ q' =
    (![q' 1, cos (q 1) * q' 0, -sin (q 1) * q' 0, 0, 0, 0] : Vec6) := by
  ext i; simp only [LinKind.jac, Matrix.mulVec, dotProduct]
  change ∑ k : Fin 2, _ = _
  rw [Fin.sum_univ_two]
  fin_cases i <;> simp
lemma twist_Rz (q q' : Fin 1 → ℝ) : LinKind.jac .Rz q *ᵥ q' = (![0, 0, q' 0, 0, 0, 0] : Vec6) := by
  ext i; simp only [LinKind.jac, Matrix.mulVec, dotProduct]
  change ∑ k : Fin 1, _ = _
  rw [Fin.sum_univ_one]
  fin_cases i <;> simp
lemma twist_Ry (q q' : Fin 1 → ℝ) : LinKind.jac .Ry q *ᵥ q' = (![0, q' 0, 0, 0, 0, 0] : Vec6) := by
  ext i; simp only [LinKind.jac, Matrix.mulVec, dotProduct]
  change ∑ k : Fin 1, _ = _
  rw [Fin.sum_univ_one]
  fin_cases i <;> simp
lemma twist_Rx (q q' : Fin 1 → ℝ) : LinKind.jac .Rx q *ᵥ q' = (![q' 0, 0, 0, 0, 0, 0] : Vec6) := by
  ext i; simp only [LinKind.jac, Matrix.mulVec, dotProduct]
  change ∑ k : Fin 1, _ = _
  rw [Fin.sum_univ_one]
  fin_cases i <;> simp
lemma twist_TxTyTz (q q' : Fin 3 → ℝ) : LinKind.jac .TxTyTz q *ᵥ q' =
    (![0, 0, 0, q' 0, q' 1, q' 2] : Vec6) := by
  ext i; simp only [LinKind.jac, Matrix.mulVec, dotProduct]
  change ∑ k : Fin 3, _ = _
  rw [Fin.sum_univ_three]
  fin_cases i <;> simp
lemma twist_Tz (q q' : Fin 1 → ℝ) : LinKind.jac .Tz q *ᵥ q' = (![0, 0, 0, 0, 0, q' 0] : Vec6) := by
  ext i; simp only [LinKind.jac, Matrix.mulVec, dotProduct]
  change ∑ k : Fin 1, _ = _
  rw [Fin.sum_univ_one]
  fin_cases i <;> simp
lemma twist_Ty (q q' : Fin 1 → ℝ) : LinKind.jac .Ty q *ᵥ q' = (![0, 0, 0, 0, q' 0, 0] : Vec6) := by
  ext i; simp only [LinKind.jac, Matrix.mulVec, dotProduct]
  change ∑ k : Fin 1, _ = _
  rw [Fin.sum_univ_one]
  fin_cases i <;> simp
lemma twist_Tx (q q' : Fin 1 → ℝ) : LinKind.jac .Tx q *ᵥ q' = (![0, 0, 0, q' 0, 0, 0] : Vec6) := by
  ext i; simp only [LinKind.jac, Matrix.mulVec, dotProduct]
  change ∑ k : Fin 1, _ = _
  rw [Fin.sum_univ_one]
  fin_cases i <;> simp

lemma Spec.HasTwist.congr {H : ℝ → Mat4} {T U : Vec6} {t : ℝ} (h : HasTwist H T t) (e : T = U) :
    HasTwist H U t := e ▸ h

lemma rotzyx_hasTwist (a b c : ℝ → ℝ) (a' b' c' t : ℝ) (ha : HasDerivAt a a' t) (hb : HasDerivAt b b' t)
    (hc : HasDerivAt c c' t) :
    HasTwist (fun s => rotzyx (a s) (b s) (c s))
      ![-sin (b t) * a' + c', sin (c t) * cos (b t) * a' + cos (c t) * b',
        cos (c t) * cos (b t) * a' - sin (c t) * b', 0, 0, 0] t := by
  have h1 := ((rotz_hasTwist a a' t ha).mul (K := fun s => roty (b s)) (C01_roty _) (roty_hasTwist b b' t hb)).mul (K := fun s => rotx (c s)) (C01_rotx _)
    (rotx_hasTwist c c' t hc)
  simp only [C02_rotzyx]
  refine h1.congr ?_
  simp only [rotx_eq, roty_eq, vec6_tw, adjoint_inv_rot, tw_add, mulVec3, vec3_add]
  ext i; fin_cases i <;> simp [tw, Rx, Ry] <;> ring
lemma rotzy_hasTwist (a b : ℝ → ℝ) (a' b' t : ℝ) (ha : HasDerivAt a a' t) (hb : HasDerivAt b b' t) :
    HasTwist (fun s => rotzy (a s) (b s)) ![-sin (b t) * a', b', cos (b t) * a', 0, 0, 0] t := by
  have h1 := (rotz_hasTwist a a' t ha).mul (K := fun s => roty (b s)) (C01_roty _) (roty_hasTwist b b' t hb)
  simp only [C02_rotzy]
  refine h1.congr ?_
  simp only [roty_eq, vec6_tw, adjoint_inv_rot, tw_add, mulVec3, vec3_add]
  ext i; fin_cases i <;> simp [tw, Ry]
lemma rotzx_hasTwist (a b : ℝ → ℝ) (a' b' t : ℝ) (ha : HasDerivAt a a' t) (hb : HasDerivAt b b' t) :
    HasTwist (fun s => rotzx (a s) (b s)) ![b', sin (b t) * a', cos (b t) * a', 0, 0, 0] t := by
  have h1 := (rotz_hasTwist a a' t ha).mul (K := fun s => rotx (b s)) (C01_rotx _) (rotx_hasTwist b b' t hb)
  simp only [C02_rotzx]
  refine h1.congr ?_
  simp only [rotx_eq, vec6_tw, adjoint_inv_rot, tw_add, mulVec3, vec3_add]
  ext i; fin_cases i <;> simp [tw, Rx]
lemma rotyx_hasTwist (a b : ℝ → ℝ) (a' b' t : ℝ) (ha : HasDerivAt a a' t) (hb : HasDerivAt b b' t) :
    HasTwist (fun s => rotyx (a s) (b s)) ![b', cos (b t) * a', -sin (b t) * a', 0, 0, 0] t := by
  have h1 := (roty_hasTwist a a' t ha).mul (K := fun s => rotx (b s)) (C01_rotx _) (rotx_hasTwist b b' t hb)
  simp only [C02_rotyx]
  refine h1.congr ?_
  simp only [rotx_eq, vec6_tw, adjoint_inv_rot, tw_add, mulVec3, vec3_add]
  ext i; fin_cases i <;> simp [tw, Rx]

lemma LinKind.hasTwist_pose (k : LinKind) (q : ℝ → Fin k.ndof → ℝ) (q' : Fin k.ndof → ℝ) (t : ℝ)
    (h : HasDerivV q q' t) : HasTwist (fun s => k.pose (q s)) (k.jac (q t) *ᵥ q') t := by
  cases k
  · exact (rotzyx_hasTwist _ _ _ _ _ _ t (h _) (h _) (h _)).congr (twist_RzRyRx _ _).symm
  · exact (rotzy_hasTwist _ _ _ _ t (h _) (h _)).congr (twist_RzRy _ _).symm
  · exact (rotzx_hasTwist _ _ _ _ t (h _) (h _)).congr (twist_RzRx _ _).symm
  · exact (rotyx_hasTwist _ _ _ _ t (h _) (h _)).congr (twist_RyRx _ _).symm
  · exact (rotz_hasTwist _ _ t (h _)).congr (twist_Rz _ _).symm
  · exact (roty_hasTwist _ _ t (h _)).congr (twist_Ry _ _).symm
  · exact (rotx_hasTwist _ _ t (h _)).congr (twist_Rx _ _).symm
  · exact (transl_hasTwist _ _ _ _ _ _ t (h _) (h _) (h _)).congr (twist_TxTyTz _ _).symm
  · exact (transl_hasTwist _ _ _ _ _ _ t (hasDerivAt_const _ _) (hasDerivAt_const _ _) (h _)).congr
      (twist_Tz _ _).symm
  · exact (transl_hasTwist _ _ _ _ _ _ t (hasDerivAt_const _ _) (h _) (hasDerivAt_const _ _)).congr
      (twist_Ty _ _).symm
  · exact (transl_hasTwist _ _ _ _ _ _ t (h _) (hasDerivAt_const _ _) (hasDerivAt_const _ _)).congr
      (twist_Tx _ _).symm

lemma LinKind.hasDeriv_jac (k : LinKind) (q : ℝ → Fin k.ndof → ℝ) (q' : Fin k.ndof → ℝ) (t : ℝ)
    (h : HasDerivV q q' t) : HasDeriv (fun s => k.jac (q s)) (k.djac (q t) q') t := by
  cases k
  · have h1 := h (1 : Fin 3)
    have h2 := h (2 : Fin 3)
    intro i j
    change Fin 3 at j
    fin_cases i <;> fin_cases j <;> simp [LinKind.jac, LinKind.djac] <;>
    first
      | exact hasDerivAt_const t _
      | exact h1.sin.fun_neg.congr_deriv (by ring)
      | exact h2.sin.fun_neg.congr_deriv (by ring)
      | exact h2.cos.congr_deriv (by ring)
      | exact (h2.sin.fun_mul h1.cos).congr_deriv (by ring)
      | exact (h2.cos.fun_mul h1.cos).congr_deriv (by ring)
  · have h1 := h (1 : Fin 2)
    intro i j
    change Fin 2 at j
    fin_cases i <;> fin_cases j <;> simp [LinKind.jac, LinKind.djac] <;>
    first
      | exact hasDerivAt_const t _
      | exact h1.sin.fun_neg.congr_deriv (by ring)
      | exact h1.cos.congr_deriv (by ring)
  · have h1 := h (1 : Fin 2)
    intro i j
    change Fin 2 at j
    fin_cases i <;> fin_cases j <;> simp [LinKind.jac, LinKind.djac] <;>
    first
      | exact hasDerivAt_const t _
      | exact h1.sin.congr_deriv (by ring)
      | exact h1.cos.congr_deriv (by ring)
  · have h1 := h (1 : Fin 2)
    intro i j
    change Fin 2 at j
    fin_cases i <;> fin_cases j <;> simp [LinKind.jac, LinKind.djac] <;>
    first
      | exact hasDerivAt_const t _
      | exact h1.sin.fun_neg.congr_deriv (by ring)
      | exact h1.cos.congr_deriv (by ring)
  all_goals exact fun i j => hasDerivAt_const t _

/-- joint classes whose twist is invariant under their own pose -/
def LinKind.oneAxis : LinKind → Bool
  | .Rz | .Ry | .Rx | .TxTyTz | .Tz | .Ty | .Tx => true
  | _ => false

lemma adjoint_rot (R : Mat3) (w v : Vec3) :
    adjointBody (mkH R 0) *ᵥ tw w v = tw (R *ᵥ w) (R *ᵥ v) := by
  simp [adjointBody_mkH, blk_mulVec, skew_zero]
lemma adjoint_transl (p : Vec3) (v : Vec3) :
    adjointBody (mkH 1 p) *ᵥ tw 0 v = tw 0 v := by
  simp [adjointBody_mkH, blk_mulVec]

lemma LinKind.invariant (k : LinKind) (hk : k.oneAxis = true) (q q' : Fin k.ndof → ℝ) :
    adjointBody (k.pose q) *ᵥ (k.jac q *ᵥ q') = k.jac q *ᵥ q' := by
  have z3 : (![0,0,0] : Vec3) = 0 := by ext i; fin_cases i <;> rfl
  cases k <;> simp only [LinKind.oneAxis, Bool.false_eq_true] at hk
  · have e : LinKind.jac .Rz q *ᵥ q' = _ := twist_Rz q q'
    rw [e, vec6_tw]; simp only [LinKind.pose, rotz_eq]; rw [adjoint_rot]
    simp only [mulVec3]; simp [Arboris.Rz]
  · have e : LinKind.jac .Ry q *ᵥ q' = _ := twist_Ry q q'
    rw [e, vec6_tw]; simp only [LinKind.pose, roty_eq]; rw [adjoint_rot]
    simp only [mulVec3]; simp [Arboris.Ry]
  · have e : LinKind.jac .Rx q *ᵥ q' = _ := twist_Rx q q'
    rw [e, vec6_tw]; simp only [LinKind.pose, rotx_eq]; rw [adjoint_rot]
    simp only [mulVec3]; simp [Arboris.Rx]
  · have e : LinKind.jac .TxTyTz q *ᵥ q' = _ := twist_TxTyTz q q'
    rw [e, vec6_tw]; simp only [LinKind.pose, transl_eq]; rw [z3, adjoint_transl]
  · have e : LinKind.jac .Tz q *ᵥ q' = _ := twist_Tz q q'
    rw [e, vec6_tw]; simp only [LinKind.pose, transl_eq]; rw [z3, adjoint_transl]
  · have e : LinKind.jac .Ty q *ᵥ q' = _ := twist_Ty q q'
    rw [e, vec6_tw]; simp only [LinKind.pose, transl_eq]; rw [z3, adjoint_transl]
  · have e : LinKind.jac .Tx q *ᵥ q' = _ := twist_Tx q q'
    rw [e, vec6_tw]; simp only [LinKind.pose, transl_eq]; rw [z3, adjoint_transl]

end Arboris
