import Verif.Proofs.Joints

/-! # Properties C16–C18: joints -/

namespace Arboris
open Matrix Real Spec

/-- C16: every joint class of joints.py with a linear configuration space has a rigid pose at every generalized
position, `ipose` (overridden or inherited) is its two-sided inverse. -/
theorem C16_linear (k : LinKind) (q : Fin k.ndof → ℝ) :
    IsRigid (k.pose q) ∧ IsRigid (k.ipose q) ∧ k.pose q * k.ipose q = 1 ∧ k.ipose q * k.pose q = 1 := by
  have h := k.isRigid_pose q
  rw [k.ipose_eq]
  exact ⟨h, h.invBody, h.mul_invBody, h.invBody_mul⟩
/-- C16 for `FreeJoint` and `FixedJoint`. -/
theorem C16_free {gpos : Mat4} (h : IsRigid gpos) (gvel : Vec6) :
    (freeVal gpos gvel).pose = gpos ∧
    gpos * (freeVal gpos gvel).ipose = 1 ∧ (freeVal gpos gvel).ipose * gpos = 1 :=
  ⟨rfl, h.mul_invBody, h.invBody_mul⟩
theorem C16_fixed : fixedVal.pose = 1 ∧ fixedVal.ipose = 1 := by
  refine ⟨rfl, ?_⟩
  have := isRigid_one.mul_invBody
  rwa [Matrix.one_mul] at this
/-- C16: at the zero position every linear joint is the identity. -/
theorem C16_zero (k : LinKind) : k.pose (fun _ => 0) = 1 := by
  cases k <;> ext i j <;> fin_cases i <;> fin_cases j <;>
    simp [LinKind.pose, rotzyx, rotzy, rotzx, rotyx, rotx, roty, rotz, transl]

/-- C17: along any differentiable path of the generalized positions, the pose of every linear joint moves with body
twist `jacobian(q) q'`; this is also the `twist` attribute when `gvel = q'`. -/
theorem C17_linear (k : LinKind) (q : ℝ → Fin k.ndof → ℝ) (q' : Fin k.ndof → ℝ) (t : ℝ)
    (h : HasDerivV q q' t) :
    HasTwist (fun s => (k.val (q s) q').pose) ((k.val (q t) q').jac *ᵥ q') t ∧
    (k.val (q t) q').twist = (k.val (q t) q').jac *ᵥ q' :=
  ⟨k.hasTwist_pose q q' t h, rfl⟩
/-- C17: for `FreeJoint`, `twist = jacobian·gvel = gvel`; for `FixedJoint` all is at rest. -/
theorem C17_free_fixed (gpos : Mat4) (gvel : Vec6) (e : Fin 0 → ℝ) (t : ℝ) :
    (freeVal gpos gvel).jac *ᵥ gvel = (freeVal gpos gvel).twist ∧ (freeVal gpos gvel).twist = gvel ∧
    fixedVal.jac *ᵥ e = fixedVal.twist ∧ HasTwist (fun _ => fixedVal.pose) fixedVal.twist t := by
  refine ⟨by simp [freeVal], rfl, by simp [fixedVal], HasTwist.const t⟩

/-- C17: `integrate` of these joints moves them at the constant velocity `gvel`: integrating during `0` changes nothing, integrating
during `s` then `t` is integrating during `s + t`, and the motion so produced has at each time the body twist `jacobian · gvel`. -/
theorem C17_integrate (k : LinKind) (q v : Fin k.ndof → ℝ) (s t : ℝ) :
    linIntegrate q v 0 = q ∧ linIntegrate (linIntegrate q v s) v t = linIntegrate q v (s + t) ∧
    HasTwist (fun s => (k.val (linIntegrate q v s) v).pose) ((k.val (linIntegrate q v t) v).jac *ᵥ v) t := by
  refine ⟨by simp [linIntegrate], by simp only [linIntegrate, add_smul, add_assoc], (C17_linear k _ v t ?_).1⟩
  intro i
  have := ((hasDerivAt_id t).mul_const (v i)).const_add (q i)
  simpa [linIntegrate] using this

/-- C18: `djacobian` is the derivative of `jacobian` along any differentiable path. -/
theorem C18_linear (k : LinKind) (q : ℝ → Fin k.ndof → ℝ) (q' : Fin k.ndof → ℝ) (t : ℝ)
    (h : HasDerivV q q' t) :
    HasDeriv (fun s => (k.val (q s) q').jac) (k.val (q t) q').djac t :=
  k.hasDeriv_jac q q' t h
/-- C18 for `FreeJoint` and `FixedJoint`: constant jacobians, zero djacobians. -/
theorem C18_free_fixed (gpos : ℝ → Mat4) (gvel : ℝ → Vec6) (t : ℝ) :
    HasDeriv (fun s => (freeVal (gpos s) (gvel s)).jac) (freeVal (gpos t) (gvel t)).djac t ∧
    HasDeriv (fun _ => fixedVal.jac) fixedVal.djac t :=
  ⟨HasDeriv.const _ t, HasDeriv.const _ t⟩

/-- the hypothesis of C17/C18 is met by a path with non-constant speed on all three axes -/
example : HasDerivV (fun s (i : Fin 3) => s ^ 2 * (i + 1 : ℝ)) (fun i => 2 * (i + 1 : ℝ)) 1 := by
  intro i
  have := (hasDerivAt_pow 2 (1:ℝ)).mul_const ((i : ℝ) + 1)
  simpa using this

end Arboris
