import Verif.Props.MatlabWeight

/-!
# C116: the derivative of the jacobian after the conversion for Matlab
-/

namespace Arboris
open Graph Spec Build Matlab Matrix Real

/-- a trunk on a free joint, a limb on a joint of two rotations -/
noncomputable def limb (H : Mat4) (T : Vec6) (q dq : Fin 2 → ℝ) : Forest Link ℕ :=
  .cons (lk (.free H T) 0 1 1) 1 (.cons (lk (.lin .RzRy q dq) 6 1 1) 2 .nil .nil) .nil

/-- the same in the same state, once converted: a body (3) between two hinges -/
noncomputable def limbConverted (H : Mat4) (T : Vec6) (q dq : Fin 2 → ℝ) : Forest Link ℕ :=
  .cons (lk (.free H T) 0 1 1) 1 (.cons (lk (.lin .Rz (fun _ => q 0) (fun _ => dq 0)) 6 1 1) 3
    (.cons (lk (.lin .Ry (fun _ => q 1) (fun _ => dq 1)) 7 1 1) 2 .nil .nil) .nil) .nil

/-- C116, a further claim: the derivative of the jacobian that `update_dynamic` stores is the same too. -/
def C116_djac_Claim : Prop := ∀ (H : Mat4) (T : Vec6) (q dq : Fin 2 → ℝ) (d d' : BodyDyn 8), IsRigid H →
  (2, d) ∈ worldDynamic 8 (limb H T q dq) → (2, d') ∈ worldDynamic 8 (limbConverted H T q dq) → d'.djac = d.djac

lemma djac_col (s : BodyDyn 8) (a : JAttr) {st : ℕ} (hst : 0 < st) (i : Fin 6) :
    (dynStep s (lk a st 1 1)).djac i 0 = (a.val.idadjoint *ᵥ fun k => s.jac k 0) i + (iadjointBody a.val.pose *ᵥ fun k => s.djac k 0) i := by
  have one : invBody (1 : Mat4) = 1 := by
    have := isRigid_one.mul_invBody; rwa [Matrix.one_mul] at this
  have hz : ∀ (k : ℕ) (D : Matrix (Fin 6) (Fin k) ℝ), (D * selMat 8 st k) i 0 = 0 := by
    intro k D
    rw [Matrix.mul_apply]
    refine Finset.sum_eq_zero fun j _ => ?_
    simp only [selMat, Matrix.of_apply, Fin.val_zero]
    rw [if_neg (by omega), mul_zero]
  rw [dynStep_djac]
  simp only [Matrix.add_apply, one, adjointBody_one, Matrix.one_mul, Matrix.mul_one, relPose]
  rw [hz, add_zero]
  rfl

/-- C116: it is false: of a limb turned by a right angle around y and turning around z, only the converted one has the
right derivative (as C23 shows: the class of joints with two rotations is one of those for which it is wrong). -/
theorem C116_djac_false : ¬ C116_djac_Claim := by
  intro h
  have one : invBody (1 : Mat4) = 1 := by
    have := isRigid_one.mul_invBody; rwa [Matrix.one_mul] at this
  set s : BodyDyn 8 := dynStep (groundDyn 8) (lk (.free 1 0) 0 1 1) with hs
  have hjac : ∀ i, s.jac i 0 = if i = 0 then 1 else 0 := by
    intro i
    have e : s.jac = iadjointBody (relPose (lk (.free 1 0) 0 1 1)) * (groundDyn 8).jac + adjointBody 1 * (1 : Mat6) * selMat 8 0 6 := dynStep_jac _ _
    rw [e, adjointBody_one]
    simp only [groundDyn, Matrix.mul_zero, Matrix.one_mul, zero_add, selMat, Matrix.of_apply]
    fin_cases i <;> simp
  have hdjac : (fun k => s.djac k 0) = 0 := by
    have e : s.djac = adjointBody 1 * ((lk (.free 1 0) 0 1 1).joint.idadjoint * adjointBody (invBody 1)) * (groundDyn 8).jac +
        iadjointBody (relPose (lk (.free 1 0) 0 1 1)) * (groundDyn 8).djac + adjointBody 1 * (0 : Mat6) * selMat 8 0 6 := dynStep_djac _ _
    rw [e]
    ext k
    simp [groundDyn]
  have hjac' : (fun k => s.jac k 0) = ![1, 0, 0, 0, 0, 0] := by
    ext k
    rw [hjac]
    fin_cases k <;> rfl
  have h1 := h 1 0 ![0, π / 2] ![1, 0] _ _ isRigid_one
    (show (2, dynStep s (lk (.lin .RzRy ![0, π / 2] ![1, 0]) 6 1 1)) ∈ worldDynamic 8 (limb 1 0 ![0, π / 2] ![1, 0]) by
      simp [worldDynamic, limb, updateDynamic, hs])
    (show (2, dynStep (dynStep s (lk (.lin .Rz (fun _ => 0) (fun _ => 1)) 6 1 1)) (lk (.lin .Ry (fun _ => π / 2) (fun _ => 0)) 7 1 1)) ∈
        worldDynamic 8 (limbConverted 1 0 ![0, π / 2] ![1, 0]) by
      simp [worldDynamic, limbConverted, updateDynamic, hs])
  have h2 := congrFun (congrFun h1 1) 0
  rw [djac_col _ _ (by norm_num), djac_col _ _ (by norm_num), hdjac, hjac', Matrix.mulVec_zero, Pi.zero_apply, add_zero] at h2
  have hz0 : rotz 0 = 1 := by ext i j; fin_cases i <;> fin_cases j <;> simp [rotz]
  have e1 : (fun k => (dynStep s (lk (.lin .Rz (fun _ => 0) (fun _ => 1)) 6 1 1)).djac k 0) = ![0, -1, 0, 0, 0, 0] := by
    ext k
    rw [djac_col _ _ (by norm_num), hdjac, hjac', Matrix.mulVec_zero, Pi.zero_apply, add_zero]
    have hi : (JAttr.lin .Rz (fun _ => 0) (fun _ => 1)).val.idadjoint = adjacency ![0, 0, -1, 0, 0, 0] := by
      change adjointBody (rotz (-0)) * adjacency (-(adjointBody (rotz (-0)) *ᵥ ((!![0; 0; 1; 0; 0; 0] : Matrix (Fin 6) (Fin 1) ℝ) *ᵥ fun _ => 1))) = _
      rw [neg_zero, hz0, adjointBody_one, Matrix.one_mul, Matrix.one_mulVec]
      congr 1
      ext i
      fin_cases i <;> simp [Matrix.mulVec, dotProduct]
    rw [hi]
    fin_cases k <;> simp [adjacency, Matrix.mulVec, dotProduct, Fin.sum_univ_six]
  have e2 : (JAttr.lin .Ry (fun _ => π / 2) (fun _ => 0)).val.idadjoint = 0 := by
    change adjointBody (roty (-(π / 2))) * adjacency (-(adjointBody (roty (-(π / 2))) *ᵥ ((!![0; 1; 0; 0; 0; 0] : Matrix (Fin 6) (Fin 1) ℝ) *ᵥ fun _ => 0))) = 0
    have : ((!![0; 1; 0; 0; 0; 0] : Matrix (Fin 6) (Fin 1) ℝ) *ᵥ fun _ => 0) = 0 := Matrix.mulVec_zero _
    rw [this, Matrix.mulVec_zero, neg_zero]
    have : adjacency 0 = 0 := by ext i j; fin_cases i <;> fin_cases j <;> simp [adjacency]
    rw [this, Matrix.mul_zero]
  have e3 : (JAttr.lin .RzRy ![0, π / 2] ![1, 0]).val.idadjoint = blk (Ry (π / 2))ᵀ 0 0 (Ry (π / 2))ᵀ * adjacency ![0, 0, 1, 0, 0, 0] := by
    change iadjointBody (rotzy 0 (π / 2)) * adjacency (-(iadjointBody (rotzy 0 (π / 2)) *ᵥ
      ((!![-sin (π / 2), 0; 0, 1; cos (π / 2), 0; 0, 0; 0, 0; 0, 0] : Matrix (Fin 6) (Fin 2) ℝ) *ᵥ ![1, 0]))) = _
    rw [C02_rotzy, hz0, Matrix.one_mul, iadj_roty]
    congr 2
    ext i
    fin_cases i <;> simp [blk, Ry, Matrix.mulVec, dotProduct, Fin.sum_univ_six]
  rw [e1, e2, e3, Matrix.zero_mulVec, Pi.zero_apply, zero_add] at h2
  change (iadjointBody (roty (π / 2)) *ᵥ ![0, -1, 0, 0, 0, 0]) 1 = _ at h2
  rw [iadj_roty] at h2
  simp [blk, Ry, adjacency, Matrix.mulVec, dotProduct, Fin.sum_univ_six, Matrix.mul_apply] at h2
  norm_num at h2

end Arboris
