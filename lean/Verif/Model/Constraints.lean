import Verif.Model.Step
import Verif.Model.Mass

/-!
# Model of `arboris/constraints.py`: `JointLimits`, `BallAndSocketConstraint`, `SoftFingerContact`

`numpy.linalg.pinv` is a parameter `pinv`; `numpy.linalg.solve` is multiplication by Mathlib's inverse (its
`LinAlgError` on a singular matrix is not modelled).  Attributes read from joints and frames (`gpos`, `pose`,
`jacobian`) are part of the constraint's state, as they stand during one call of `update_constraints`.
-/

namespace Arboris
open Matrix

noncomputable section

/-! ### JointLimits -/

/-- `JointLimits` object: the constants `_min`, `_max`, `_proximity` and `_jacobian`'s first column (constraints.py:37-56). -/
structure JLParams (k : ℕ) where
  min : Fin k → ℝ
  max : Fin k → ℝ
  proximity : Fin k → ℝ
  start : ℕ

/-- Variable part: the joint's current `gpos`, `_pos0`, `_force`, `_is_enabled`. -/
structure JLState (k : ℕ) where
  enabled : Bool
  gpos : Fin k → ℝ
  pos0 : Fin k → ℝ
  force : Fin k → ℝ

open Classical in
/-- `JointLimits.solve`, constraints.py:74-93: new force and returned `dforce`. -/
def jlSolve {k : ℕ} (pinv : Matrix (Fin k) (Fin k) ℝ → Matrix (Fin k) (Fin k) ℝ) (mn mx pos0 force vel : Fin k → ℝ)
    (Y : Matrix (Fin k) (Fin k) ℝ) (dt : ℝ) : (Fin k → ℝ) × (Fin k → ℝ) :=
  let pred := pos0 + dt • (vel - Y *ᵥ force)
  let prev_force := force
  if ∃ i, pred i ≤ mn i then
    let f := pinv Y *ᵥ (dt⁻¹ • (mn - pred))
    let f := fun i => Max.max (f i) 0
    (f, f - prev_force)
  else if ∃ i, mx i ≤ pred i then
    let f := pinv Y *ᵥ (dt⁻¹ • (mx - pred))
    let f := fun i => Min.min (f i) 0
    (f, f - prev_force)
  else (0, -force)

open Classical in
/-- The class `JointLimits`, constraints.py:19-93, on a joint of `k` dofs in a world of `n`. -/
def jointLimits (n : ℕ) {k : ℕ} (pinv : Matrix (Fin k) (Fin k) ℝ → Matrix (Fin k) (Fin k) ℝ) (p : JLParams k) :
    ConClass n where
  St := JLState k
  ndol := k
  enabled s := s.enabled
  update s _ := { s with pos0 := s.gpos, force := 0 }
  active s := decide ((∃ i, s.pos0 i - p.min i < p.proximity i) ∨ ∃ i, p.max i - s.pos0 i < p.proximity i)
  jac _ := Matrix.of fun i j => if j.val = p.start + i.val then 1 else 0
  force s := s.force
  solve s vel Y dt :=
    let r := jlSolve pinv p.min p.max s.pos0 s.force vel Y dt
    ({ s with force := r.1 }, r.2)

/-! ### BallAndSocketConstraint -/

/-- rows `3:6` of a 6-row matrix -/
def rows36 {n : ℕ} (A : Matrix (Fin 6) (Fin n) ℝ) : Matrix (Fin 3) (Fin n) ℝ :=
  Matrix.of fun i j => A (e6 (Sum.inr i)) j

/-- the frames' `pose` and `jacobian`, `_pos0`, `_force`, `_is_enabled` -/
structure BSState (n : ℕ) where
  enabled : Bool
  pose0 : Mat4
  pose1 : Mat4
  jac0 : Matrix (Fin 6) (Fin n) ℝ
  jac1 : Matrix (Fin 6) (Fin n) ℝ
  pos0 : Vec3
  force : Vec3

/-- `H_01`, constraints.py:185, 193 (the assertion of `Hg.inv` is not repeated here) -/
def relFrame (pose0 pose1 : Mat4) : Mat4 := invBody pose0 * pose1

/-- `BallAndSocketConstraint.jacobian`, constraints.py:191-195 -/
def bsJac {n : ℕ} (pose0 pose1 : Mat4) (jac0 jac1 : Matrix (Fin 6) (Fin n) ℝ) : Matrix (Fin 3) (Fin n) ℝ :=
  rows36 (adjointBody (relFrame pose0 pose1)) * jac1 - rows36 jac0

/-- The class `BallAndSocketConstraint`, constraints.py:95-241 -/
def ballAndSocket (n : ℕ) (pinv : Mat3 → Mat3) : ConClass n where
  St := BSState n
  ndol := 3
  enabled s := s.enabled
  update s _ := { s with pos0 := pos (relFrame s.pose0 s.pose1) }
  active _ := true
  jac s := bsJac s.pose0 s.pose1 s.jac0 s.jac1
  force s := s.force
  solve s vel Y dt :=
    let dforce : Vec3 := -(pinv Y *ᵥ (vel + dt⁻¹ • s.pos0))
    ({ s with force := s.force + dforce }, dforce)

/-! ### SoftFingerContact -/

abbrev Vec4 := Fin 4 → ℝ

/-- first three components -/
def tang (f : Vec4) : Vec3 := ![f 0, f 1, f 2]

/-- the matrix `B`, constraints.py:811-823. `dot` of two one-dimensional arrays is their scalar product (`.T` of a
one-dimensional array is itself), so `dot(Y_c, Y_c.T)`, `dot(beta, b.T)`, … are numbers, which numpy broadcasts. -/
def softB (eps : Vec3) (mu : ℝ) (Y : Matrix (Fin 4) (Fin 4) ℝ) (alpha : Vec4) : Mat6 :=
  let Y_c : Vec3 := ![Y 0 3, Y 1 3, Y 2 3]
  let y_n := Y 3 3
  let Y_t : Mat3 := !![Y 0 0, Y 0 1, Y 0 2; Y 1 0, Y 1 1, Y 1 2; Y 2 0, Y 2 1, Y 2 2]
  let beta : Vec3 := tang alpha - (alpha 3 / y_n) • Y_c
  let a := mu / y_n * alpha 3
  let b : Vec3 := (mu / y_n) • Y_c
  let E : Mat3 := Matrix.diagonal fun i => eps i ^ 2
  let ones : Mat3 := Matrix.of fun _ _ => 1
  let Y_that : Mat3 := Y_t - (Y_c ⬝ᵥ Y_c / y_n) • ones
  blk (E * (Y_that + (2 / a * (beta ⬝ᵥ b)) • ones)) (-((beta ⬝ᵥ beta / a ^ 2) • E))
    ((b ⬝ᵥ b) • E - 1) (E * Y_that)

open Classical in
/-- `s`, constraints.py:827-832: the smallest real non-positive eigenvalue of `B`, cut at -1e10. -/
def softS (B : Mat6) : ℝ :=
  if ∃ l, IsEigval B l ∧ l ≤ 0 then max (sInf {l | IsEigval B l ∧ l ≤ 0}) (-1e10) else -1e10

open Classical in
/-- `SoftFingerContact.solve`, constraints.py:786-843: new force and returned `dforce`.  Simplified: a total function; where numpy
raises (a division by zero in `B`, a singular `A`) it goes on with Lean's `x / 0 = 0` and `A⁻¹ = 0`.  `softSolveE`
(Model/SoftFinger.lean) has the exceptions, and C122 says when they are raised. -/
def softSolve (pinv : Matrix (Fin 4) (Fin 4) ℝ → Matrix (Fin 4) (Fin 4) ℝ) (eps : Vec3) (mu sdist : ℝ)
    (force vel : Vec4) (Y : Matrix (Fin 4) (Fin 4) ℝ) (dt : ℝ) : Vec4 × Vec4 :=
  let vel_no_force := vel - Y *ᵥ force
  if 0 < sdist + dt * vel_no_force 3 then
    (0, -force)
  else
    let zero_tan_vel := vel + Pi.single 3 (sdist / dt)
    let dforce := (-(pinv Y)) *ᵥ zero_tan_vel
    let f := force + dforce
    if (f 0 / eps 0) ^ 2 + (f 1 / eps 1) ^ 2 + (f 2 / eps 2) ^ 2 ≤ (f 3 * mu) ^ 2 then
      (f, dforce)
    else
      let alpha := vel - Y *ᵥ force + Pi.single 3 (sdist / dt)
      let s := softS (softB eps mu Y alpha)
      let A := Y - Matrix.diagonal ![s * (eps 0)⁻¹ ^ 2, s * (eps 1)⁻¹ ^ 2, s * (eps 2)⁻¹ ^ 2, 0]
      let f' := A⁻¹ *ᵥ (-alpha)
      (f', f' - force)

/-- what `PointContact.update` leaves for `solve`: frames' poses and jacobians, `_sdist`, `_is_active`, `_force` -/
structure SFState (n : ℕ) where
  enabled : Bool
  isActive : Bool
  pose0 : Mat4
  pose1 : Mat4
  jac0 : Matrix (Fin 6) (Fin n) ℝ
  jac1 : Matrix (Fin 6) (Fin n) ℝ
  sdist : ℝ
  force : Vec4

/-- rows `2:6` of a 6-row matrix -/
def rows26 {n : ℕ} (A : Matrix (Fin 6) (Fin n) ℝ) : Matrix (Fin 4) (Fin n) ℝ :=
  Matrix.of fun i j => A ((![2, 3, 4, 5] : Fin 4 → Fin 6) i) j

/-- `SoftFingerContact.jacobian`, constraints.py:435-439 -/
def sfJac {n : ℕ} (pose0 pose1 : Mat4) (jac0 jac1 : Matrix (Fin 6) (Fin n) ℝ) : Matrix (Fin 4) (Fin n) ℝ :=
  rows26 (adjointBody (relFrame pose0 pose1)) * jac1 - rows26 jac0

/-- The class `SoftFingerContact`, constraints.py:305-843; `update` (the collision detection of `PointContact.update`,
modelled in `Verif.Model.Collisions`) is a parameter that resets the force. -/
def softFinger (n : ℕ) (pinv : Matrix (Fin 4) (Fin 4) ℝ → Matrix (Fin 4) (Fin 4) ℝ) (eps : Vec3) (mu : ℝ)
    (update : SFState n → ℝ → SFState n) : ConClass n where
  St := SFState n
  ndol := 4
  enabled s := s.enabled
  update s dt := { update s dt with enabled := s.enabled, force := 0 }
  active s := s.isActive
  jac s := sfJac s.pose0 s.pose1 s.jac0 s.jac1
  force s := s.force
  solve s vel Y dt :=
    let r := softSolve pinv eps mu s.sdist s.force vel Y dt
    ({ s with force := r.1 }, r.2)

end
end Arboris
