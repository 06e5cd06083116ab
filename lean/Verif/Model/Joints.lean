import Verif.Model.RigidMotion

/-!
# Model of `arboris/joints.py` (all thirteen joint classes) and of `core.Joint` / `LinearConfigurationSpaceJoint`

A joint object is its class together with `gpos` and `gvel`.  `FreeJoint.integrate` is in `Verif.Model.Twist`.
-/

namespace Arboris
open Matrix Real

noncomputable section

/-- The eleven subclasses of `LinearConfigurationSpaceJoint` in joints.py (lines 110, 159, 202, 242, 282, 360,
383, 407, 436, 461, 486). -/
inductive LinKind
  | RzRyRx | RzRy | RzRx | RyRx | Rz | Ry | Rx | TxTyTz | Tz | Ty | Tx
  deriving DecidableEq, Repr

/-- `ndof` of each class: joints.py:118, 166, 209, 249, 295, 364, 387, 414, 440, 465, 490 -/
def LinKind.ndof : LinKind → ℕ
  | .RzRyRx => 3 | .RzRy => 2 | .RzRx => 2 | .RyRx => 2
  | .Rz => 1 | .Ry => 1 | .Rx => 1 | .TxTyTz => 3 | .Tz => 1 | .Ty => 1 | .Tx => 1

/-- `pose` of each class: joints.py:122-123, 170-171, 213-214, 253-254, 299-312, 368-369, 391-392, 418-419,
444-445, 469-470, 494-495 -/
def LinKind.pose : (k : LinKind) → (Fin k.ndof → ℝ) → Mat4
  | .RzRyRx, q => rotzyx (q (0 : Fin 3)) (q (1 : Fin 3)) (q (2 : Fin 3))
  | .RzRy, q => rotzy (q (0 : Fin 2)) (q (1 : Fin 2))
  | .RzRx, q => rotzx (q (0 : Fin 2)) (q (1 : Fin 2))
  | .RyRx, q => rotyx (q (0 : Fin 2)) (q (1 : Fin 2))
  | .Rz, q => rotz (q (0 : Fin 1))
  | .Ry, q => roty (q (0 : Fin 1))
  | .Rx, q => rotx (q (0 : Fin 1))
  | .TxTyTz, q => transl (q (0 : Fin 3)) (q (1 : Fin 3)) (q (2 : Fin 3))
  | .Tz, q => transl 0 0 (q (0 : Fin 1))
  | .Ty, q => transl 0 (q (0 : Fin 1)) 0
  | .Tx, q => transl (q (0 : Fin 1)) 0 0

/-- `ipose` of each class: the overrides joints.py:315-329, 372-373, 395-396, 448-449, 473-474, 498-499; the other
classes inherit rigidmotion.py:35-39. -/
def LinKind.ipose : (k : LinKind) → (Fin k.ndof → ℝ) → Mat4
  | .RzRyRx, q => invBody (LinKind.pose .RzRyRx q)
  | .RzRy, q => invBody (LinKind.pose .RzRy q)
  | .RzRx, q => invBody (LinKind.pose .RzRx q)
  | .RyRx, q => invBody (LinKind.pose .RyRx q)
  | .Rz, q => rotz (-q (0 : Fin 1))
  | .Ry, q => roty (-q (0 : Fin 1))
  | .Rx, q => rotx (-q (0 : Fin 1))
  | .TxTyTz, q => invBody (LinKind.pose .TxTyTz q)
  | .Tz, q => transl 0 0 (-q (0 : Fin 1))
  | .Ty, q => transl 0 (-q (0 : Fin 1)) 0
  | .Tx, q => transl (-q (0 : Fin 1)) 0 0

/-- `jacobian` of each class: joints.py:126-140, 174-186, 217-226, 257-266, 332-343, 376-377, 399-400, 422-429,
452-453, 477-478, 502-503 -/
def LinKind.jac : (k : LinKind) → (Fin k.ndof → ℝ) → Matrix (Fin 6) (Fin k.ndof) ℝ
  | .RzRyRx, q =>
    let sx := sin (q (2 : Fin 3))
    let cx := cos (q (2 : Fin 3))
    let sy := sin (q (1 : Fin 3))
    let cy := cos (q (1 : Fin 3))
    (!![-sy, 0, 1; sx*cy, cx, 0; cx*cy, -sx, 0; 0, 0, 0; 0, 0, 0; 0, 0, 0] : Matrix (Fin 6) (Fin 3) ℝ)
  | .RzRy, q =>
    let sy := sin (q (1 : Fin 2))
    let cy := cos (q (1 : Fin 2))
    (!![-sy, 0; 0, 1; cy, 0; 0, 0; 0, 0; 0, 0] : Matrix (Fin 6) (Fin 2) ℝ)
  | .RzRx, q =>
    let sx := sin (q (1 : Fin 2))
    let cx := cos (q (1 : Fin 2))
    (!![0, 1; sx, 0; cx, 0; 0, 0; 0, 0; 0, 0] : Matrix (Fin 6) (Fin 2) ℝ)
  | .RyRx, q =>
    let sx := sin (q (1 : Fin 2))
    let cx := cos (q (1 : Fin 2))
    (!![0, 1; cx, 0; -sx, 0; 0, 0; 0, 0; 0, 0] : Matrix (Fin 6) (Fin 2) ℝ)
  | .Rz, _ => (!![0; 0; 1; 0; 0; 0] : Matrix (Fin 6) (Fin 1) ℝ)
  | .Ry, _ => (!![0; 1; 0; 0; 0; 0] : Matrix (Fin 6) (Fin 1) ℝ)
  | .Rx, _ => (!![1; 0; 0; 0; 0; 0] : Matrix (Fin 6) (Fin 1) ℝ)
  | .TxTyTz, _ =>
    (!![0, 0, 0; 0, 0, 0; 0, 0, 0; 1, 0, 0; 0, 1, 0; 0, 0, 1] : Matrix (Fin 6) (Fin 3) ℝ)
  | .Tz, _ => (!![0; 0; 0; 0; 0; 1] : Matrix (Fin 6) (Fin 1) ℝ)
  | .Ty, _ => (!![0; 0; 0; 0; 1; 0] : Matrix (Fin 6) (Fin 1) ℝ)
  | .Tx, _ => (!![0; 0; 0; 1; 0; 0] : Matrix (Fin 6) (Fin 1) ℝ)

/-- `djacobian` of each class: joints.py:143-156, 189-199, 229-239, 269-279, 346-358, 380-381, 403-404, 432-433,
456-457, 481-482, 506-507 -/
def LinKind.djac : (k : LinKind) → (q dq : Fin k.ndof → ℝ) → Matrix (Fin 6) (Fin k.ndof) ℝ
  | .RzRyRx, q, dq =>
    let sx := sin (q (2 : Fin 3))
    let cx := cos (q (2 : Fin 3))
    let sy := sin (q (1 : Fin 3))
    let cy := cos (q (1 : Fin 3))
    let dx := dq (2 : Fin 3)
    let dy := dq (1 : Fin 3)
    (!![-dy*cy, 0, 0;
        dx*cx*cy-dy*sx*sy, -dx*sx, 0;
        -dx*sx*cy-dy*cx*sy, -dx*cx, 0;
        0, 0, 0; 0, 0, 0; 0, 0, 0] : Matrix (Fin 6) (Fin 3) ℝ)
  | .RzRy, q, dq =>
    let sy := sin (q (1 : Fin 2))
    let cy := cos (q (1 : Fin 2))
    let dy := dq (1 : Fin 2)
    (!![-dy*cy, 0; 0, 0; -dy*sy, 0; 0, 0; 0, 0; 0, 0] : Matrix (Fin 6) (Fin 2) ℝ)
  | .RzRx, q, dq =>
    let sx := sin (q (1 : Fin 2))
    let cx := cos (q (1 : Fin 2))
    let dx := dq (1 : Fin 2)
    (!![0, 0; dx*cx, 0; -dx*sx, 0; 0, 0; 0, 0; 0, 0] : Matrix (Fin 6) (Fin 2) ℝ)
  | .RyRx, q, dq =>
    let sx := sin (q (1 : Fin 2))
    let cx := cos (q (1 : Fin 2))
    let dx := dq (1 : Fin 2)
    (!![0, 0; -dx*sx, 0; -dx*cx, 0; 0, 0; 0, 0; 0, 0] : Matrix (Fin 6) (Fin 2) ℝ)
  | .Rz, _, _ => 0
  | .Ry, _, _ => 0
  | .Rx, _, _ => 0
  | .TxTyTz, _, _ => 0
  | .Tz, _, _ => 0
  | .Ty, _, _ => 0
  | .Tx, _, _ => 0

/-- core.py:288-290, `LinearConfigurationSpaceJoint.integrate`: new `gpos` given the new `gvel`. -/
def linIntegrate {k : ℕ} (gpos gvel : Fin k → ℝ) (dt : ℝ) : Fin k → ℝ := gpos + dt • gvel

/-- The attributes of a joint that `Body.update_geometric`, `Body.update_dynamic` and the controllers read
(core.py:186-271): any subclass of `Joint`, including user-defined ones, provides these. -/
structure JointVal (k : ℕ) where
  pose : Mat4
  ipose : Mat4
  twist : Vec6
  jac : Matrix (Fin 6) (Fin k) ℝ
  djac : Matrix (Fin 6) (Fin k) ℝ

namespace JointVal
variable {k : ℕ} (j : JointVal k)
/-- rigidmotion.py:55-57 -/
def iadjoint : Mat6 := adjointBody j.ipose
/-- rigidmotion.py:47-49 -/
def itwist : Vec6 := -(j.iadjoint *ᵥ j.twist)
/-- rigidmotion.py:71-73 with 63-65 -/
def idadjoint : Mat6 := j.iadjoint * adjacency j.itwist
end JointVal

/-- A `LinearConfigurationSpaceJoint` as a joint; `twist` is core.py:244-251. -/
def LinKind.val (k : LinKind) (q dq : Fin k.ndof → ℝ) : JointVal k.ndof where
  pose := k.pose q
  ipose := k.ipose q
  twist := k.jac q *ᵥ dq
  jac := k.jac q
  djac := k.djac q dq

/-- `FreeJoint`, joints.py:12-62 -/
def freeVal (gpos : Mat4) (gvel : Vec6) : JointVal 6 where
  pose := gpos
  ipose := invBody gpos
  twist := gvel
  jac := 1
  djac := 0

/-- `FixedJoint`, joints.py:69-104 -/
def fixedVal : JointVal 0 where
  pose := 1
  ipose := invBody 1
  twist := 0
  jac := 0
  djac := 0

end
end Arboris
