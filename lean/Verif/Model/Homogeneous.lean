import Verif.Basic
import Mathlib.Analysis.SpecialFunctions.Trigonometric.Basic
import Mathlib.Analysis.SpecialFunctions.Complex.Arg

/-!
# Model of `arboris/homogeneousmatrix.py` and `arboris/adjointmatrix.py`

Literal transcription; `assert` is a guard returning `Except.error .assertion`.  For each guarded function
`f` the unguarded body is `fBody`.
-/

namespace Arboris
open Matrix Real

noncomputable section

/-- the module constant `tol` (homogeneousmatrix.py:11) -/
def tol : ℝ := 1e-9

/-- homogeneousmatrix.py:13-33 -/
def transl (t_x t_y t_z : ℝ) : Mat4 :=
  !![1, 0, 0, t_x;
     0, 1, 0, t_y;
     0, 0, 1, t_z;
     0, 0, 0, 1]

/-- homogeneousmatrix.py:36-66 -/
def rotzyx (angle_z angle_y angle_x : ℝ) : Mat4 :=
  let sz := sin angle_z
  let cz := cos angle_z
  let sy := sin angle_y
  let cy := cos angle_y
  let sx := sin angle_x
  let cx := cos angle_x
  !![cz*cy, cz*sy*sx-sz*cx, cz*sy*cx+sz*sx, 0;
     sz*cy, sz*sy*sx+cz*cx, sz*sy*cx-cz*sx, 0;
     -sy  , cy*sx         , cy*cx         , 0;
     0    , 0             , 0             , 1]

/-- homogeneousmatrix.py:69-96 -/
def rotzy (angle_z angle_y : ℝ) : Mat4 :=
  let sz := sin angle_z
  let cz := cos angle_z
  let sy := sin angle_y
  let cy := cos angle_y
  !![cz*cy, -sz, cz*sy, 0;
     sz*cy, cz, sz*sy, 0;
     -sy  , 0, cy   , 0;
     0    , 0, 0    , 1]

/-- homogeneousmatrix.py:99-126 -/
def rotzx (angle_z angle_x : ℝ) : Mat4 :=
  let sz := sin angle_z
  let cz := cos angle_z
  let sx := sin angle_x
  let cx := cos angle_x
  !![cz, -sz*cx, sz*sx, 0;
     sz, cz*cx, -cz*sx, 0;
     0, sx   , cx   , 0;
     0, 0    , 0    , 1]

/-- homogeneousmatrix.py:129-156 -/
def rotyx (angle_y angle_x : ℝ) : Mat4 :=
  let sy := sin angle_y
  let cy := cos angle_y
  let sx := sin angle_x
  let cx := cos angle_x
  !![cy, sy*sx, sy*cx, 0;
     0, cx   , -sx   , 0;
     -sy, cy*sx, cy*cx, 0;
     0, 0    , 0    , 1]

/-- homogeneousmatrix.py:158-181 -/
def rotx (angle : ℝ) : Mat4 :=
  let ca := cos angle
  let sa := sin angle
  !![1,  0,   0,  0;
     0, ca, -sa,  0;
     0, sa,  ca,  0;
     0,  0,   0,  1]

/-- homogeneousmatrix.py:183-206 -/
def roty (angle : ℝ) : Mat4 :=
  let ca := cos angle
  let sa := sin angle
  !![ca,  0,  sa,  0;
     0,  1,   0,  0;
     -sa,  0,  ca,  0;
     0,  0,   0,  1]

/-- homogeneousmatrix.py:208-231 -/
def rotz (angle : ℝ) : Mat4 :=
  let ca := cos angle
  let sa := sin angle
  !![ca, -sa, 0, 0;
     sa,  ca, 0, 0;
     0,   0, 1, 0;
     0,   0, 0, 1]

/-- homogeneousmatrix.py:266-277.  The shape test is enforced by the type; `det` is exact. -/
def ishomogeneousmatrixTol (H : Mat4) (_tol : ℝ) : Prop :=
  |(rot H).det - 1| ≤ _tol ∧ H 3 0 = 0 ∧ H 3 1 = 0 ∧ H 3 2 = 0 ∧ H 3 3 = 1

/-- homogeneousmatrix.py:266 with the default tolerance. -/
def ishomogeneousmatrix (H : Mat4) : Prop := ishomogeneousmatrixTol H tol

open Classical in
/-- `assert ishomogeneousmatrix(H)` followed by returning `x`. -/
def assertHom {α : Type} (H : Mat4) (x : α) : Except PyErr α :=
  if ishomogeneousmatrix H then .ok x else .error .assertion

/-- homogeneousmatrix.py:295 -/
def pdotBody (H : Mat4) (point : Vec3) : Vec3 := rot H *ᵥ point + pos H
/-- homogeneousmatrix.py:279-295 -/
def pdot (H : Mat4) (point : Vec3) : Except PyErr Vec3 := assertHom H (pdotBody H point)

/-- homogeneousmatrix.py:313 -/
def vdotBody (H : Mat4) (vec : Vec3) : Vec3 := rot H *ᵥ vec
/-- homogeneousmatrix.py:297-313 -/
def vdot (H : Mat4) (vec : Vec3) : Except PyErr Vec3 := assertHom H (vdotBody H vec)

/-- homogeneousmatrix.py:338-345 -/
def invBody (H : Mat4) : Mat4 :=
  let R := rot H
  let p := pos H
  mkH Rᵀ (-(Rᵀ *ᵥ p))
/-- homogeneousmatrix.py:315-345 -/
def inv (H : Mat4) : Except PyErr Mat4 := assertHom H (invBody H)

/-- homogeneousmatrix.py:378-391 -/
def adjointBody (H : Mat4) : Mat6 :=
  let R := rot H
  let p := pos H
  let pxR := skew p * R
  blk R 0 pxR R
/-- homogeneousmatrix.py:347-391 -/
def adjoint (H : Mat4) : Except PyErr Mat6 := assertHom H (adjointBody H)

/-- homogeneousmatrix.py:394-397 -/
def iadjoint (H : Mat4) : Except PyErr Mat6 := do adjoint (← inv H)
/-- homogeneousmatrix.py:394-397 without the assertions -/
def iadjointBody (H : Mat4) : Mat6 := adjointBody (invBody H)

/-- twistvector.py:10-36 -/
def adjacency (t : Vec6) : Mat6 :=
  !![   0, -t 2,  t 1,     0,    0,    0;
      t 2,    0, -t 0,     0,    0,    0;
     -t 1,  t 0,    0,     0,    0,    0;
        0, -t 5,  t 4,     0, -t 2,  t 1;
      t 5,    0, -t 3,   t 2,    0, -t 0;
     -t 4,  t 3,    0,  -t 1,  t 0,    0]

/-- homogeneousmatrix.py:400-421 -/
def dAdjoint (Ad : Mat6) (T : Vec6) : Mat6 := Ad * adjacency T

/-- numpy `arctan2(y, x)`: the argument of the complex number `x + iy`, in `(-π, π]`, `0` at the origin.
(IEEE signed zeros are not modelled.) -/
def arctan2 (y x : ℝ) : ℝ := Complex.arg ⟨x, y⟩

open Classical in
/-- homogeneousmatrix.py:442-453 -/
def rotzyx_anglesBody (H : Mat4) : ℝ × ℝ × ℝ :=
  if |H 0 0| < tol ∧ |H 1 0| < tol then
    let az := 0
    let ay := arctan2 (-H 2 0) (H 0 0)
    let ax := arctan2 (-H 1 2) (H 1 1)
    (az, ay, ax)
  else
    let az := arctan2 (H 1 0) (H 0 0)
    let sz := sin az
    let cz := cos az
    let ay := arctan2 (-H 2 0) (cz * H 0 0 + sz * H 1 0)
    let ax := arctan2 (sz * H 0 2 - cz * H 1 2) (cz * H 1 1 - sz * H 0 1)
    (az, ay, ax)
/-- homogeneousmatrix.py:424-453 -/
def rotzyx_angles (H : Mat4) : Except PyErr (ℝ × ℝ × ℝ) := assertHom H (rotzyx_anglesBody H)

/-- Euclidean norm of a 3-vector (`numpy.linalg.norm`). -/
def norm3 (v : Vec3) : ℝ := √(v 0 ^ 2 + v 1 ^ 2 + v 2 ^ 2)

/-- `idx` is a possible answer of `numpy.argsort(numpy.absolute(z))`: an ordering of the three indices by
non-decreasing absolute value; ties may be broken either way (the default sort is not stable). -/
def IsArgsortAbs (z : Vec3) (idx : Equiv.Perm (Fin 3)) : Prop :=
  |z (idx 0)| ≤ |z (idx 1)| ∧ |z (idx 1)| ≤ |z (idx 2)|

/-- homogeneousmatrix.py:251-264, for the ordering `idx` computed at line 257. -/
def zalignedBody (vec : Vec3) (idx : Equiv.Perm (Fin 3)) : Mat4 :=
  let z := vec
  let x0 : Vec3 := Function.update (Function.update (Function.update (fun i => if i = 0 then 1 else 0)
      (idx 0) 0) (idx 1) (z (idx 2))) (idx 2) (-z (idx 1))
  let x : Vec3 := (norm3 x0)⁻¹ • x0
  let y : Vec3 := z ⨯₃ x
  !![x 0, y 0, z 0, 0;
     x 1, y 1, z 1, 0;
     x 2, y 2, z 2, 0;
     0, 0, 0, 1]

open Classical in
/-- homogeneousmatrix.py:233-264 -/
def zaligned (vec : Vec3) (idx : Equiv.Perm (Fin 3)) : Except PyErr Mat4 :=
  if |norm3 vec - 1| < 1e-9 then .ok (zalignedBody vec idx) else .error .assertion

/-! ### adjointmatrix.py -/

/-- adjointmatrix.py:24-29 (determinant compared exactly, in exact arithmetic) -/
def isadjointmatrix (Ad : Mat6) : Prop :=
  (b11 Ad).det = 1 ∧ b11 Ad = b22 Ad ∧ b12 Ad = 0

/-- adjointmatrix.py:32-41 -/
def adjInv (Ad : Mat6) : Mat6 :=
  let R := (b11 Ad)ᵀ
  let pxR := (b21 Ad)ᵀ
  blk R 0 pxR R

end
end Arboris
