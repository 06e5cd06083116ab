import Verif.Spec.Collada
import Verif.Spec.Contact

/-! # Specification: where a shape is, and what a viewer shows of it -/

namespace Arboris.Spec
open Visu Build

/-- the points of the four meshes of `simple_shapes.dae`: the unit ball, the cube of half size 1, the cylinder of radius 1
and length 1 along z, the square of half size 1 in the plane z = 0 -/
def meshSet : Mesh → Set Vec3
  | .sphere => {y | y 0 ^ 2 + y 1 ^ 2 + y 2 ^ 2 ≤ 1}
  | .box => {y | ∀ k, |y k| ≤ 1}
  | .cylinder => {y | y 0 ^ 2 + y 1 ^ 2 ≤ 1 ∧ |y 2| ≤ 1 / 2}
  | .plane => {y | |y 0| ≤ 1 ∧ |y 1| ≤ 1 ∧ y 2 = 0}

/-- what is seen of the mesh `m` drawn in a frame of matrix `H` -/
def seen (H : Mat4) (m : Mesh) : Set Vec3 := {x | ∃ y ∈ meshSet m, x = toGround H y}

/-- the solid cylinder of length `l` and radius `r` along the z axis of the frame `H`, centred -/
def cylinder (H : Mat4) (l r : ℝ) : Set Vec3 := {x | ∃ y : Vec3, y 0 ^ 2 + y 1 ^ 2 ≤ r ^ 2 ∧ |y 2| ≤ l / 2 ∧ x = toGround H y}

/-- a shape that `shapes.py` means: radii and extents are not negative, the normal of a plane is a unit vector -/
def Sensible : ShapeGeo → Prop
  | .point => True
  | .sphere r => 0 ≤ r
  | .box he => ∀ k, 0 ≤ he k
  | .cylinder l r => 0 ≤ l ∧ 0 ≤ r
  | .plane c => c 0 ^ 2 + c 1 ^ 2 + c 2 ^ 2 = 1

/-- `X` is the image of the shape `s` attached to a frame of pose `P`: the solid itself, a small ball for a point, and for
a plane a piece of the plane `a x + b y + c z = d` of the collision solvers (C51: not the documented one), which contains all
its points near the foot of the normal -/
def Draws (op : Opts) (P : Mat4) : ShapeGeo → Set Vec3 → Prop
  | .point, X => X = ball (origin P) op.pointRadius
  | .sphere r, X => X = ball (origin P) r
  | .box he, X => X = box P he
  | .cylinder l r, X => X = cylinder P l r
  | .plane c, X => X ⊆ plane P ![c 0, c 1, c 2] (-c 3) ∧
      ∀ x ∈ plane P ![c 0, c 1, c 2] (-c 3), dist3 (toGround P (c 3 • ![c 0, c 1, c 2])) x ≤ min op.planeHalf.1 op.planeHalf.2 → x ∈ X

end Arboris.Spec
