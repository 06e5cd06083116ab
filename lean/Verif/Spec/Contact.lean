import Verif.Spec.Rigid

/-!
# Specification vocabulary: distances, contact frames

Nothing here refers to the model of the code.
-/

namespace Arboris.Spec
open Matrix

/-- Euclidean distance of two points -/
noncomputable def dist3 (x y : Vec3) : ℝ := √((x 0 - y 0) ^ 2 + (x 1 - y 1) ^ 2 + (x 2 - y 2) ^ 2)

/-- the closed ball -/
def ball (c : Vec3) (r : ℝ) : Set Vec3 := {x | dist3 c x ≤ r}

/-- coordinates in the ground frame of the point of local coordinates `c` in a frame of pose `H` -/
def toGround (H : Mat4) (c : Vec3) : Vec3 := fun i =>
  H i.castSucc 0 * c 0 + H i.castSucc 1 * c 1 + H i.castSucc 2 * c 2 + H i.castSucc 3

/-- components in the ground frame of the vector of local components `v` in a frame of pose `H` -/
def dirToGround (H : Mat4) (v : Vec3) : Vec3 := fun i =>
  H i.castSucc 0 * v 0 + H i.castSucc 1 * v 1 + H i.castSucc 2 * v 2

/-- the origin of a frame -/
def origin (H : Mat4) : Vec3 := fun i => H i.castSucc 3

/-- the z axis of a frame -/
def zAxis (H : Mat4) : Vec3 := fun i => H i.castSucc 2

/-- two frames have the same axes -/
def SameAxes (H K : Mat4) : Prop := ∀ i j : Fin 3, H i.castSucc j.castSucc = K i.castSucc j.castSucc

/-- the solid box of half extents `h` centred on the frame `H` -/
def box (H : Mat4) (h : Vec3) : Set Vec3 := {x | ∃ y : Vec3, (∀ k, |y k| ≤ h k) ∧ x = toGround H y}

/-- the points of the box that are on none of its faces -/
def openBox (H : Mat4) (h : Vec3) : Set Vec3 := {x | ∃ y : Vec3, (∀ k, |y k| < h k) ∧ x = toGround H y}

/-- the plane `a x + b y + c z + d = 0` drawn in the frame `H`, `(a, b, c) = n` (documentation of `shapes.Plane`) -/
def plane (H : Mat4) (n : Vec3) (d : ℝ) : Set Vec3 := {x | ∃ y : Vec3, n ⬝ᵥ y + d = 0 ∧ x = toGround H y}

end Arboris.Spec
