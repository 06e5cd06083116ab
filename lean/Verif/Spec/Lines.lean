import Verif.Model.Lines
import Verif.Spec.Drawer
import Verif.Spec.Contact

/-! # Specification: the lines of a drawing -/

namespace Arboris.Spec
open Visu Graph

/-- the points between `a` and `b` -/
def between (a b : Vec3) : Set Vec3 := {x | ∃ t : ℝ, 0 ≤ t ∧ t ≤ 1 ∧ x = (1 - t) • a + t • b}

/-- what is seen of the line mesh (from the origin to the point 1 of the z axis) drawn in a frame of matrix `H` -/
def lineSeen (H : Mat4) : Set Vec3 := {x | ∃ t : ℝ, 0 ≤ t ∧ t ≤ 1 ∧ x = toGround H ![0, 0, t]}

/-- the subframe `f` is a fixed frame of the world, away from the origin of its body -/
structure Off (o : Objs) (g : Geo) (w : World) (F : Forest (FrameRef × ℕ × FrameRef) ℕ) (f : ℕ) : Prop where
  known : f ∈ w.subframes
  body : o.subBody f ∈ w.ground :: F.bodies
  fixed : g.moving f = false
  away : origin (g.bpose f) ≠ 0

end Arboris.Spec
