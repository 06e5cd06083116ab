import Verif.Spec.Build
import Verif.Model.Urdf

/-!
# Specification vocabulary: URDF models
-/

namespace Arboris.Spec
open Matrix Graph Build Urdf

noncomputable section

/-- rotation of angle `q` about the unit vector `a` (Rodrigues) -/
def axisRotation (a : Vec3) (q : ℝ) : Mat3 := 1 + Real.sin q • skew a + (1 - Real.cos q) • (skew a * skew a)

/-- what a URDF joint of this type does when its position is `q`: it turns about the axis, it slides along it, or it
does nothing -/
def motion : UType → Vec3 → ℝ → Mat4
  | .revolute, a, q => mkH (axisRotation a q) 0
  | .prismatic, a, q => mkH 1 (q • a)
  | _, _, _ => 1

/-- `H` is the pose described by an `<origin>`: translation `xyz`, and rotation by roll, pitch, yaw about the fixed
axes x, y, z, in this order; without `<origin>`, the identity -/
def IsOrigin : Option UPose → Mat4 → Prop
  | none, H => H = 1
  | some p, H => ∃ x y z r pi ya, p.position = some [x, y, z] ∧ p.rotation = some [r, pi, ya] ∧
      H = mkH (!![Real.cos ya, -Real.sin ya, 0; Real.sin ya, Real.cos ya, 0; 0, 0, 1] *
        !![Real.cos pi, 0, Real.sin pi; 0, 1, 0; -Real.sin pi, 0, Real.cos pi] *
        !![1, 0, 0; 0, Real.cos r, -Real.sin r; 0, Real.sin r, Real.cos r]) ![x, y, z]

/-- The axis actually used: the given one, or the coordinate axis it is equal to within the tolerances of
`numpy.allclose`. -/
def AxisUsed (a a' : Vec3) : Prop :=
  a' = a ∨ ((a' = ![1, 0, 0] ∨ a' = ![0, 1, 0] ∨ a' = ![0, 0, 1]) ∧ ∀ i, |a i - a' i| ≤ 1e-8 + 1e-5 * |a' i|)

/-- links and joints of a URDF model: `j` goes from its parent to its child -/
def Robot.Edge (r : Robot) (p j c : String) : Prop := ∃ u, (j, u) ∈ r.joints ∧ u.parent = p ∧ u.child = c

/-- a way down the model: the joints, each with the link it leads to -/
inductive Robot.Way (r : Robot) : String → List (String × String) → String → Prop
  | nil (l : String) : Robot.Way r l [] l
  | cons {p j c t : String} {w : List (String × String)} (h : Robot.Edge r p j c) (hw : Robot.Way r c w t) : Robot.Way r p ((j, c) :: w) t

/-- The tables of the model agree with its joints, and no link is the child of two joints. -/
structure Robot.Consistent (r : Robot) : Prop where
  links : (r.links.map Prod.fst).Nodup
  joints : (r.joints.map Prod.fst).Nodup
  parent : ∀ p j c, r.parent_map.lookup c = some (j, p) ↔ Robot.Edge r p j c
  child : ∀ p j c, (∃ l, r.child_map.lookup p = some l ∧ (j, c) ∈ l) ↔ Robot.Edge r p j c

/-- What `get_chain` should list, from the way down from the root: the links and the joints in turn, without what was
not asked for (`joints`, `links`; the fixed joints when `fixed` is false) -/
def chainOf (isFixed : String → Prop) [DecidablePred isFixed] (joints links fixed : Bool) (root : String) (w : List (String × String)) : List String :=
  (if links then [root] else []) ++
    w.flatMap fun x => (if joints = true ∧ (fixed = true ∨ ¬ isFixed x.1) then [x.1] else []) ++ if links then [x.2] else []

end
end Arboris.Spec
