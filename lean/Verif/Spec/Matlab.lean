import Verif.Model.Matlab
import Verif.Spec.Build

/-!
# Specification vocabulary: robots written for, and read back from, Matlab
-/

namespace Arboris.Spec
open Graph Build Matlab

noncomputable section

/-- the links of a tree, depth first: the body above, the link, the body below; `p` is the body the tree hangs from -/
def linksBelow (p : ℕ) : Forest (FrameRef × ℕ × FrameRef) ℕ → List (ℕ × (FrameRef × ℕ × FrameRef) × ℕ)
  | .nil => []
  | .cons l b ch sib => (p, l, b) :: linksBelow b ch ++ linksBelow p sib

/-- the hinge joints, and their name in a file read back -/
def hinge : JAttr → Option Kind
  | .lin .Rx _ _ => some .RxJoint
  | .lin .Ry _ _ => some .RyJoint
  | .lin .Rz _ _ => some .RzJoint
  | _ => none

/-- the class of a joint arboris-matlab knows -/
def kindOf (a : JAttr) : Kind := match a with
  | .free _ _ => .FreeJoint
  | a => (hinge a).getD .FreeJoint

/-- the link `x.2.1` from the body `x.1` to the body `x.2.2`, when the bodies are known as `place` says and `p` is the
ground -/
def asCall (S : RS) (p : ℕ) (place : ℕ → ℕ × ℕ) (x : ℕ × (FrameRef × ℕ × FrameRef) × ℕ) : Call where
  parent := if x.1 = p then none else some (place x.1)
  child := place x.2.2
  kind := kindOf (S.jattr x.2.1.2.1)
  name := (S.jname x.2.1.2.1).getD "None"
  H0 := S.bposeOf x.2.1.1
  H1 := S.bposeOf x.2.1.2.2
  mass := S.mass x.2.2

/-- The joint `root`, below the body `p`, carries a robot for Matlab: below it hangs the tree `ch`; `root` is a free
joint, the others are hinges.  `R` is the whole, `l` the first link, `b` the first body. -/
structure IsMatlabRobot (S : RS) (p : ℕ) (l : FrameRef × ℕ × FrameRef) (b : ℕ) (ch : Forest (FrameRef × ℕ × FrameRef) ℕ) : Prop where
  unfolds : Unfolds S.o S.w p [l.2.1] (.cons l b ch .nil)
  bodies_nodup : (p :: b :: ch.bodies).Nodup
  root : ∃ H T, S.jattr l.2.1 = .free H T
  hinges : ∀ l' ∈ ch.links, (hinge (S.jattr l'.2.1)).isSome

end
end Arboris.Spec
