import Verif.Model.Visu
import Verif.Model.Tree
import Verif.Spec.Graph
import Verif.Spec.Rigid
import Verif.Spec.Tree

/-! # Specification of the drawing of a world -/

namespace Arboris.Spec
open Log Visu Graph

/-- composing the transforms from the root of the scene to node `i` gives `H` -/
inductive DrawnAt (nodes : List Node) : ℕ → Mat4 → Prop
  | root {i : ℕ} {pose : Mat4} : nodes[i]? = some ⟨none, pose⟩ → DrawnAt nodes i pose
  | child {i p : ℕ} {pose H : Mat4} : nodes[i]? = some ⟨some p, pose⟩ → DrawnAt nodes p H → DrawnAt nodes i (H * pose)

/-- pose of a frame in its body (`Body.bpose` is the identity) -/
def bposeOf (g : Geo) : FrameRef → Mat4
  | .body _ => 1
  | .sub f => g.bpose f

/-- pose of a frame: core.py:1124-1129 and 1227-1231 -/
def poseOf (o : Objs) (g : Geo) (f : FrameRef) : Mat4 := g.bodyPose (o.bodyOf f) * bposeOf g f

/-- the kinematic data of the links agree with what the drawer reads -/
structure GeoOk (o : Objs) (g : Geo) (ground : ℕ) (F : Forest (FrameRef × ℕ × FrameRef) ℕ) (lk : FrameRef × ℕ × FrameRef → Link) : Prop where
  /-- the attachments and the joint poses of the world model are those the drawer reads -/
  frame0 : ∀ l ∈ F.links, (lk l).bpose0 = bposeOf g l.1
  frame1 : ∀ l ∈ F.links, (lk l).bpose1 = bposeOf g l.2.2
  joint : ∀ l ∈ F.links, (lk l).joint.pose = g.jpose l.2.1
  /-- the poses of the bodies are up to date -/
  pose : ∀ x ∈ worldGeometric (F.map lk id), g.bodyPose x.1 = x.2
  ground : g.bodyPose ground = 1
  /-- the `bpose`s of the lower ends of the links are rigid -/
  rigid : ∀ l ∈ F.links, IsRigid (bposeOf g l.2.2)
  /-- links are not attached to moving subframes (a moving end raises `ValueError`) -/
  fixed : ∀ l ∈ F.links, (∀ x, l.1 = .sub x → g.moving x = false) ∧ ∀ x, l.2.2 = .sub x → g.moving x = false

end Arboris.Spec
