import Verif.Model.Graph
import Verif.Spec.Tree

/-!
# Specification vocabulary: a world is a kinematic tree; histories of API calls
-/

namespace Arboris.Spec
open Arboris.Graph

/-- `Unfolds o w b js F`: the joints `js`, hanging below body `b`, together with everything below them, form exactly
the finite tree `F`.  Each link `(f0, j, f1)` of the tree starts at a frame of its parent body, ends at a frame of its
child body, and the child body's `parentjoint` is `j`. -/
inductive Unfolds (o : Objs) (w : World) : ℕ → List ℕ → Forest (FrameRef × ℕ × FrameRef) ℕ → Prop
  | nil (b : ℕ) : Unfolds o w b [] .nil
  | cons {b j : ℕ} {js : List ℕ} {f0 f1 : FrameRef} {ch sib : Forest (FrameRef × ℕ × FrameRef) ℕ}
      (h0 : (w.joint j).frame0 = some f0) (h1 : (w.joint j).frame1 = some f1)
      (hb : o.bodyOf f0 = b) (hp : (w.body (o.bodyOf f1)).parent = some j)
      (hch : Unfolds o w (o.bodyOf f1) (w.body (o.bodyOf f1)).children ch)
      (hsib : Unfolds o w b js sib) :
      Unfolds o w b (j :: js) (.cons (f0, j, f1) (o.bodyOf f1) ch sib)

/-- the joints of a tree, depth first -/
def joints (F : Forest (FrameRef × ℕ × FrameRef) ℕ) : List ℕ := F.links.map fun l => l.2.1

/-- height of a tree -/
def depth {L B : Type} : Forest L B → ℕ
  | .nil => 0
  | .cons _ _ ch sib => max (depth ch + 1) (depth sib)

/-- The world's structure is the tree `F` rooted at the ground: finite, no body and no joint met twice, and the
ground has no parent. -/
structure IsTree (o : Objs) (w : World) (F : Forest (FrameRef × ℕ × FrameRef) ℕ) : Prop where
  unfolds : Unfolds o w w.ground (w.body w.ground).children F
  root : (w.body w.ground).parent = none
  bodies_nodup : (w.ground :: F.bodies).Nodup
  joints_nodup : (joints F).Nodup

/-- an API call -/
inductive Op
  | addLink (args : List Arg)
  | register (x : Obj)
  | replaceJoint (old : ℕ) (args : List Arg)
  | init

/-- effect of an API call (`lim`: Python's recursion limit) -/
def Op.run (o : Objs) (lim : ℕ) (w : World) : Op → World × Except PyErr Unit
  | .addLink args => Graph.addLink o w args
  | .register x => Graph.register o w x
  | .replaceJoint old args => Graph.replaceJoint o w lim old args
  | .init => Graph.init o w lim

/-- the state after a sequence of API calls, whatever exceptions they raise -/
def runAll (o : Objs) (lim : ℕ) (w : World) (ops : List Op) : World :=
  ops.foldl (fun w op => (op.run o lim w).1) w

/-- the arguments in third position (`frame1`) of an `add_link` argument list -/
def frame1s : List Arg → List Arg
  | _ :: _ :: c :: rest => c :: frame1s rest
  | _ => []

/-- What the user has to respect: the ground is never given as the child (`frame1`) of a link, and a
`replace_joint` call that gets past its own checks goes through. -/
def Allowed (o : Objs) (lim : ℕ) (w : World) : Op → Prop
  | .addLink args => ∀ f, .frame f ∈ frame1s args → o.bodyOf f ≠ w.ground
  | .register _ => True
  | .replaceJoint old args => (∀ f, .frame f ∈ frame1s args → o.bodyOf f ≠ w.ground) ∧
      ((Op.run o lim w (.replaceJoint old args)).2 = .ok () ∨ (Op.run o lim w (.replaceJoint old args)).1 = w)
  | .init => True

/-- every call of a history respects `Allowed` in the state where it is made -/
def AllowedHistory (o : Objs) (lim : ℕ) : World → List Op → Prop
  | _, [] => True
  | w, op :: ops => Allowed o lim w op ∧ AllowedHistory o lim (op.run o lim w).1 ops

end Arboris.Spec
