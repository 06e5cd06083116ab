import Verif.Spec.Graph

/-!
# Specification vocabulary: hanging new bodies on a tree
-/

namespace Arboris.Spec
open Arboris.Graph

namespace Forest
variable {L B : Type}

/-- one more link, after the others -/
def snoc (F : Forest L B) (l : L) (c : B) : Forest L B :=
  match F with
  | .nil => .cons l c .nil .nil
  | .cons l' b' ch sib => .cons l' b' ch (sib.snoc l c)

/-- a new leaf `c`, hung by link `l` below the body `b` of the forest, after the other children of `b` -/
def hang [DecidableEq B] (F : Forest L B) (b : B) (l : L) (c : B) : Forest L B :=
  match F with
  | .nil => .nil
  | .cons l' b' ch sib => .cons l' b' (if b' = b then (ch.hang b l c).snoc l c else ch.hang b l c) (sib.hang b l c)

/-- the trees of `F`, then those of `G` -/
def append (F G : Forest L B) : Forest L B :=
  match F with
  | .nil => G
  | .cons l b ch sib => .cons l b ch (sib.append G)

/-- a chain: each body is hung below the preceding one -/
def chain : List (L × B) → Forest L B
  | [] => .nil
  | x :: xs => .cons x.1 x.2 (chain xs) .nil

end Forest

/-- a link, hung at its place in a tree rooted at `root` -/
def graft (o : Objs) (root : ℕ) (F : Forest (FrameRef × ℕ × FrameRef) ℕ) (l : FrameRef × ℕ × FrameRef) :
    Forest (FrameRef × ℕ × FrameRef) ℕ :=
  if o.bodyOf l.1 = root then F.snoc l (o.bodyOf l.2.2) else F.hang (o.bodyOf l.1) l (o.bodyOf l.2.2)

/-- a body that has not been used yet -/
def FreshBody (w : World) (b : ℕ) : Prop := b ≠ w.ground ∧ (w.body b).parent = none ∧ (w.body b).children = []
/-- a joint that has not been used yet -/
def FreshJoint (w : World) (j : ℕ) : Prop := (w.joint j).frame0 = none ∧ (w.joint j).frame1 = none

end Arboris.Spec
