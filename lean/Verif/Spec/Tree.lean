import Verif.Spec.Rigid

/-!
# Specification vocabulary: kinematic trees

A kinematic tree hanging from the ground is a forest: each node is a body `b` together with the link `l` (joint and
attachments) that hangs it below its parent; `children` are the links below that body, `siblings` the following
links of the same parent, in the order of `childrenjoints`.
-/

namespace Arboris.Spec

inductive Forest (L B : Type) : Type
  | nil : Forest L B
  | cons (l : L) (b : B) (children siblings : Forest L B) : Forest L B

namespace Forest
variable {L B L' B' : Type}

/-- Every body of the forest, depth first, with the list of links met on the way from the ground to it. -/
def paths : Forest L B → List (B × List L)
  | .nil => []
  | .cons l b ch sib => (b, [l]) :: (ch.paths.map fun x => (x.1, l :: x.2)) ++ sib.paths

/-- relabelling -/
def map (f : L → L') (g : B → B') : Forest L B → Forest L' B'
  | .nil => .nil
  | .cons l b ch sib => .cons (f l) (g b) (ch.map f g) (sib.map f g)

/-- all links, depth first -/
def links : Forest L B → List L
  | .nil => []
  | .cons l _ ch sib => l :: ch.links ++ sib.links

/-- all bodies, depth first -/
def bodies : Forest L B → List B
  | .nil => []
  | .cons _ b ch sib => b :: ch.bodies ++ sib.bodies

end Forest
end Arboris.Spec
