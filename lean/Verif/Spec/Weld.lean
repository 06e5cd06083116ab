import Verif.Spec.Mass
import Verif.Spec.Graft

/-!
# Specification vocabulary: a body welded to its parent

A body `B` hung below a body `A` by a `FixedJoint` does not move in `A`: its pose in `A` is the constant `H` with
`H · frame1.bpose = frame0.bpose`.  `Welds H A B F F'` says that `F'` is the mechanism `F` in which the two bodies have
been replaced by a single one, placed like `A`, and what hung below `B` hangs below it, at the same place in space.
-/

namespace Arboris.Spec
open Matrix

/-- the trees of a forest, hung through `H`: the first attachment of every top link is moved by `H` -/
def rehang {B : Type} (H : Mat4) : Forest Link B → Forest Link B
  | .nil => .nil
  | .cons l b ch sib => .cons ⟨l.k, l.start, l.joint, H * l.bpose0, l.bpose1⟩ b ch (rehang H sib)

/-- a matrix in the twists of a frame with pose `H`, expressed in the twists of the reference frame -/
noncomputable def seenFrom (H : Mat4) (M : Mat6) : Mat6 :=
  (adjointBody (invBody H))ᵀ * M * adjointBody (invBody H)

/-- one body in place of `A` and of `B`, whose pose in `A` is `H` -/
noncomputable def lump (H : Mat4) (A B : Body) : Body :=
  ⟨A.mass + seenFrom H B.mass, A.viscosity + seenFrom H B.viscosity⟩

/-- `F'` is `F` with `B`, a child of `A` held by a `FixedJoint`, merged into `A` -/
inductive Welds (H : Mat4) (A B : Body) : Forest Link Body → Forest Link Body → Prop
  | here {l : Link} {start : ℕ} {P Q : Mat4} {before below after sib : Forest Link Body} (hH : IsRigid H) (hP : P = H * Q) :
      Welds H A B (.cons l A (before.append (.cons ⟨0, start, fixedVal, P, Q⟩ B below after)) sib)
        (.cons l (lump H A B) (before.append ((rehang H below).append after)) sib)
  | child {l : Link} {b : Body} {ch ch' sib : Forest Link Body} : Welds H A B ch ch' →
      Welds H A B (.cons l b ch sib) (.cons l b ch' sib)
  | sibling {l : Link} {b : Body} {ch sib sib' : Forest Link Body} : Welds H A B sib sib' →
      Welds H A B (.cons l b ch sib) (.cons l b ch sib')

/-- a rigid-body mass matrix with a mass above the threshold of `Body.update_dynamic`, or with no first moment of mass -/
def Weighty (M : Mat6) : Prop := ∃ m c I, IsRigidMass M m c I ∧ (1e-10 < m ∨ m • c = 0)

end Arboris.Spec
