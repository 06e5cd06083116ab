import Verif.Spec.Moor

/-!
# Specification vocabulary: the same mechanism, assembled in another order

The degrees of freedom of a world are numbered along `iterjoints`, so they are numbered otherwise when the joints have been
attached in another order.  A renumbering is a permutation `π`: degree of freedom `d` of the first world is degree of freedom
`π d` of the second.
-/

namespace Arboris.Spec
open Matrix Mech Build

/-- the same trees, hung in another order at every level; corresponding links are related by `R` -/
inductive Shuffled {L L' B : Type} (R : L → L' → Prop) : Forest L B → Forest L' B → Prop
  | nil : Shuffled R .nil .nil
  | cons {l : L} {l' : L'} {b : B} {ch sib : Forest L B} {ch' before after : Forest L' B} (hl : R l l') (hc : Shuffled R ch ch')
      (hs : Shuffled R sib (before.append after)) :
      Shuffled R (.cons l b ch sib) (before.append (.cons l' b ch' after))

/-- same joint in the same state, same attachments; its degrees of freedom may have other numbers -/
structure SameJoint (l l' : MLink) : Prop where
  att : l'.att = l.att
  bpose0 : l'.bpose0 = l.bpose0
  bpose1 : l'.bpose1 = l.bpose1

/-- same joint, whose degrees of freedom are renumbered by `π` -/
structure Renumbered {n : ℕ} (π : Equiv.Perm (Fin n)) (l l' : MLink) : Prop extends SameJoint l l' where
  bound : l.start + l.att.ndof ≤ n
  dof : ∀ (i : ℕ) (h : i < l.att.ndof), (π ⟨l.start + i, by omega⟩).val = l'.start + i

/-- a vector over the degrees of freedom, renumbered -/
def permVec {n : ℕ} (π : Equiv.Perm (Fin n)) (v : Fin n → ℝ) : Fin n → ℝ := fun d => v (π.symm d)
/-- a matrix over the degrees of freedom, renumbered -/
def permMat {n : ℕ} (π : Equiv.Perm (Fin n)) (M : Matrix (Fin n) (Fin n) ℝ) : Matrix (Fin n) (Fin n) ℝ :=
  Matrix.of fun i j => M (π.symm i) (π.symm j)
/-- the columns of a jacobian, renumbered -/
def permCols {n : ℕ} {m : Type} (π : Equiv.Perm (Fin n)) (J : Matrix m (Fin n) ℝ) : Matrix m (Fin n) ℝ :=
  Matrix.of fun i j => J i (π.symm j)
/-- what `update_dynamic` leaves in a body, renumbered: same pose, same twist -/
def permDyn {n : ℕ} (π : Equiv.Perm (Fin n)) (d : BodyDyn n) : BodyDyn n := ⟨d.pose, permCols π d.jac, permCols π d.djac, d.twist⟩
/-- the answer of a controller, renumbered -/
def permVal {n : ℕ} (π : Equiv.Perm (Fin n)) (c : CtrlVal n) : CtrlVal n := ⟨permVec π c.gforce, permMat π c.impedance⟩
/-- what `update_controllers` leaves in the world, renumbered -/
def permOut {n : ℕ} (π : Equiv.Perm (Fin n)) (c : CtrlOut n) : CtrlOut n :=
  ⟨permVec π c.gforce, permMat π c.impedance, permMat π c.admittance⟩
/-- a constraint, renumbered: the columns of its jacobian are renumbered, nothing else changes -/
def permCon {n : ℕ} (π : Equiv.Perm (Fin n)) (c : Con n) : Con n :=
  ⟨{ c.cls with jac := fun s => permCols π (c.cls.jac s) }, c.st⟩

/-- the world `w'` is the world `w` with the joints in another order, the degrees of freedom being renumbered by `π` -/
structure Reordered {n : ℕ} {σ : Type} (π : Equiv.Perm (Fin n)) (w w' : MWorld n σ) : Prop where
  tree : Shuffled (Renumbered π) w.tree w'.tree
  gvel : w'.gvel = permVec π w.gvel
  dyn : w'.dyn.Perm (w.dyn.map fun x => (x.1, permDyn π x.2))
  mass : w'.mass = permMat π w.mass
  viscosity : w'.viscosity = permMat π w.viscosity
  nleffects : w'.nleffects = permMat π w.nleffects
  ctrl : w'.ctrl = permOut π w.ctrl
  cons : w'.cons = w.cons.map (permCon π)
  mem : w'.mem = w.mem

/-- the controllers and constraints of `P'` do in the reordered world what those of `P` do in the world -/
structure Indifferent {n : ℕ} {σ : Type} (π : Equiv.Perm (Fin n)) (P P' : Plug n σ) : Prop where
  ctrl : ∀ w w' dt, Reordered π w w' → P'.ctrl w' dt = (P.ctrl w dt).map fun r => (r.1, r.2.map (permVal π))
  look : ∀ w w' c, Reordered π w w' → P'.look w' (permCon π c) = permCon π (P.look w c)

end Arboris.Spec
