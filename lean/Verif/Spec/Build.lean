import Verif.Spec.Graft
import Verif.Model.Build

/-!
# Specification vocabulary: programs that build worlds
-/

namespace Arboris.Spec
open Graph Build

/-- the program ends normally with value `a`, in state `S'` -/
def Runs {α : Type} (p : Prog α) (S : RS) (a : α) (S' : RS) : Prop := p S = .ok (a, S')

/-- a frame made before state `S` -/
def Old (S : RS) : FrameRef → Prop
  | .body b => b < S.nb
  | .sub f => f < S.ns

/-- The world of state `S` is the tree `F`, and it is made of objects already created; the objects still to come are
new. -/
structure Good (S : RS) (F : Forest (FrameRef × ℕ × FrameRef) ℕ) : Prop where
  tree : IsTree S.o S.w F
  ground : S.w.ground < S.nb
  bodies : ∀ b ∈ F.bodies, b < S.nb
  frames : ∀ l ∈ F.links, Old S l.1 ∧ Old S l.2.2
  joints : ∀ j ∈ joints F, j < S.nj
  ndof : ∀ j ∈ Spec.joints F, S.o.ndof j = (S.jattr j).ndof

/-- The objects of state `S` are unchanged in state `S'`: masses, joints' classes and states, subframes, names, shapes;
what was registered stays registered. -/
structure Keeps (S S' : RS) : Prop where
  nb : S.nb ≤ S'.nb
  nj : S.nj ≤ S'.nj
  ns : S.ns ≤ S'.ns
  nsh : S.nsh ≤ S'.nsh
  ground : S'.w.ground = S.w.ground
  body : ∀ b < S.nb, S'.mass b = S.mass b ∧ S'.bname b = S.bname b
  joint : ∀ j < S.nj, S'.jattr j = S.jattr j ∧ S'.jname j = S.jname j ∧ S'.o.ndof j = S.o.ndof j
  sub : ∀ f < S.ns, S'.bpose f = S.bpose f ∧ S'.fname f = S.fname f ∧ S'.o.subBody f = S.o.subBody f
  shape : ∀ s < S.nsh, S'.geo s = S.geo s ∧ S'.shname s = S.shname s ∧ S'.o.shapeFrame s = S.o.shapeFrame s
  subframes : ∀ f ∈ S.w.subframes, f ∈ S'.w.subframes
  shapes : ∀ s ∈ S.w.shapes, s ∈ S'.w.shapes

end Arboris.Spec
