import Verif.Model.Graph
import Verif.Model.Tree
import Verif.Model.Mass

/-!
# Model of the construction of worlds: constructors of `core.py`, `joints.py`, `shapes.py`, and the methods of `World`
used by the scripts of `arboris/robots/`

The state holds the object graph (`Model/Graph.lean`) and the attributes of the objects.  Objects are numbered in the
order of their creation, one numbering per class.  A program raises or returns a value and the new state.
-/

namespace Arboris.Build
open Graph Matrix

noncomputable section

/-- class and state of a joint: joints.py:12-507 -/
inductive JAttr
  | lin (k : LinKind) (q dq : Fin k.ndof → ℝ)
  | free (H : Mat4) (T : Vec6)
  | fixed

/-- `ndof`: joints.py:36, 83 and those of `LinKind` -/
def JAttr.ndof : JAttr → ℕ
  | .lin k _ _ => k.ndof
  | .free _ _ => 6
  | .fixed => 0

/-- `pose`, `twist`, `jacobian`, …: `Model/Joints.lean` -/
def JAttr.val : (a : JAttr) → JointVal a.ndof
  | .lin k q dq => k.val q dq
  | .free H T => freeVal H T
  | .fixed => fixedVal

/-- a linear joint created without arguments: core.py:278-286 -/
def JAttr.zero (k : LinKind) : JAttr := .lin k 0 0

/-- shapes.py:15-157: the classes and their dimensions -/
inductive ShapeGeo
  | point
  | sphere (radius : ℝ)
  | box (half_extents : Vec3)
  | cylinder (length radius : ℝ)
  | plane (coeffs : Fin 4 → ℝ)

/-- the objects and the world; `nb`, `nj`, `ns`, `nsh` are the numbers of the next body, joint, subframe and shape -/
structure RS where
  o : Objs
  w : World
  nb : ℕ
  nj : ℕ
  ns : ℕ
  nsh : ℕ
  mass : ℕ → Mat6
  jattr : ℕ → JAttr
  bpose : ℕ → Mat4
  geo : ℕ → ShapeGeo
  bname : ℕ → Option String
  jname : ℕ → Option String
  fname : ℕ → Option String
  shname : ℕ → Option String

abbrev Prog (α : Type) := StateT RS (Except PyErr) α

/-- `World()`: core.py:411-427 (the ground is body 0, named 'ground') -/
def RS.new : RS where
  o := ⟨fun _ => 0, fun _ => .body 0, fun _ => [], fun _ => 0⟩
  w := World.new 0
  nb := 1
  nj := 0
  ns := 0
  nsh := 0
  mass := fun _ => 0
  jattr := fun _ => .fixed
  bpose := fun _ => 1
  geo := fun _ => .point
  bname := fun b => if b = 0 then some "ground" else none
  jname := fun _ => none
  fname := fun _ => none
  shname := fun _ => none

/-- `raise e` -/
def fail {α : Type} (e : PyErr) : Prog α := fun _ => .error e

/-- a function that does not touch the world -/
def liftE {α : Type} (x : Except PyErr α) : Prog α := fun S =>
  match x with
  | .ok a => .ok (a, S)
  | .error e => .error e

open Classical in
/-- `assert p` -/
def check (p : Prop) : Prog Unit := fun S => if p then .ok ((), S) else .error .assertion

open Classical in
/-- `Body(name, mass)`: core.py:1175-1197 -/
def newBody (name : Option String) (mass : Option Mat6) : Prog ℕ := fun S =>
  let m := mass.getD 0
  if mass = none ∨ ismassmatrix m true then
    .ok (S.nb, { S with nb := S.nb + 1, mass := Function.update S.mass S.nb m, bname := Function.update S.bname S.nb name,
                        w := { S.w with body := Function.update S.w.body S.nb {} } })
  else .error .assertion

open Classical in
/-- `SubFrame(body, bpose, name)`: core.py:1080-1122 -/
def newSub (b : ℕ) (H : Mat4) (name : Option String) : Prog ℕ := fun S =>
  if ishomogeneousmatrix H then
    .ok (S.ns, { S with ns := S.ns + 1, o := { S.o with subBody := Function.update S.o.subBody S.ns b },
                        bpose := Function.update S.bpose S.ns H, fname := Function.update S.fname S.ns name })
  else .error .assertion

/-- the constructor of a joint: core.py:199-207, 278-286 (the sizes of the arguments are right by typing) -/
def newJoint (a : JAttr) (name : Option String) : Prog ℕ := fun S =>
  .ok (S.nj, { S with nj := S.nj + 1, o := { S.o with ndof := Function.update S.o.ndof S.nj a.ndof },
                      jattr := Function.update S.jattr S.nj a, jname := Function.update S.jname S.nj name,
                      w := { S.w with joint := Function.update S.w.joint S.nj {} } })

/-- the assertions of the constructors: shapes.py:74, 91 -/
def ShapeGeo.ok : ShapeGeo → Prop
  | .sphere radius => 0 ≤ radius
  | .cylinder _ radius => 0 ≤ radius
  | _ => True

open Classical in
/-- what the constructors store: shapes.py:28-31 normalizes the coefficients of a plane -/
def ShapeGeo.stored : ShapeGeo → ShapeGeo
  | .plane c => .plane fun i => (norm3 ![c 0, c 1, c 2])⁻¹ * c i
  | g => g

open Classical in
/-- the constructor of a shape: core.py:383-386, shapes.py -/
def newShape (f : FrameRef) (g : ShapeGeo) (name : Option String) : Prog ℕ := fun S =>
  if ¬ g.ok then .error .assertion else
  .ok (S.nsh, { S with nsh := S.nsh + 1, o := { S.o with shapeFrame := Function.update S.o.shapeFrame S.nsh f },
                       geo := Function.update S.geo S.nsh g.stored, shname := Function.update S.shname S.nsh name })

/-- `world.ground` -/
def ground : Prog FrameRef := fun S => .ok (.body S.w.ground, S)

/-- `world.add_link(f0, j, f1)` -/
def link (f0 : FrameRef) (j : ℕ) (f1 : FrameRef) : Prog Unit := fun S =>
  match addLink S.o S.w [.frame f0, .joint j, .frame f1] with
  | (w, .ok ()) => .ok ((), { S with w := w })
  | (_, .error e) => .error e

/-- `world.register(obj)` -/
def reg (x : Obj) : Prog Unit := fun S =>
  match register S.o S.w x with
  | (w, .ok ()) => .ok ((), { S with w := w })
  | (_, .error e) => .error e

/-- `world.init()`, `lim` being Python's recursion limit -/
def init (lim : ℕ) : Prog Unit := fun S =>
  match Graph.init S.o S.w lim with
  | (w, .ok ()) => .ok ((), { S with w := w })
  | (_, .error e) => .error e

/-- `frame.bpose`; `Body.bpose` is the identity (core.py:1238-1240) -/
def RS.bposeOf (S : RS) : FrameRef → Mat4
  | .body _ => 1
  | .sub f => S.bpose f

/-- what `update_geometric` and `update_dynamic` read of a link when the joints are in the states `att` -/
def RS.linkWith (S : RS) (att : ℕ → JAttr) (l : FrameRef × ℕ × FrameRef) : Link where
  k := (att l.2.1).ndof
  start := (((S.w.joint l.2.1).dof).map Prod.fst).getD 0
  joint := (att l.2.1).val
  bpose0 := S.bposeOf l.1
  bpose1 := S.bposeOf l.2.2

end
end Arboris.Build
