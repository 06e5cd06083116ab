import Verif.Model.Step
import Verif.Model.Twist
import Verif.Model.Build
import Verif.Model.Simulate

/-!
# The whole simulation: `World.init`, `update_dynamic`, `update_controllers`, `update_constraints`, `integrate` on one world

The engine of `Model/Simulate.lean` made of the functions of `Model/Tree`, `Step`, `Joints`, `Twist`.  `n` is
`world.ndof`, the total number of dofs of the joints, which does not change during a simulation.  The controllers, the
private memory `σ` of controllers and constraints, and what constraints read from the world are parameters.
-/

namespace Arboris
open Matrix Spec

namespace Mech
open Build

noncomputable section

/-- a joint object hung in the tree: class, `gpos` and `gvel`; `dof.start`; `bpose` of the frames it is attached to -/
structure MLink where
  att : JAttr
  start : ℕ
  bpose0 : Mat4
  bpose1 : Mat4

/-- what `update_geometric` and `update_dynamic` read of it -/
def MLink.link (l : MLink) : Link := ⟨l.att.ndof, l.start, l.att.val, l.bpose0, l.bpose1⟩

/-- component `i` of `joint.gvel` -/
def _root_.Arboris.Build.JAttr.vel : JAttr → ℕ → ℝ
  | .lin k _ dq => fun i => if h : i < k.ndof then dq ⟨i, h⟩ else 0
  | .free _ T => fun i => if h : i < 6 then T ⟨i, h⟩ else 0
  | .fixed => fun _ => 0

/-- `joint.integrate(gvel, dt)`: core.py:288-290 (linear joints), joints.py:64-66 (`FreeJoint`), joints.py:106-107
(`FixedJoint`) -/
def _root_.Arboris.Build.JAttr.integrate (gvel : ℕ → ℝ) (dt : ℝ) : JAttr → JAttr
  | .lin k q _ => .lin k (linIntegrate q (fun i => gvel i.val) dt) fun i => gvel i.val
  | .free H _ => .free (freeIntegrate H (fun i => gvel i.val) dt) fun i => gvel i.val
  | .fixed => .fixed

/-- the world: tree of bodies, `_gvel`, `_mass`, `_viscosity`, `_nleffects`, what `update_dynamic` left in the bodies, what
`update_controllers` left in the world (`_gforce`, `_impedance`, `_admittance`), constraints, private memories -/
structure MWorld (n : ℕ) (σ : Type) where
  tree : Forest MLink Body
  gvel : Fin n → ℝ
  dyn : List (Body × BodyDyn n)
  mass : Matrix (Fin n) (Fin n) ℝ
  viscosity : Matrix (Fin n) (Fin n) ℝ
  nleffects : Matrix (Fin n) (Fin n) ℝ
  ctrl : CtrlOut n
  cons : List (Con n)
  mem : σ

/-- `ctrl w dt`: the answers of the registered controllers, in order, and the new memory; `look w c`: the constraint with
what its `update` reads from the frames and joints of the world -/
structure Plug (n : ℕ) (σ : Type) where
  ctrl : MWorld n σ → ℝ → Except PyErr (σ × List (CtrlVal n))
  look : MWorld n σ → Con n → Con n

/-- core.py:686-690: the dofs are numbered along `iterjoints`, depth first -/
def number : ℕ → Forest MLink Body → Forest MLink Body × ℕ
  | a, .nil => (.nil, a)
  | a, .cons l b ch sib =>
    let c := number (a + l.att.ndof) ch
    let s := number c.2 sib
    (.cons { l with start := a } b c.1 s.1, s.2)

/-- core.py:699-703: `_gvel = zeros(ndof)`, then `_gvel[j.dof] = j.gvel[:]` for every joint -/
def gather {n : ℕ} (ls : List MLink) : Fin n → ℝ :=
  ls.foldl (fun acc l d => if l.start ≤ d.val ∧ d.val < l.start + l.att.ndof then l.att.vel (d.val - l.start) else acc d) 0

/-- `World.init`, core.py:684-703 (for the `init` of the controllers see `Model/Hooks.lean`; that of `JointLimits` is not modelled) -/
def init {n : ℕ} {σ : Type} (w : MWorld n σ) : Except PyErr (MWorld n σ) :=
  let t := (number 0 w.tree).1
  .ok { w with tree := t, gvel := gather t.links, mass := 0, viscosity := 0, nleffects := 0,
               ctrl := { w.ctrl with gforce := 0 } }

/-- `World.update_dynamic`, core.py:794-812 -/
def dynamic {n : ℕ} {σ : Type} (w : MWorld n σ) : Except PyErr (MWorld n σ) :=
  match updateDynamicE (groundDyn n) (w.tree.map MLink.link id) with
  | .error e => .error e
  | .ok d => .ok { w with dyn := d, mass := worldMass d, viscosity := worldViscosity d, nleffects := worldNleffects d }

/-- `World.update_controllers`, core.py:876-883 -/
def controllers {n : ℕ} {σ : Type} (P : Plug n σ) (dt : ℝ) (w : MWorld n σ) : Except PyErr (MWorld n σ) :=
  match P.ctrl w dt with
  | .error e => .error e
  | .ok (m, vals) =>
    match updateControllers w.mass w.viscosity w.nleffects dt vals with
    | .error e => .error e
    | .ok o => .ok { w with ctrl := o, mem := m }

/-- the constraint objects after `update_constraints`: the disabled ones are untouched, the inactive ones updated, the
active ones (`solved`, in order) updated and solved -/
def writeBack {n : ℕ} (dt : ℝ) : List (Con n) → List (Con n) → List (Con n)
  | [], _ => []
  | c :: cs, solved =>
    if c.cls.enabled c.st then
      if c.cls.active (c.cls.update c.st dt) then
        match solved with
        | d :: ds => d :: writeBack dt cs ds
        | [] => c :: writeBack dt cs []
      else ⟨c.cls, c.cls.update c.st dt⟩ :: writeBack dt cs solved
    else c :: writeBack dt cs solved

/-- `World.update_constraints`, core.py:973-1007 -/
def constraints {n : ℕ} {σ : Type} (P : Plug n σ) (dt : ℝ) (w : MWorld n σ) : Except PyErr (MWorld n σ) :=
  let cs := w.cons.map (P.look w)
  match updateConstraints w.mass w.gvel w.ctrl cs dt with
  | .error e => .error e
  | .ok (g, solved) => .ok { w with ctrl := { w.ctrl with gforce := g }, cons := writeBack dt cs solved }

/-- `self._gvel[j.dof]` as an array of its own -/
def part {n : ℕ} (v : Fin n → ℝ) (start : ℕ) : ℕ → ℝ := fun i => if h : start + i < n then v ⟨start + i, h⟩ else 0

/-- core.py:1066-1067: `j.integrate(self._gvel[j.dof], dt)` -/
def advance {n : ℕ} (v : Fin n → ℝ) (dt : ℝ) (l : MLink) : MLink :=
  { l with att := l.att.integrate (part v l.start) dt }

/-- `World.integrate`, core.py:1062-1068 (the time is kept by `Sim.loop`) -/
def integrate {n : ℕ} {σ : Type} (dt : ℝ) (w : MWorld n σ) : Except PyErr (MWorld n σ) :=
  match integrateGvel w.mass w.ctrl.admittance w.gvel w.ctrl.gforce dt with
  | .error e => .error e
  | .ok v => .ok { w with gvel := v, tree := w.tree.map (advance v dt) id }

/-- the methods `simulate` uses -/
def engine {n : ℕ} {σ : Type} (P : Plug n σ) : Sim.Engine (MWorld n σ) :=
  ⟨init, dynamic, controllers P, constraints P, integrate⟩

/-- number of dofs of a tree, core.py:686-690 -/
def ndof (F : Forest MLink Body) : ℕ := (F.links.map fun l => l.att.ndof).sum

end
end Mech
end Arboris
