import Mathlib.Analysis.Normed.Algebra.MatrixExponential
import Verif.Model.World
import Verif.Spec.Motion
import Verif.Spec.Step

/-!
# Specification vocabulary: the evolution of a world

No function of `Model/World.lean` occurs here, only its records (`MLink`, `MWorld`, `Plug`).  `worldDynamic`, `worldMass`,
`worldViscosity` and `worldNleffects` are the functions C19–C29 speak of.
-/

namespace Arboris.Spec
open Matrix Mech Build

noncomputable section

/-- The joint's own velocity `gvel` is the part `ν[start : start+ndof]` of the velocity vector. -/
def HasVel {n : ℕ} (ν : Fin n → ℝ) (l : MLink) : Prop :=
  match l.att with
  | .lin k _ dq => ∃ h : l.start + k.ndof ≤ n, dq = slice ν l.start k.ndof h
  | .free _ T => ∃ h : l.start + 6 ≤ n, T = slice ν l.start 6 h
  | .fixed => l.start ≤ n

/-- `JMoved dt ν start j j'`: in time `dt`, the joint in state `j` moves to the state `j'`, at constant velocity `ν[start : …]`
(for a free joint `E` is the displacement, the matrix exponential of the twist, except for the small rotations where
`twistvector.exp` is a Taylor expansion). -/
inductive JMoved {n : ℕ} (dt : ℝ) (ν : Fin n → ℝ) (start : ℕ) : JAttr → JAttr → Prop
  | lin (k : LinKind) (q dq : Fin k.ndof → ℝ) (h : start + k.ndof ≤ n) :
      JMoved dt ν start (.lin k q dq) (.lin k (fun i => q i + dt * slice ν start k.ndof h i) (slice ν start k.ndof h))
  | free (H E : Mat4) (T : Vec6) (h : start + 6 ≤ n) (hE : E = twistExp (dt • slice ν start 6 h))
      (hexp : ang (dt • slice ν start 6 h) = 0 ∨ 0.001 ≤ norm3 (ang (dt • slice ν start 6 h)) →
        E = NormedSpace.exp (hat (dt • slice ν start 6 h)) ∧ IsRigid E) :
      JMoved dt ν start (.free H T) (.free (H * E) (slice ν start 6 h))
  | fixed : JMoved dt ν start .fixed .fixed

/-- the link `l'` is the link `l` after its joint has moved: same attachments, same dofs -/
structure Moved {n : ℕ} (dt : ℝ) (ν : Fin n → ℝ) (l l' : MLink) : Prop where
  start : l'.start = l.start
  bpose0 : l'.bpose0 = l.bpose0
  bpose1 : l'.bpose1 = l.bpose1
  joint : JMoved dt ν l.start l.att l'.att

/-- same tree, same bodies, links related by `R` -/
inductive ForestRel {L B : Type} (R : L → L → Prop) : Forest L B → Forest L B → Prop
  | nil : ForestRel R .nil .nil
  | cons {l l' : L} {b : B} {ch ch' sib sib' : Forest L B} (hl : R l l') (hc : ForestRel R ch ch')
      (hs : ForestRel R sib sib') : ForestRel R (.cons l b ch sib) (.cons l' b ch' sib')

/-- the dofs of these joints are numbered one after the other from `a` -/
def Numbered : ℕ → List MLink → Prop
  | _, [] => True
  | a, l :: ls => l.start = a ∧ Numbered (a + l.att.ndof) ls

/-- `Resolves cls dt s t`: the state `t` of a constraint of class `cls` follows from the state `s` by calls of `solve` -/
inductive Resolves {n : ℕ} (cls : ConClass n) (dt : ℝ) (s : cls.St) : cls.St → Prop
  | refl : Resolves cls dt s s
  | solve {t : cls.St} (h : Resolves cls dt s t) (vel : Fin cls.ndol → ℝ) (Y : Matrix (Fin cls.ndol) (Fin cls.ndol) ℝ) :
      Resolves cls dt s (cls.solve t vel Y dt).1

/-- `Solved dt cs cs' F`: the constraints `cs` become `cs'` and push with the total generalized force `F`.  Disabled ones are
left alone; the others are updated; only those that are then active are solved, any number of times, and push. -/
inductive Solved {n : ℕ} (dt : ℝ) : List (Con n) → List (Con n) → (Fin n → ℝ) → Prop
  | nil : Solved dt [] [] 0
  | disabled {c : Con n} {cs cs' : List (Con n)} {F : Fin n → ℝ} (h : c.cls.enabled c.st = false)
      (hs : Solved dt cs cs' F) : Solved dt (c :: cs) (c :: cs') F
  | inactive {c : Con n} {cs cs' : List (Con n)} {F : Fin n → ℝ} (h : c.cls.enabled c.st = true)
      (ha : c.cls.active (c.cls.update c.st dt) = false)
      (hs : Solved dt cs cs' F) : Solved dt (c :: cs) (⟨c.cls, c.cls.update c.st dt⟩ :: cs') F
  | active {c : Con n} {cs cs' : List (Con n)} {F : Fin n → ℝ} (h : c.cls.enabled c.st = true)
      (ha : c.cls.active (c.cls.update c.st dt) = true) (s : c.cls.St)
      (hr : Resolves c.cls dt (c.cls.update c.st dt) s)
      (hs : Solved dt cs cs' F) : Solved dt (c :: cs) (⟨c.cls, s⟩ :: cs') ((c.cls.jac s)ᵀ *ᵥ c.cls.force s + F)

/-- the tree as `update_dynamic` reads it: of each link the number of dofs, the first dof, the attributes of the joint, the
poses of the frames it is attached to in their bodies -/
def linksOf {n : ℕ} {σ : Type} (w : MWorld n σ) : Forest Link Body :=
  w.tree.map (fun l => { k := l.att.ndof, start := l.start, joint := l.att.val, bpose0 := l.bpose0, bpose1 := l.bpose1 }) id

/-- The state `w0` after `world.init()`: same tree, same joint positions and velocities; dofs numbered from 0 and gathered
in `gvel`. -/
structure Started {n : ℕ} {σ : Type} (w w0 : MWorld n σ) : Prop where
  tree : ForestRel (fun l l' => l' = { l with start := l'.start }) w.tree w0.tree
  numbered : Numbered 0 w0.tree.links
  vel : ∀ l ∈ w0.tree.links, HasVel w0.gvel l
  cons : w0.cons = w.cons
  mem : w0.mem = w.mem

/-- The state `c` shown to the observers during the step of length `dt` from the state `w`: joints and velocities not moved
yet; bodies up to date; the constraints solved, pushing with `F`; the controllers asked in a world `a` whose bodies are up
to date, their answers being `vals`. -/
structure Seen {n : ℕ} {σ : Type} (P : Plug n σ) (dt : ℝ) (w c : MWorld n σ) (vals : List (CtrlVal n)) (F : Fin n → ℝ) :
    Prop where
  tree : c.tree = w.tree
  gvel : c.gvel = w.gvel
  dyn : c.dyn = worldDynamic n (linksOf w)
  twist : ∀ x ∈ c.dyn, x.2.twist = x.2.jac *ᵥ w.gvel
  mass : c.mass = worldMass c.dyn
  viscosity : c.viscosity = worldViscosity c.dyn
  nleffects : c.nleffects = worldNleffects c.dyn
  ctrl : ∃ a : MWorld n σ, a.tree = w.tree ∧ a.gvel = w.gvel ∧ a.dyn = c.dyn ∧ a.mass = c.mass ∧ a.cons = w.cons ∧
    a.mem = w.mem ∧ P.ctrl a dt = .ok (c.mem, vals)
  cons : ∃ b : MWorld n σ, b.tree = w.tree ∧ b.gvel = w.gvel ∧ b.dyn = c.dyn ∧ b.mem = c.mem ∧
    Solved dt (w.cons.map (P.look b)) c.cons F
  gforce : c.ctrl.gforce = (vals.map (·.gforce)).sum + F

/-- One step of length `dt` from the state `w` to the state `w'`, `c` being shown to the observers: the new velocity solves the
discretised equation of motion at the positions of `w`, with the forces of the controllers and constraints, and every joint
then moves at its part of the new velocity. -/
structure WStep {n : ℕ} {σ : Type} (P : Plug n σ) (dt : ℝ) (w c w' : MWorld n σ) : Prop where
  pos : 0 < dt
  motion : ∃ vals F, Seen P dt w c vals F ∧
    EquationOfMotion c.mass c.viscosity c.nleffects (vals.map (·.impedance)).sum dt w.gvel w'.gvel
      ((vals.map (·.gforce)).sum + F)
  tree : ForestRel (Moved dt w'.gvel) w.tree w'.tree
  vel : ∀ l ∈ w'.tree.links, HasVel w'.gvel l
  cons : w'.cons = c.cons
  mem : w'.mem = c.mem

/-- The evolution of a world along a timeline: `Evolves P ts w seen w'`, `seen` being the states shown to the observers. -/
inductive Evolves {n : ℕ} {σ : Type} (P : Plug n σ) :
    List ℝ → MWorld n σ → List (ℝ × ℝ × MWorld n σ) → MWorld n σ → Prop
  | done (t : ℝ) (w : MWorld n σ) : Evolves P [t] w [] w
  | step {t t' : ℝ} {ts : List ℝ} {w c w' w'' : MWorld n σ} {seen : List (ℝ × ℝ × MWorld n σ)}
      (h : WStep P (t' - t) w c w') (hrest : Evolves P (t' :: ts) w' seen w'') :
      Evolves P (t :: t' :: ts) w ((t, t' - t, c) :: seen) w''

/-- the frames a link is attached to are rigid motions, and so is the position of a free joint -/
structure RigidLink (l : MLink) : Prop where
  bpose0 : IsRigid l.bpose0
  bpose1 : IsRigid l.bpose1
  free : ∀ H T, l.att = .free H T → IsRigid H

/-- the link does not have a free joint -/
def NotFree (l : MLink) : Prop := ∀ H T, l.att ≠ .free H T

/-- at its velocity, a free joint rotates by at least 0.001 rad in time `dt`, or not at all -/
def NotSlow (dt : ℝ) (l : MLink) : Prop :=
  ∀ H T, l.att = .free H T → ang (dt • T) = 0 ∨ 0.001 ≤ norm3 (ang (dt • T))

/-- same joints, bodies, velocities, constraints and memories -/
structure SameState {n : ℕ} {σ : Type} (w w' : MWorld n σ) : Prop where
  tree : w.tree = w'.tree
  gvel : w.gvel = w'.gvel
  cons : w.cons = w'.cons
  mem : w.mem = w'.mem

/-- the controllers do not look at the forces, impedance and admittance left by the previous step -/
def Forgetful {n : ℕ} {σ : Type} (P : Plug n σ) : Prop :=
  ∀ (w : MWorld n σ) (o : CtrlOut n), P.ctrl { w with ctrl := o } = P.ctrl w

/-- the worlds shown to the observers: observer, `dt`, time, world -/
def shownTo {W : Type*} : Sim.Ev W → Option (ℕ × ℝ × ℝ × W)
  | .obsUpdate i dt t w => some (i, dt, t, w)
  | _ => none

/-- what the observers have been shown during a run -/
def updates {W : Type*} (tr : List (Sim.Ev W)) : List (ℕ × ℝ × ℝ × W) := tr.filterMap shownTo

end
end Arboris.Spec
