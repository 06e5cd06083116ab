import Verif.Model.Tree

/-!
# Model of `World.update_controllers`, `World.update_constraints`, `World.integrate` (core.py:814-1067)

`n` is `world.ndof`.  Exact real arithmetic; `numpy.linalg.inv` is Mathlib's matrix inverse and raises `LinAlgError`
on a singular matrix.
-/

namespace Arboris
open Matrix

noncomputable section

/-- The pair `(gforce, impedance)` returned by `Controller.update(dt)` (core.py:880). -/
structure CtrlVal (n : ℕ) where
  gforce : Fin n → ℝ
  impedance : Matrix (Fin n) (Fin n) ℝ

/-- What `update_controllers` stores in the world: `_gforce`, `_impedance`, `_admittance`. -/
structure CtrlOut (n : ℕ) where
  gforce : Fin n → ℝ
  impedance : Matrix (Fin n) (Fin n) ℝ
  admittance : Matrix (Fin n) (Fin n) ℝ

/-- the loop of `update_controllers`, core.py:879-882 -/
def sumControllers {n : ℕ} (g : Fin n → ℝ) (Z : Matrix (Fin n) (Fin n) ℝ) :
    List (CtrlVal n) → (Fin n → ℝ) × Matrix (Fin n) (Fin n) ℝ
  | [] => (g, Z)
  | a :: l => sumControllers (g + a.gforce) (Z - a.impedance) l

open Classical in
/-- `World.update_controllers`, core.py:876-883. -/
def updateControllers {n : ℕ} (mass viscosity nleffects : Matrix (Fin n) (Fin n) ℝ) (dt : ℝ)
    (cs : List (CtrlVal n)) : Except PyErr (CtrlOut n) :=
  if 0 < dt then
    let (g, Z) := sumControllers 0 (dt⁻¹ • mass + viscosity + nleffects) cs
    if Z.det = 0 then .error .linAlgError
    else .ok ⟨g, Z, Z⁻¹⟩
  else .error .assertion

/-- A constraint class, as `update_constraints` uses it (core.py:319-379): attributes as functions of the private
state `St`. `solve s vel adm dt` returns the new state and the returned `dforce`. -/
structure ConClass (n : ℕ) where
  St : Type
  ndol : ℕ
  enabled : St → Bool
  update : St → ℝ → St
  active : St → Bool
  jac : St → Matrix (Fin ndol) (Fin n) ℝ
  force : St → Fin ndol → ℝ
  solve : St → (Fin ndol → ℝ) → Matrix (Fin ndol) (Fin ndol) ℝ → ℝ → St × (Fin ndol → ℝ)

/-- A constraint object: its class and its state. -/
structure Con (n : ℕ) where
  cls : ConClass n
  st : cls.St

/-- `Constraint.gforce`, core.py:350-352 -/
def Con.gforce {n : ℕ} (c : Con n) : Fin n → ℝ := (c.cls.jac c.st)ᵀ *ᵥ c.cls.force c.st

/-- core.py:975-982: update the enabled constraints, keep the active ones. -/
def activeCons {n : ℕ} (dt : ℝ) (cs : List (Con n)) : List (Con n) :=
  cs.filterMap fun c =>
    if c.cls.enabled c.st then
      let s := c.cls.update c.st dt
      if c.cls.active s then some ⟨c.cls, s⟩ else none
    else none

section GaussSeidel
variable {n : ℕ} (cs : List (Con n))

/-- Rows of the stacked constraint arrays. The consecutive index ranges `c._dol` (core.py:980) are represented by
pairs (constraint, index in the range); `finSigmaFinEquiv` is the corresponding numbering. -/
abbrev Dol := (i : Fin cs.length) × Fin (cs.get i).cls.ndol

/-- States of all the active constraints and the array `vel`. -/
structure GS where
  st : (i : Fin cs.length) → (cs.get i).cls.St
  vel : Dol cs → ℝ

/-- `jac`, core.py:983-986 -/
def stackJac (st : (i : Fin cs.length) → (cs.get i).cls.St) : Matrix (Dol cs) (Fin n) ℝ :=
  Matrix.of fun r j => (cs.get r.1).cls.jac (st r.1) r.2 j

/-- generalized force of the constraint number `i` in a given state (core.py:350-352) -/
def gforceOf (st : (i : Fin cs.length) → (cs.get i).cls.St) (i : Fin cs.length) : Fin n → ℝ :=
  Con.gforce ⟨(cs.get i).cls, st i⟩

/-- `for c in constraints: gforce += c.gforce`, core.py:985-987 and 1006-1007 -/
def addGforces (st : (i : Fin cs.length) → (cs.get i).cls.St) (g : Fin n → ℝ) : Fin n → ℝ :=
  (List.finRange cs.length).foldl (fun acc i => acc + gforceOf cs st i) g

/-- `vel[c._dol]` -/
def velOf (vel : Dol cs → ℝ) (i : Fin cs.length) : Fin (cs.get i).cls.ndol → ℝ := fun k => vel ⟨i, k⟩

/-- `admittance[c._dol, c._dol]` -/
def admOf (A : Matrix (Dol cs) (Dol cs) ℝ) (i : Fin cs.length) :
    Matrix (Fin (cs.get i).cls.ndol) (Fin (cs.get i).cls.ndol) ℝ := Matrix.of fun k l => A ⟨i, k⟩ ⟨i, l⟩

/-- body of the inner loop, core.py:995-997 -/
def solveOne (A : Matrix (Dol cs) (Dol cs) ℝ) (dt : ℝ) (s : GS cs) (i : Fin cs.length) : GS cs :=
  let r := (cs.get i).cls.solve (s.st i) (velOf cs s.vel i) (admOf cs A i) dt
  { st := Function.update s.st i r.1
    vel := fun x => s.vel x + ∑ k, A x ⟨i, k⟩ * r.2 k }

/-- one pass of the inner loop, core.py:995-997 -/
def sweep (A : Matrix (Dol cs) (Dol cs) ℝ) (dt : ℝ) (s : GS cs) : GS cs :=
  (List.finRange cs.length).foldl (solveOne cs A dt) s

/-- `numpy.linalg.norm` of a vector -/
def norm2 {ι : Type} [Fintype ι] (v : ι → ℝ) : ℝ := Real.sqrt (∑ i, v i ^ 2)

open Classical in
/-- the outer loop, core.py:994-1001, `maxiters` iterations left; `first` is `k == 0`. -/
def gsLoop (A : Matrix (Dol cs) (Dol cs) ℝ) (dt tol : ℝ) : ℕ → Bool → GS cs → GS cs
  | 0, _, s => s
  | r + 1, first, s =>
    let s' := sweep cs A dt s
    if first = false ∧ norm2 (fun x => s'.vel x - s.vel x) < tol then s'
    else gsLoop A dt tol r false s'

/-- initial state of the loop, core.py:983-990 -/
def gsInit (Y mass : Matrix (Fin n) (Fin n) ℝ) (gvel gforce : Fin n → ℝ) (dt : ℝ) : GS cs :=
  let st := fun i => (cs.get i).st
  let jac := stackJac cs st
  { st := st
    vel := jac *ᵥ (Y *ᵥ (mass *ᵥ (dt⁻¹ • gvel) + addGforces cs st gforce)) }

/-- `admittance`, core.py:990 -/
def gsAdm (Y : Matrix (Fin n) (Fin n) ℝ) : Matrix (Dol cs) (Dol cs) ℝ :=
  let jac := stackJac cs fun i => (cs.get i).st
  jac * (Y * jacᵀ)

/-- the outcome of the solver on the list `cs` of active, updated constraints, core.py:983-1001 -/
def gsRun (Y mass : Matrix (Fin n) (Fin n) ℝ) (gvel gforce : Fin n → ℝ) (dt : ℝ) (maxiters : ℕ) (tol : ℝ) : GS cs :=
  gsLoop cs (gsAdm cs Y) dt tol maxiters true (gsInit cs Y mass gvel gforce dt)

/-- the constraint objects after the solver has run -/
def GS.cons {cs : List (Con n)} (s : GS cs) : List (Con n) :=
  (List.finRange cs.length).map fun i => ⟨(cs.get i).cls, s.st i⟩
end GaussSeidel

/-- `World.update_constraints`, core.py:973-1007: the new `_gforce` and the active constraints after the solve. -/
def updateConstraints {n : ℕ} (mass : Matrix (Fin n) (Fin n) ℝ) (gvel : Fin n → ℝ) (w : CtrlOut n)
    (constraints : List (Con n)) (dt : ℝ) (maxiters : ℕ := 1000) (tol : ℝ := 1e-4) :
    Except PyErr ((Fin n → ℝ) × List (Con n)) :=
  open Classical in
  if 0 < dt then
    let cs := activeCons dt constraints
    let s := gsRun cs w.admittance mass gvel w.gforce dt maxiters tol
    .ok (addGforces cs s.st w.gforce, s.cons)
  else .error .assertion

/-- the new `_gvel` of `World.integrate`, core.py:1054-1056 -/
def integrateGvel {n : ℕ} (mass Y : Matrix (Fin n) (Fin n) ℝ) (gvel gforce : Fin n → ℝ) (dt : ℝ) :
    Except PyErr (Fin n → ℝ) :=
  open Classical in
  if 0 < dt then .ok (Y *ᵥ (mass *ᵥ (dt⁻¹ • gvel) + gforce)) else .error .assertion

/-- the part of one iteration of `simulate` (core.py:1492-1499) that computes the new velocity:
`update_controllers`, `update_constraints`, `integrate`; the controllers' answers are given. -/
def stepGvel {n : ℕ} (mass viscosity nleffects : Matrix (Fin n) (Fin n) ℝ) (gvel : Fin n → ℝ)
    (ctrls : List (CtrlVal n)) (constraints : List (Con n)) (dt : ℝ) :
    Except PyErr ((Fin n → ℝ) × List (Con n)) :=
  match updateControllers mass viscosity nleffects dt ctrls with
  | .error e => .error e
  | .ok w =>
    match updateConstraints mass gvel w constraints dt with
    | .error e => .error e
    | .ok (g, cs) =>
      match integrateGvel mass w.admittance gvel g dt with
      | .error e => .error e
      | .ok v => .ok (v, cs)

end
end Arboris
