import Verif.Spec.World

/-!
# Specification vocabulary: other units of mass and time

`μ` and `κ` are the factors by which the numbers measuring masses and times are multiplied.
-/

namespace Arboris.Spec
open Matrix Mech Build

noncomputable section

/-- the same joint, velocities measured in the new unit -/
def jointUnits (κ : ℝ) : JAttr → JAttr
  | .lin k q dq => .lin k q (κ⁻¹ • dq)
  | .free H T => .free H (κ⁻¹ • T)
  | .fixed => .fixed

/-- the same link -/
def linkUnits (κ : ℝ) (l : MLink) : MLink := { l with att := jointUnits κ l.att }

/-- the same body: masses, and viscosities (a force per velocity) -/
def bodyUnits (μ κ : ℝ) (b : Body) : Body := ⟨μ • b.mass, (μ * κ⁻¹) • b.viscosity⟩

/-- the same state of a body -/
def dynUnits {n : ℕ} (κ : ℝ) (s : BodyDyn n) : BodyDyn n := { s with djac := κ⁻¹ • s.djac, twist := κ⁻¹ • s.twist }

/-- the same answer of a controller: a force and a force per velocity -/
def ctrlUnits {n : ℕ} (μ κ : ℝ) (v : CtrlVal n) : CtrlVal n := ⟨(μ * κ⁻¹ * κ⁻¹) • v.gforce, (μ * κ⁻¹) • v.impedance⟩

/-- the same world (without constraints) in the new units -/
def units {n : ℕ} {σ : Type} (μ κ : ℝ) (w : MWorld n σ) : MWorld n σ where
  tree := w.tree.map (linkUnits κ) (bodyUnits μ κ)
  gvel := κ⁻¹ • w.gvel
  dyn := w.dyn.map fun x => (bodyUnits μ κ x.1, dynUnits κ x.2)
  mass := μ • w.mass
  viscosity := (μ * κ⁻¹) • w.viscosity
  nleffects := (μ * κ⁻¹) • w.nleffects
  ctrl := ⟨(μ * κ⁻¹ * κ⁻¹) • w.ctrl.gforce, (μ * κ⁻¹) • w.ctrl.impedance, (μ * κ⁻¹)⁻¹ • w.ctrl.admittance⟩
  cons := w.cons
  mem := w.mem

/-- the controllers of `P'`, in the new units, do what those of `P` do -/
def SameControl {n : ℕ} {σ : Type} (μ κ : ℝ) (P P' : Plug n σ) : Prop :=
  ∀ w dt, P'.ctrl (units μ κ w) (κ * dt) = (P.ctrl w dt).map fun r => (r.1, r.2.map (ctrlUnits μ κ))

/-- the body is below the smallest mass that `update_dynamic` takes into account (1e-10) in both units or in none -/
def SameSide (μ : ℝ) (b : Body) : Prop := μ * b.mass 5 5 ≤ 1e-10 ↔ b.mass 5 5 ≤ 1e-10

/-- a call at the same time measured in the new unit, observers seeing `f w` -/
def seenAt {W W' : Type*} (κ : ℝ) (f : W → W') : Sim.Ev W → Sim.Ev W'
  | .worldInit => .worldInit
  | .obsInit i t w tl => .obsInit i (κ * t) (f w) (tl.map (κ * ·))
  | .dynamic t => .dynamic (κ * t)
  | .controllers dt => .controllers (κ * dt)
  | .constraints dt => .constraints (κ * dt)
  | .obsUpdate i dt t w => .obsUpdate i (κ * dt) (κ * t) (f w)
  | .integrate dt => .integrate (κ * dt)
  | .obsFinish i => .obsFinish i

end
end Arboris.Spec
