import Verif.Model.ObsRun
import Verif.Spec.Simulate
import Verif.Spec.World

/-! # Specification: observers of a simulation, and simulations that are taken up again (C127) -/

universe u v

namespace Arboris.Spec
open Sim Mech

/-- `Hears o s shown s'`: the observer `o` in the state `s` is told the steps `shown` (time, `dt`, world), raises nothing, and ends
in the state `s'` -/
inductive Hears {W : Type u} {S : Type v} (o : Obs W S) : S → List (ℝ × ℝ × W) → S → Prop
  | nil (s : S) : Hears o s [] s
  | cons {s s' s'' : S} {t dt : ℝ} {w : W} {shown : List (ℝ × ℝ × W)} (h : o.update dt t w s = (s', none))
      (hr : Hears o s' shown s'') : Hears o s ((t, dt, w) :: shown) s''

/-- the same observer, whose `init` and then the steps `shown` have gone well -/
def Heard {W : Type u} {S : Type v} (tl : List ℝ) (t0 : ℝ) (w0 : W) (shown : List (ℝ × ℝ × W)) (x y : Obs W S × S) : Prop :=
  y.1 = x.1 ∧ ∃ s, x.1.init t0 w0 tl x.2 = (s, none) ∧ Hears x.1 s shown y.2

/-- the same observer, which has been told everything, without raising -/
def HeardAll {W : Type u} {S : Type v} (tl : List ℝ) (t0 : ℝ) (w0 : W) (shown : List (ℝ × ℝ × W)) (x y : Obs W S × S) : Prop :=
  y.1 = x.1 ∧ ∃ s, Heard tl t0 w0 shown x (x.1, s) ∧ x.1.finish s = (y.2, none)

/-- the part of a step that precedes the observers -/
def Prepared {W : Type u} (E : Engine W) (dt : ℝ) (w c : W) : Prop :=
  ∃ a b, E.dynamic w = .ok a ∧ E.controllers dt a = .ok b ∧ E.constraints dt b = .ok c

/-- the constraint after its `update` -/
def updated {n : ℕ} (dt : ℝ) (c : Con n) : Con n := ⟨c.cls, c.cls.update c.st dt⟩

/-- worlds that differ in the outcome of the previous step only: forces, impedance, admittance, constraints -/
structure Redone {n : ℕ} {σ : Type} (w w' : MWorld n σ) : Prop where
  tree : w'.tree = w.tree
  gvel : w'.gvel = w.gvel
  dyn : w'.dyn = w.dyn
  mass : w'.mass = w.mass
  viscosity : w'.viscosity = w.viscosity
  nleffects : w'.nleffects = w.nleffects
  mem : w'.mem = w.mem

/-- Controllers that keep no memory and look at the positions and velocities only, and constraints (of the classes `K`) that at each
`update` start again from what they read of the world: having been updated and solved already makes no difference. -/
structure Repeatable {n : ℕ} {σ : Type} (P : Plug n σ) (K : ConClass n → Prop) : Prop where
  ctrl : ∀ w w' dt, Redone w w' → P.ctrl w' dt = P.ctrl w dt
  mem : ∀ w dt m vals, P.ctrl w dt = .ok (m, vals) → m = w.mem
  cls : ∀ w c, K c.cls → (P.look w c).cls = c.cls
  again : ∀ w w' c, K c.cls → Redone w w' → P.look w' (P.look w c) = P.look w c
  update : ∀ w w' c (dt : ℝ) s, K c.cls → Redone w w' →
    Resolves (P.look w c).cls dt ((P.look w c).cls.update (P.look w c).st dt) s →
    updated dt (P.look w' ⟨(P.look w c).cls, s⟩) = updated dt (P.look w c) ∧
    (P.look w' ⟨(P.look w c).cls, s⟩).cls.enabled (P.look w' ⟨(P.look w c).cls, s⟩).st = (P.look w c).cls.enabled (P.look w c).st

end Arboris.Spec
