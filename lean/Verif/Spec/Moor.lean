import Verif.Spec.Place
import Verif.Spec.Graft

/-!
# Specification vocabulary: simulations that go alike; a body fixed to the ground
-/

namespace Arboris.Spec
open Matrix Mech Build

/-- two calls either raise the same exception, or both return, and the results are related -/
inductive Alike {α β : Type*} (R : α → β → Prop) : Except PyErr α → Except PyErr β → Prop
  | ok {a : α} {b : β} (h : R a b) : Alike R (.ok a) (.ok b)
  | error (e : PyErr) : Alike R (.error e) (.error e)

/-- the same call, on related worlds -/
inductive SameCall {W W' : Type*} (R : W → W' → Prop) : Sim.Ev W → Sim.Ev W' → Prop
  | worldInit : SameCall R .worldInit .worldInit
  | obsInit (i : ℕ) (t : ℝ) {w : W} {w' : W'} (tl : List ℝ) (h : R w w') : SameCall R (.obsInit i t w tl) (.obsInit i t w' tl)
  | dynamic (t : ℝ) : SameCall R (.dynamic t) (.dynamic t)
  | controllers (dt : ℝ) : SameCall R (.controllers dt) (.controllers dt)
  | constraints (dt : ℝ) : SameCall R (.constraints dt) (.constraints dt)
  | obsUpdate (i : ℕ) (dt t : ℝ) {w : W} {w' : W'} (h : R w w') : SameCall R (.obsUpdate i dt t w) (.obsUpdate i dt t w')
  | integrate (dt : ℝ) : SameCall R (.integrate dt) (.integrate dt)
  | obsFinish (i : ℕ) : SameCall R (.obsFinish i) (.obsFinish i)

/-- the two simulations make the same calls, on related worlds, and end in the same way: with the same exception, or at the
same time with related worlds -/
structure SameRun {W W' : Type*} (R : W → W' → Prop) (x : List (Sim.Ev W) × Except PyErr (W × ℝ))
    (y : List (Sim.Ev W') × Except PyErr (W' × ℝ)) : Prop where
  calls : List.Forall₂ (SameCall R) x.1 y.1
  result : Alike (fun r s => R r.1 s.1 ∧ r.2 = s.2) x.2 y.2

/-- `F'` is `F` without `B`, a body fixed to the ground by a `FixedJoint` at the pose `H`; what hung below `B` hangs directly
from the ground, at the same place -/
inductive Moored (H : Mat4) (B : Body) : Forest MLink Body → Forest MLink Body → Prop
  | intro {start : ℕ} {P Q : Mat4} {before below after : Forest MLink Body} (hH : IsRigid H) (hQ : IsRigid Q) (hP : P = H * Q) :
      Moored H B (before.append (.cons ⟨.fixed, start, P, Q⟩ B below after))
        (before.append ((placeTree H below).append after))

/-- the world `w'` is the world `w` without the body `B`, which is fixed to the ground at the pose `H`: everything else is the
same (the bodies visited by `update_dynamic`, with their poses, twists and jacobians: those of `w`, except `B`, at rest at `H`;
or none if nothing has been computed yet) -/
structure Without {n : ℕ} {σ : Type} (H : Mat4) (B : Body) (w w' : MWorld n σ) : Prop where
  tree : Moored H B w.tree w'.tree
  gvel : w'.gvel = w.gvel
  dyn : (∃ before after, w.dyn = before ++ (B, ⟨H, 0, 0, 0⟩) :: after ∧ w'.dyn = before ++ after) ∨ w.dyn = [] ∧ w'.dyn = []
  mass : w'.mass = w.mass
  viscosity : w'.viscosity = w.viscosity
  nleffects : w'.nleffects = w.nleffects
  ctrl : w'.ctrl = w.ctrl
  cons : w'.cons = w.cons
  mem : w'.mem = w.mem

/-- the controllers and constraints of `P'` do without the body `B` what those of `P` do with it -/
structure Ignores {n : ℕ} {σ : Type} (H : Mat4) (B : Body) (P P' : Plug n σ) : Prop where
  ctrl : ∀ w w' dt, Without H B w w' → P'.ctrl w' dt = P.ctrl w dt
  look : ∀ w w' c, Without H B w w' → P'.look w' c = P.look w c

end Arboris.Spec
