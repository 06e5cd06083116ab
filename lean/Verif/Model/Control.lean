import Verif.Model.World
import Verif.Model.Controllers

/-!
# The controllers of the library in a world

How `WeightController` and `ProportionalDerivativeController` (arboris/controllers.py), registered in a world, are asked by
`World.update_controllers` (core.py:876-883).
-/

namespace Arboris
open Matrix Spec Mech Build

noncomputable section

/-- what `ProportionalDerivativeController` reads of a joint of the world: `dof.start` and `gpos`, controllers.py:160-181 -/
def Mech.MLink.pd (l : MLink) : PDJoint :=
  ⟨l.start, match l.att with
    | .lin _ q _ => List.ofFn q
    | _ => []⟩

/-- a registered controller: a `WeightController` (its attribute `gravity`), or a `ProportionalDerivativeController` (its list
`joints`, given by their rank in `world.iterjoints()`, and its gains) -/
inductive LibCtrl
  | weight (gravity : ℝ)
  | pd (joints : List ℕ) (g : PDGains)

/-- the objects of the list `joints` of the controller, as they are in the world -/
def pdRead {n : ℕ} {σ : Type} (w : MWorld n σ) (joints : List ℕ) : List PDJoint :=
  joints.filterMap fun i => (w.tree.links[i]?).map MLink.pd

/-- `c.update(dt)`: controllers.py:58-66 and 169-186; `up` is `world.up` -/
def LibCtrl.update {n : ℕ} {σ : Type} (up : Vec3) (w : MWorld n σ) (dt : ℝ) : LibCtrl → Except PyErr (CtrlVal n)
  | .weight γ => weightUpdateE γ up w.dyn
  | .pd js g => pdUpdate n g (pdRead w js) dt

/-- `c.update(dt)` for the registered controllers, in order, core.py:879-882: the first that raises stops the loop -/
def askAll {n : ℕ} {σ : Type} (up : Vec3) (w : MWorld n σ) (dt : ℝ) : List LibCtrl → Except PyErr (List (CtrlVal n))
  | [] => .ok []
  | c :: cs =>
    match c.update up w dt with
    | .error e => .error e
    | .ok v =>
      match askAll up w dt cs with
      | .error e => .error e
      | .ok vs => .ok (v :: vs)

/-- a world with these controllers, and without constraints that look at it -/
def libPlug (n : ℕ) (up : Vec3) (cs : List LibCtrl) : Plug n Unit where
  ctrl w dt :=
    match askAll up w dt cs with
    | .error e => .error e
    | .ok vs => .ok ((), vs)
  look _ c := c

end
end Arboris
