import Verif.Model.Control
import Verif.Model.Constraints

/-!
# `JointLimits` registered in a world

`n` is `world.ndof`.
-/

namespace Arboris
open Matrix Spec Mech Build

noncomputable section

/-- `joint.gpos[0]`, for the joint of rank `i` in `world.iterjoints()` -/
def jointPos {n : ℕ} {σ : Type} (w : MWorld n σ) (i : ℕ) : ℝ :=
  match (w.tree.links[i]? : Option MLink) with
  | some l => l.pd.gpos.getD 0 0
  | none => 0

open Classical in
/-- constraints.py:67 `self._joint.gpos`: what a `JointLimits` of constants `p`, on the joint of one dof of rank `i`, reads of the
world -/
def limitLook {n : ℕ} {σ : Type} (pinv : Matrix (Fin 1) (Fin 1) ℝ → Matrix (Fin 1) (Fin 1) ℝ) (p : JLParams 1) (i : ℕ) (w : MWorld n σ) (c : Con n) : Con n :=
  if h : c.cls = jointLimits n pinv p then
    ⟨jointLimits n pinv p, { (cast (congrArg ConClass.St h) c.st : JLState 1) with gpos := fun _ => jointPos w i }⟩
  else c

/-- a world with the controllers `ctrl` and with such a `JointLimits` -/
def limitPlug {n : ℕ} {σ : Type} (ctrl : MWorld n σ → ℝ → Except PyErr (σ × List (CtrlVal n))) (pinv : Matrix (Fin 1) (Fin 1) ℝ → Matrix (Fin 1) (Fin 1) ℝ)
    (p : JLParams 1) (i : ℕ) : Plug n σ where
  ctrl := ctrl
  look := limitLook pinv p i

end
end Arboris
