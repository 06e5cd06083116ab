import Verif.Model.Contact

/-!
# `BallAndSocketConstraint` registered in a world

`n` is `world.ndof`.
-/

namespace Arboris
open Matrix Spec Mech Build

noncomputable section

/-- a `SubFrame` of a world, core.py:1077-1124: its body (the ground, or a body given by its rank in `world.iterbodies()` below the
ground) and its pose in this body -/
structure PinFrame where
  body : Option ℕ
  bpose : Mat4

/-- `SubFrame.pose`, core.py:1121-1126 -/
def framePose {n : ℕ} {σ : Type} (w : MWorld n σ) (f : PinFrame) : Mat4 := (bodyAt w f.body).pose * f.bpose

/-- `SubFrame.jacobian`, core.py:1135-1140 -/
def frameJac {n : ℕ} {σ : Type} (w : MWorld n σ) (f : PinFrame) : Matrix (Fin 6) (Fin n) ℝ := iadjointBody f.bpose * (bodyAt w f.body).jac

open Classical in
/-- constraints.py:185, 193-195 `self._frames[k].pose`, `self._frames[k].jacobian`: what a ball-and-socket constraint between the
frames `f0` and `f1` reads of the world -/
def pinLook {n : ℕ} {σ : Type} (pinv : Mat3 → Mat3) (f0 f1 : PinFrame) (w : MWorld n σ) (c : Con n) : Con n :=
  if h : c.cls = ballAndSocket n pinv then
    ⟨ballAndSocket n pinv, { (cast (congrArg ConClass.St h) c.st : BSState n) with
      pose0 := framePose w f0, pose1 := framePose w f1, jac0 := frameJac w f0, jac1 := frameJac w f1 }⟩
  else c

/-- a world with the controllers `ctrl` and with such a constraint -/
def pinPlug {n : ℕ} {σ : Type} (ctrl : MWorld n σ → ℝ → Except PyErr (σ × List (CtrlVal n))) (pinv : Mat3 → Mat3) (f0 f1 : PinFrame) : Plug n σ where
  ctrl := ctrl
  look := pinLook pinv f0 f1

end
end Arboris
