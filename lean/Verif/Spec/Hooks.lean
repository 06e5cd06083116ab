import Verif.Spec.World
import Verif.Model.Hooks

/-!
# Specification vocabulary: when the settings of the controllers are read
-/

namespace Arboris.Spec
open Matrix Mech Sim

noncomputable section

/-- the same call of `simulate`, the world being seen through `f` -/
def seenAs {W V : Type*} (f : W → V) : Ev W → Ev V
  | .worldInit => .worldInit
  | .obsInit i t w tl => .obsInit i t (f w) tl
  | .dynamic t => .dynamic t
  | .controllers dt => .controllers dt
  | .constraints dt => .constraints dt
  | .obsUpdate i dt t w => .obsUpdate i dt t (f w)
  | .integrate dt => .integrate dt
  | .obsFinish i => .obsFinish i

/-- some entry of the mass matrix is positive -/
def HasMass (b : Body) : Prop := ∃ i j, 0 < b.mass i j

open Classical in
/-- The generalized force of the weight of some bodies, of acceleration `γ` along `up`: of those that had mass when they were as in
`before`, with their present mass, pose and jacobian (`now`). -/
def weightOf {n : ℕ} (γ : ℝ) (up : Vec3) (before : List Body) (now : List (Body × BodyDyn n)) : Fin n → ℝ :=
  ((before.zip now).map fun x =>
    if HasMass x.1 then x.2.2.jacᵀ *ᵥ (x.2.1.mass *ᵥ (iadjointBody x.2.2.pose *ᵥ tw 0 (γ • up))) else 0).sum

/-- the operations are not calls of `world.init()` -/
def NoInit (os : List HandOp) : Prop := HandOp.init ∉ os

/-- the settings of the registered controllers after an operation of the script: an assignment changes one attribute of one controller,
`register` adds a controller, the others change nothing -/
def settle : List LibCtrl → HandOp → List LibCtrl
  | cs, .setGravity i γ => match cs[i]? with
    | some (.weight _) => cs.set i (.weight γ)
    | _ => cs
  | cs, .setGains i g => match cs[i]? with
    | some (.pd js _) => cs.set i (.pd js g)
    | _ => cs
  | cs, .register c => cs ++ [c]
  | cs, _ => cs

/-- the masses of the bodies after an operation of the script -/
def weigh : List Mat6 → HandOp → List Mat6
  | ms, .setMass r M => ms.set r M
  | ms, _ => ms

end
end Arboris.Spec
