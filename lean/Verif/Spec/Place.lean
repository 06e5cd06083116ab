import Verif.Spec.World

/-!
# Specification vocabulary: putting a whole mechanism somewhere else
-/

namespace Arboris.Spec
open Matrix Mech Build

noncomputable section

/-- the joints attached to the ground are attached to it elsewhere, moved by `Q`; the others are unchanged -/
def placeTree (Q : Mat4) : Forest MLink Body → Forest MLink Body
  | .nil => .nil
  | .cons l b ch sib => .cons { l with bpose0 := Q * l.bpose0 } b ch (placeTree Q sib)

/-- the mechanism moved by `Q`: the joints attached to the ground are attached elsewhere, the poses of the bodies are moved;
joints, jacobians, twists, velocities, matrices, forces, constraints, memories are the same -/
def place {n : ℕ} {σ : Type} (Q : Mat4) (w : MWorld n σ) : MWorld n σ :=
  { w with tree := placeTree Q w.tree, dyn := w.dyn.map fun x => (x.1, { x.2 with pose := Q * x.2.pose }) }

/-- the controllers and constraints of `P'` do in the moved world what those of `P` do in the world -/
structure Follows {n : ℕ} {σ : Type} (Q : Mat4) (P P' : Plug n σ) : Prop where
  ctrl : ∀ w dt, P'.ctrl (place Q w) dt = P.ctrl w dt
  look : ∀ w c, P'.look (place Q w) c = P.look w c

/-- a call where an observer sees `f w` instead of `w` -/
def seeing {W W' : Type*} (f : W → W') : Sim.Ev W → Sim.Ev W'
  | .worldInit => .worldInit
  | .obsInit i t w tl => .obsInit i t (f w) tl
  | .dynamic t => .dynamic t
  | .controllers dt => .controllers dt
  | .constraints dt => .constraints dt
  | .obsUpdate i dt t w => .obsUpdate i dt t (f w)
  | .integrate dt => .integrate dt
  | .obsFinish i => .obsFinish i

end
end Arboris.Spec
