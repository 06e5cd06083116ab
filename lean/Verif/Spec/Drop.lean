import Verif.Spec.Mass
import Verif.Model.Contact

/-!
# Specification vocabulary: a ball falling on the ground
-/

namespace Arboris.Spec
open Matrix Mech Build

noncomputable section

/-- Height above the ground and vertical speed of a falling ball after a time step `dt`: gravity `γ` (negative downwards) changes the
speed, then the speed the height; if the ball would then touch the ground, and is `near` it, it stops on the ground at the end of the
step. -/
def bounce (γ near dt : ℝ) (x : ℝ × ℝ) : ℝ × ℝ :=
  open Classical in
  if x.1 + dt * x.2 < near ∧ x.1 + dt * (x.2 + dt * γ) ≤ 0 then (0, -x.1 / dt) else (x.1 + dt * (x.2 + dt * γ), x.2 + dt * γ)

/-- the same along a timeline -/
def fall (γ near : ℝ) : List ℝ → ℝ × ℝ → ℝ × ℝ
  | t :: t' :: ts, x => fall γ near (t' :: ts) (bounce γ near (t' - t) x)
  | _, x => x

/-- force of the ground on a ball of mass `m` during such a step: what it takes to stop it on the ground -/
def reaction (m γ near dt : ℝ) (x : ℝ × ℝ) : ℝ :=
  open Classical in
  if x.1 + dt * x.2 < near ∧ x.1 + dt * (x.2 + dt * γ) ≤ 0 then m * ((-x.1 / dt - x.2) / dt - γ) else 0

/-- the same during the last step of a timeline -/
def lastReaction (m γ near : ℝ) : List ℝ → ℝ × ℝ → ℝ
  | t :: t' :: t'' :: ts, x => lastReaction m γ near (t' :: t'' :: ts) (bounce γ near (t' - t) x)
  | [t, t'], x => reaction m γ near (t' - t) x
  | _, _ => 0

/-- A solid: attitude, mass, inertia about its centre, mass matrix; and the ground: upward unit normal `up`, the plane of the points `x`
with `up · x = d`.  The sphere of radius `r` around the centre of the solid touches the ground when the centre is at `foot`. -/
structure BallSetup where
  R : Mat3
  m : ℝ
  I : Mat3
  M : Mat6
  up : Vec3
  d : ℝ
  r : ℝ
  foot : Vec3
  rot : IsRotation R
  mass_pos : 0 < m
  mass : IsRigidMass M m 0 I
  pd : SymPD M
  unit : norm3 up = 1
  radius : 0 ≤ r
  touch : up ⬝ᵥ foot = d + r

/-- The tree of bodies of the world, and the velocities, when the solid is at height `x.1` above the ground and goes up at speed `x.2`: one
free joint between the ground and the solid, whose position is the pose of the solid; its velocity is the twist of the solid, in the axes of the
solid. -/
structure BallAt (S : BallSetup) (p : TouchParams) (x : ℝ × ℝ) (w : MWorld 6 Unit) : Prop where
  tree : ∃ start, w.tree = .cons ⟨.free (mkH S.R (S.foot + x.1 • S.up)) (tw 0 (x.2 • S.Rᵀ *ᵥ S.up)), start, 1, 1⟩ ⟨S.M, 0⟩ .nil .nil
  contact : ∃ s : TouchState 6, w.cons = [⟨softContact 6 p, s⟩] ∧ s.enabled = true

end
end Arboris.Spec
