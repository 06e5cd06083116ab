import Verif.Model.Pin
import Verif.Proofs.Sliding

/-!
# Specification vocabulary: a closed loop
-/

namespace Arboris.Spec
open Matrix Mech Build

noncomputable section

/-- the pose of a body of the world, the ground or the body of this rank -/
def bodyPose {n : ℕ} {σ : Type} (w : MWorld n σ) : Option ℕ → Mat4
  | none => 1
  | some i => (((worldDynamic n (linksOf w))[i]?).map fun x => x.2.pose).getD 1

/-- the origin of the frame in the ground frame -/
def center {n : ℕ} {σ : Type} (w : MWorld n σ) (f : PinFrame) : Vec3 := pos (bodyPose w f.body * f.bpose)

/-- the ball is in the socket -/
def Closed {n : ℕ} {σ : Type} (f0 f1 : PinFrame) (w : MWorld n σ) : Prop := center w f0 = center w f1

/-- the same joint, attached at the same places; a joint described by coordinates has any position and velocity -/
structure Moves (l l' : MLink) : Prop where
  bpose0 : l'.bpose0 = l.bpose0
  bpose1 : l'.bpose1 = l.bpose1
  joint : l'.att = l.att ∨ ∃ k q dq q' dq', l.att = .lin k q dq ∧ l'.att = .lin k q' dq'

/-- the same mechanism can be put in a position where the ball is in the socket -/
def Closable {n : ℕ} {σ : Type} (f0 f1 : PinFrame) (w : MWorld n σ) : Prop :=
  ∃ w1 : MWorld n σ, ForestRel Moves w.tree w1.tree ∧ Closed f0 f1 w1

/-- a mechanism of joints that slide, with one enabled ball-and-socket constraint between the frames `f0` and `f1` -/
structure Pinned {n : ℕ} {σ : Type} (pinv : Mat3 → Mat3) (f0 f1 : PinFrame) (w : MWorld n σ) : Prop where
  links : ∀ l ∈ w.tree.links, Sliding l ∧ RigidLink l
  frame0 : IsRigid f0.bpose
  frame1 : IsRigid f1.bpose
  con : ∃ s : BSState n, w.cons = [⟨ballAndSocket n pinv, s⟩] ∧ s.enabled = true

end
end Arboris.Spec
