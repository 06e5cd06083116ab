import Verif.Model.Tree

/-!
# Specification vocabulary: valid links, moving links

`Link` and `JointVal` are plain records of observable joint attributes; everything else here is stated without the
model's functions.
-/

namespace Arboris.Spec
open Matrix

/-- The part `ν[start : start+k]` of a velocity vector. -/
def slice {n : ℕ} (ν : Fin n → ℝ) (start k : ℕ) (h : start + k ≤ n) : Fin k → ℝ :=
  fun i => ν ⟨start + i.val, by omega⟩

/-- A link whose poses are rigid motions and whose joint reports a correct inverse pose. -/
structure ValidLink (l : Link) : Prop where
  bpose0 : IsRigid l.bpose0
  bpose1 : IsRigid l.bpose1
  pose : IsRigid l.joint.pose
  ipose : l.joint.pose * l.joint.ipose = 1

/-- The joint's dof range fits in `ν`, and its twist is its jacobian times its part of `ν`. -/
def Consistent {n : ℕ} (ν : Fin n → ℝ) (l : Link) : Prop :=
  ∃ h : l.start + l.k ≤ n, l.joint.twist = l.joint.jac *ᵥ slice ν l.start l.k h

/-- A link in motion: the joint attributes are functions of time, the attachments and dof range are constant. -/
structure LinkT where
  k : ℕ
  start : ℕ
  joint : ℝ → JointVal k
  bpose0 : Mat4
  bpose1 : Mat4

/-- The link at time `t`. -/
def LinkT.at (l : LinkT) (t : ℝ) : Link := ⟨l.k, l.start, l.joint t, l.bpose0, l.bpose1⟩

/-- The joint's pose really moves with the twist it reports. -/
def LinkT.Moving (l : LinkT) (t : ℝ) : Prop := HasTwist (fun s => (l.joint s).pose) (l.joint t).twist t

/-- The joint's `djacobian` is the derivative of its `jacobian`. -/
def LinkT.MovingJac (l : LinkT) (t : ℝ) : Prop := HasDeriv (fun s => (l.joint s).jac) (l.joint t).djac t

/-- The joint's twist is not changed by the joint's own displacement: `H hat(T) = hat(T) H`
(screw motion about a fixed axis, pure translation, rest). -/
def LinkT.OwnInvariant (l : LinkT) (t : ℝ) : Prop :=
  (l.joint t).pose * hat (l.joint t).twist = hat (l.joint t).twist * (l.joint t).pose

/-- The tree at time `t`. -/
def treeAt {B : Type} (F : Forest LinkT B) (t : ℝ) : Forest Link B := F.map (fun l => l.at t) id

/-! Links made of library joints -/

/-- A link made of one of the eleven linear joint classes, following the path `q` with velocity `q'`. -/
noncomputable def linLink (k : LinKind) (q q' : ℝ → Fin k.ndof → ℝ) (start : ℕ) (b0 b1 : Mat4) : LinkT :=
  ⟨k.ndof, start, fun t => k.val (q t) (q' t), b0, b1⟩
/-- A link made of a `FreeJoint`. -/
noncomputable def freeLink (H : ℝ → Mat4) (T : ℝ → Vec6) (start : ℕ) (b0 b1 : Mat4) : LinkT :=
  ⟨6, start, fun t => freeVal (H t) (T t), b0, b1⟩
/-- A link made of a `FixedJoint`. -/
noncomputable def fixedLink (start : ℕ) (b0 b1 : Mat4) : LinkT := ⟨0, start, fun _ => fixedVal, b0, b1⟩

end Arboris.Spec
