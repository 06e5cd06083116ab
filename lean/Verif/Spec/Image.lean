import Verif.Spec.Units

/-!
# Specification vocabulary: the image of a mechanism in a mirror, or in another unit of length

The points of space are moved by `(x, y, z) ↦ f • (s 0 * x, s 1 * y, s 2 * z)`, `f > 0` and the `s i` being signs: with
`f = 1` and one `s i = -1` this is the reflection in a plane of coordinates; with `s = 1` this is an enlargement, or the same
points in another unit of length.  Every particle of the mechanism is moved, keeping its mass.
-/

namespace Arboris.Spec
open Matrix Mech Build

noncomputable section

/-- the signs of a reflection (or of a half-turn) -/
def IsSigns (s : Vec3) : Prop := ∀ i, s i = 1 ∨ s i = -1

/-- entry `(i, j)` multiplied by `a i * b j` -/
def resize {m n : Type} (a : m → ℝ) (b : n → ℝ) (M : Matrix m n ℝ) : Matrix m n ℝ := Matrix.of fun i j => a i * M i j * b j

/-- what homogeneous coordinates of points are multiplied by -/
def pointF (f : ℝ) (s : Vec3) : Fin 4 → ℝ := ![f * s 0, f * s 1, f * s 2, 1]

/-- what the coordinates of a twist are multiplied by: an angular velocity is reversed when the axis is kept by a reflection
and kept when the axis is reversed; a linear velocity moves with the points -/
def twistF (f : ℝ) (s : Vec3) : Vec6 :=
  ![s 0 * s 1 * s 2 * s 0, s 0 * s 1 * s 2 * s 1, s 0 * s 1 * s 2 * s 2, f * s 0, f * s 1, f * s 2]

/-- the image of a pose (of a frame seen from another) -/
def imagePose (f : ℝ) (s : Vec3) (H : Mat4) : Mat4 := resize (pointF f s) (pointF f s)⁻¹ H

/-- for each dof of a joint, the coordinate of twists that it drives when the other dofs are at rest at zero:
`0, 1, 2` for a rotation about x, y, z, `3, 4, 5` for a translation along x, y, z -/
def _root_.Arboris.LinKind.axes : LinKind → List (Fin 6)
  | .RzRyRx => [2, 1, 0] | .RzRy => [2, 1] | .RzRx => [2, 0] | .RyRx => [1, 0]
  | .Rz => [2] | .Ry => [1] | .Rx => [0] | .TxTyTz => [3, 4, 5] | .Tz => [5] | .Ty => [4] | .Tx => [3]

/-- the same for every joint -/
def jointAxes : JAttr → List (Fin 6)
  | .lin k _ _ => k.axes
  | .free _ _ => [0, 1, 2, 3, 4, 5]
  | .fixed => []

/-- what dof `i` of the joint is multiplied by -/
def dofF (f : ℝ) (s : Vec3) (j : JAttr) (i : ℕ) : ℝ := twistF f s ((jointAxes j).getD i 0)

/-- the image of a joint: its pose becomes `imagePose` of its pose -/
def imageJoint (f : ℝ) (s : Vec3) : JAttr → JAttr
  | .lin k q dq => .lin k (fun i => dofF f s (.lin k q dq) i.val * q i) (fun i => dofF f s (.lin k q dq) i.val * dq i)
  | .free H T => .free (imagePose f s H) (twistF f s * T)
  | .fixed => .fixed

/-- the image of a joint with the frames it is attached to -/
def imageLink (f : ℝ) (s : Vec3) (l : MLink) : MLink :=
  { att := imageJoint f s l.att, start := l.start, bpose0 := imagePose f s l.bpose0, bpose1 := imagePose f s l.bpose1 }

/-- the image of a body: its mass matrix, seen as a quadratic form, takes on image twists `f ^ 2` times its values -/
def imageBody (f : ℝ) (s : Vec3) (b : Body) : Body :=
  ⟨f ^ 2 • resize (twistF f s)⁻¹ (twistF f s)⁻¹ b.mass, f ^ 2 • resize (twistF f s)⁻¹ (twistF f s)⁻¹ b.viscosity⟩

/-- what all the dofs of the tree are multiplied by, in the order of `iterjoints` -/
def treeF (f : ℝ) (s : Vec3) (F : Forest MLink Body) : List ℝ :=
  F.links.flatMap fun l => (jointAxes l.att).map (twistF f s)

/-- the same, for the generalized velocity of the world -/
def gvelF {n : ℕ} (f : ℝ) (s : Vec3) (F : Forest MLink Body) : Fin n → ℝ := fun i => (treeF f s F).getD i.val 1

/-- the image of what `update_dynamic` leaves in a body -/
def imageDyn {n : ℕ} (f : ℝ) (s : Vec3) (D : Fin n → ℝ) (x : BodyDyn n) : BodyDyn n :=
  ⟨imagePose f s x.pose, resize (twistF f s) D⁻¹ x.jac, resize (twistF f s) D⁻¹ x.djac, twistF f s * x.twist⟩

/-- the image of the answer of a controller: the power of the forces is multiplied by `f ^ 2` -/
def imageCtrl {n : ℕ} (f : ℝ) (D : Fin n → ℝ) (v : CtrlVal n) : CtrlVal n :=
  ⟨f ^ 2 • (D⁻¹ * v.gforce), f ^ 2 • resize D⁻¹ D⁻¹ v.impedance⟩

/-- the image of a world without constraints -/
def image {n : ℕ} {σ : Type} (f : ℝ) (s : Vec3) (w : MWorld n σ) : MWorld n σ :=
  let D : Fin n → ℝ := gvelF f s w.tree
  { tree := w.tree.map (imageLink f s) (imageBody f s)
    gvel := D * w.gvel
    dyn := w.dyn.map fun x => (imageBody f s x.1, imageDyn f s D x.2)
    mass := f ^ 2 • resize D⁻¹ D⁻¹ w.mass
    viscosity := f ^ 2 • resize D⁻¹ D⁻¹ w.viscosity
    nleffects := f ^ 2 • resize D⁻¹ D⁻¹ w.nleffects
    ctrl := ⟨f ^ 2 • (D⁻¹ * w.ctrl.gforce), f ^ 2 • resize D⁻¹ D⁻¹ w.ctrl.impedance, (f ^ 2)⁻¹ • resize D D w.ctrl.admittance⟩
    cons := w.cons
    mem := w.mem }

/-- the controllers of `P'` do to the image of a world, all bodies of which are as `G` says, what those of `P` do to the world -/
def ImageControl {n : ℕ} {σ : Type} (f : ℝ) (s : Vec3) (G : Body → Prop) (P P' : Plug n σ) : Prop :=
  ∀ w dt, (∀ x ∈ w.dyn, G x.1) →
    P'.ctrl (image f s w) dt = (P.ctrl w dt).map fun r => (r.1, r.2.map (imageCtrl f (gvelF f s w.tree)))

end
end Arboris.Spec
