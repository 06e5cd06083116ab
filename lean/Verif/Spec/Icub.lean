import Verif.Spec.Build
import Verif.Spec.Mass
import Verif.Model.Icub

/-!
# Specification vocabulary: robots described by tables of shapes
-/

namespace Arboris.Spec
open Matrix Graph Build

noncomputable section

/-- inertia, about its centre, of a homogeneous solid of mass `m`: a box of half-lengths `x, y, z`; a cylinder of length `l` and
radius `r` along `z`; a ball of radius `r` -/
def solidInertia : Dims → ℝ → Mat3
  | [x, y, z], m => diagonal ![m * (y ^ 2 + z ^ 2) / 3, m * (x ^ 2 + z ^ 2) / 3, m * (x ^ 2 + y ^ 2) / 3]
  | [l, r], m => diagonal ![m * (3 * r ^ 2 + l ^ 2) / 12, m * (3 * r ^ 2 + l ^ 2) / 12, m * r ^ 2 / 2]
  | [r], m => diagonal ![2 * m * r ^ 2 / 5, 2 * m * r ^ 2 / 5, 2 * m * r ^ 2 / 5]
  | _, _ => 0

/-- mass of a list of solids -/
def partsMass (parts : List (Dims × ℝ × Mat4)) : ℝ := (parts.map fun d => d.2.1).sum
/-- sum of `mass • centre` -/
def partsMoment (parts : List (Dims × ℝ × Mat4)) : Vec3 := (parts.map fun d => d.2.1 • pos d.2.2).sum
/-- inertia about the origin (parallel axis theorem) -/
def partsInertia (parts : List (Dims × ℝ × Mat4)) : Mat3 :=
  (parts.map fun d => rot d.2.2 * solidInertia d.1 d.2.1 * (rot d.2.2)ᵀ - d.2.1 • (skew (pos d.2.2) * skew (pos d.2.2))).sum

/-- `M` is the mass matrix of the body made of the homogeneous solids `parts` (dimensions, mass, pose), rigidly joined -/
def IsAssembly (M : Mat6) (parts : List (Dims × ℝ × Mat4)) : Prop :=
  ∃ c, IsRigidMass M (partsMass parts) c (partsInertia parts) ∧ partsMass parts • c = partsMoment parts

/-- a body, with its name and its mass -/
structure HasParts (S : RS) (b : ℕ) (name : String) (parts : List (Dims × ℝ × Mat4)) : Prop where
  name : S.bname b = some name
  mass : IsAssembly (S.mass b) parts
  pd : SymPD (S.mass b)

/-- a link made for a row `(name, parent, H, child)`: a hinge about `z`, at angle zero, from a frame of the parent placed at `H` to the child -/
structure HasHinge (S : RS) (num : String → ℕ) (x : String × String × Mat4 × String) (l : FrameRef × ℕ × FrameRef) : Prop where
  parent : S.o.bodyOf l.1 = num x.2.1
  pose : S.bposeOf l.1 = x.2.2.1
  child : l.2.2 = .body (num x.2.2.2)
  name : S.jname l.2.1 = some x.1
  kind : S.jattr l.2.1 = .zero .Rz

/-- the shape described by dimensions; a point if there are none -/
def geoOfDims : Dims → ShapeGeo
  | [x, y, z] => .box ![x, y, z]
  | [l, r] => .cylinder l r
  | [r] => .sphere r
  | _ => .point

/-- a registered shape made for a row (name of its frame, name, body, class and dimensions, pose in the body) -/
structure HasSolid (S : RS) (num : String → ℕ) (x : Option String × String × String × ShapeGeo × Mat4) (s : ℕ) : Prop where
  registered : s ∈ S.w.shapes
  name : S.shname s = some x.2.1
  geo : S.geo s = x.2.2.2.1
  frame : ∃ f ∈ S.w.subframes, f < S.ns ∧ S.o.shapeFrame s = .sub f ∧ S.fname f = x.1 ∧ S.o.subBody f = num x.2.2.1 ∧ S.bpose f = x.2.2.2.2

/-- the rows of the shapes of the bodies -/
def bodyRows (l : List (String × List (Dims × Mat4))) : List (Option String × String × String × ShapeGeo × Mat4) :=
  l.flatMap fun x => x.2.map fun d => (none, x.1 ++ ".body_shape", x.1, geoOfDims d.1, d.2)

/-- the rows of the contact shapes -/
def contactRows (l : List (String × String × Dims × Mat4)) : List (Option String × String × String × ShapeGeo × Mat4) :=
  l.map fun x => (some x.1, x.1, x.2.1, geoOfDims x.2.2.1, x.2.2.2)

/-- the tables of the robot -/
def icubItems : IcubItems := ⟨icubBodies, icubJoints, icubShapes, icubContacts⟩

/-- The items are those of the tables of the robot, in some order. -/
structure Enumerates (D : IcubItems) : Prop where
  bodies : D.bodies.Perm icubBodies
  joints : D.joints.Perm icubJoints
  shapes : D.shapes.Perm icubShapes
  contacts : D.contacts.Perm icubContacts

/-- A program has added to a world with tree `F` the robot described by the tables `D`: a tree `G` below the ground, whose body named `x` has number
`num x`.  With a fixed base the ground takes the place of the waist. -/
structure IsRobot (D : IcubItems) (fixed shapes contacts : Bool) (S : RS) (F : Forest (FrameRef × ℕ × FrameRef) ℕ) (S' : RS)
    (G : Forest (FrameRef × ℕ × FrameRef) ℕ) (num : String → ℕ) : Prop where
  tree : Good S' (F.append G)
  keeps : Keeps S S'
  /-- one new body for each row; the waist is the ground if the base is fixed -/
  count : S'.nb = S.nb + D.bodies.length
  waist : fixed = true → num "waist" = S.w.ground
  new : ∀ x ∈ D.bodies, (fixed = true ∧ x.1 = "waist") ∨ (S.nb ≤ num x.1 ∧ num x.1 < S'.nb ∧ HasParts S' (num x.1) x.1 x.2)
  distinct : ∀ x ∈ D.bodies, ∀ y ∈ D.bodies, num x.1 = num y.1 → x.1 = y.1
  /-- the bodies of the tree -/
  all : ∀ b, b ∈ G.bodies ↔ ∃ x ∈ D.bodies, ¬ (fixed = true ∧ x.1 = "waist") ∧ num x.1 = b
  /-- one link for each joint of the table, one to the waist if it is free, and no other -/
  links : ∃ root Ls, G.links.Perm (root ++ Ls) ∧ List.Forall₂ (HasHinge S' num) D.joints Ls ∧
    (fixed = true ∧ root = [] ∨ fixed = false ∧ ∃ j, root = [(.body S.w.ground, j, .body (num "waist"))] ∧ S'.jattr j = .free 1 0 ∧ S'.jname j = some "root")
  ndof : S'.w.ndof = ((joints F).map S.o.ndof).sum + D.joints.length + if fixed then 0 else 6
  /-- one shape for each row, and no other -/
  shapes : ∃ ids, ids.Perm (List.range' S.nsh (S'.nsh - S.nsh)) ∧
    List.Forall₂ (HasSolid S' num) ((if shapes then bodyRows D.shapes else []) ++ if contacts then contactRows D.contacts else []) ids

end
end Arboris.Spec
