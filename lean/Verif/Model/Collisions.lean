import Verif.Model.Constraints
import Verif.Model.Homogeneous
import Mathlib.Data.Real.Sign

/-!
# Model of `collisions.py`, of `PointContact.update` and of `get_all_contacts` (constraints.py)

`sort z` is the answer of `numpy.argsort(numpy.absolute(z))` used by `Hg.zaligned`; `amin x` the answer of
`numpy.argmin(x)`.  Their specifications are hypotheses of the theorems.
-/

namespace Arboris
open Matrix

noncomputable section

/-- the tuple `(sdist, H_gc0, H_gc1)` -/
structure Collision where
  sdist : ℝ
  H0 : Mat4
  H1 : Mat4

/-- `H[0:3, 3] = p` -/
def setPos (H : Mat4) (p : Vec3) : Mat4 :=
  !![H 0 0, H 0 1, H 0 2, p 0;
     H 1 0, H 1 1, H 1 2, p 1;
     H 2 0, H 2 1, H 2 2, p 2;
     H 3 0, H 3 1, H 3 2, H 3 3]

/-- `H[0:3, 2]` -/
def zcol (H : Mat4) : Vec3 := ![H 0 2, H 1 2, H 2 2]

/-- collisions.py:226-236 `_sphere_sphere_collision`.  For coincident centres numpy computes `0/0 = nan` and the
assertion of `zaligned` fails; here `0⁻¹ • 0 = 0` fails the same assertion. -/
def sphereSphere (sort : Vec3 → Equiv.Perm (Fin 3)) (p_g0 : Vec3) (radius0 : ℝ) (p_g1 : Vec3) (radius1 : ℝ) :
    Except PyErr Collision := do
  let vec := p_g1 - p_g0
  let sdist := norm3 vec - radius0 - radius1
  let normal := (norm3 vec)⁻¹ • vec
  let H ← zaligned normal (sort normal)
  let z := zcol H
  let H_gc0 := setPos H (p_g0 + radius0 • z)
  let H_gc1 := setPos H_gc0 (pos H_gc0 + sdist • z)
  return ⟨sdist, H_gc0, H_gc1⟩

open Classical in
/-- collisions.py:277-290 `_plane_sphere_collision` (the comparison of the norm with 1 in exact arithmetic) -/
def planeSphere (sort : Vec3 → Equiv.Perm (Fin 3)) (H_g0 : Mat4) (normal : Vec3) (d : ℝ) (p_g1 : Vec3) (radius1 : ℝ) :
    Except PyErr Collision := do
  if ¬ ishomogeneousmatrix H_g0 then .error .assertion
  else if norm3 normal ≠ 1 then .error .assertion
  else if radius1 < 0 then .error .assertion
  else
    let H_0g ← inv H_g0
    let p_01 ← pdot H_0g p_g1
    let csdist := normal ⬝ᵥ p_01 - d
    let sdist := csdist - radius1
    let H ← zaligned normal (sort normal)
    let H_gc0 := setPos H (p_01 - csdist • normal)
    let H_gc1 := setPos H_gc0 (p_01 - (Real.sign sdist * radius1) • normal)
    return ⟨sdist, H_gc0, H_gc1⟩

/-- collisions.py:362-364 `near_face` -/
def nearFace (h p : Vec3) : Fin 6 → ℝ := tw (h - p) (h + p)

/-- collisions.py:366-373: `f_0` for the face `i`: the point with one coordinate moved to the face -/
def facePoint (h p : Vec3) (i : Fin 6) : Vec3 :=
  match e6.symm i with
  | .inl k => Function.update p k (h k)
  | .inr k => Function.update p k (-h k)

/-- collisions.py:367-373: `normal` for the face `i` -/
def faceNormal (i : Fin 6) : Vec3 :=
  match e6.symm i with
  | .inl k => Pi.single k 1
  | .inr k => Pi.single k (-1)

open Classical in
/-- collisions.py:357-393 `_box_sphere_collision` -/
def boxSphere (sort : Vec3 → Equiv.Perm (Fin 3)) (amin : (Fin 6 → ℝ) → Fin 6) (H_g0 : Mat4) (h : Vec3) (p_g1 : Vec3)
    (radius1 : ℝ) : Except PyErr Collision := do
  if ¬ ishomogeneousmatrix H_g0 then .error .assertion
  else
    let H_0g ← inv H_g0
    let p_01 ← pdot H_0g p_g1
    if ∀ k, |p_01 k| ≤ h k then
      let i := amin (nearFace h p_01)
      let f_g ← pdot H_g0 (facePoint h p_01 i)
      let normal := faceNormal i
      let sdist := -norm3 (f_g - p_g1) - radius1
      let H ← zaligned normal (sort normal)
      return ⟨sdist, setPos H f_g, setPos H (p_g1 - radius1 • normal)⟩
    else
      let f_g ← pdot H_g0 (fun k => max (min (h k) (p_01 k)) (-h k))
      let vec := p_g1 - f_g
      let normal := (norm3 vec)⁻¹ • vec
      let sdist := norm3 vec - radius1
      let H ← zaligned normal (sort normal)
      return ⟨sdist, setPos H f_g, setPos H (p_g1 - radius1 • normal)⟩

/-! ### choose_solver -/

/-- the shape classes of shapes.py, and any other subclass of `Shape` -/
inductive ShapeKind where
  | plane | point | box | cylinder | sphere | other
  deriving DecidableEq, Repr

/-- the solver functions -/
inductive Solver where
  | sphereSphere | spherePoint | planeSphere | planePoint | boxSphere | boxPoint
  deriving DecidableEq, Repr

/-- collisions.py:17-83 `choose_solver`: the solver, and whether the shapes are swapped -/
def chooseSolver : ShapeKind → ShapeKind → Except PyErr (Solver × Bool)
  | .sphere, .sphere => .ok (.sphereSphere, false)
  | .sphere, .point => .ok (.spherePoint, false)
  | .sphere, .plane => .ok (.planeSphere, true)
  | .sphere, .box => .ok (.boxSphere, true)
  | .point, .sphere => .ok (.spherePoint, true)
  | .point, .plane => .ok (.planePoint, true)
  | .plane, .sphere => .ok (.planeSphere, false)
  | .plane, .point => .ok (.planePoint, false)
  | .box, .sphere => .ok (.boxSphere, false)
  | .box, .point => .ok (.boxPoint, false)
  | _, _ => .error .notImplemented

/-- the classes asserted by each solver for its two shapes (collisions.py:92-93, 106-107, 119-120, 137-138, 156-157,
171-172) -/
def Solver.expects : Solver → ShapeKind × ShapeKind
  | .sphereSphere => (.sphere, .sphere)
  | .spherePoint => (.sphere, .point)
  | .planeSphere => (.plane, .sphere)
  | .planePoint => (.plane, .point)
  | .boxSphere => (.box, .sphere)
  | .boxPoint => (.box, .point)

/-! ### get_all_contacts -/

/-- a registered shape: identity, class, and the body its frame belongs to -/
structure ShapeObj where
  id : ℕ
  kind : ShapeKind
  body : ℕ
  deriving DecidableEq, Repr

/-- constraints.py:872-885, inner loop for `s0`: contacts (the pair of shapes as reordered by `choose_solver`,
constraints.py:267) with the later shapes -/
def contactsWith (s0 : ShapeObj) (later : List ShapeObj) : List (ShapeObj × ShapeObj) :=
  later.filterMap fun s1 =>
    if s0.body = s1.body then none
    else match chooseSolver s0.kind s1.kind with
      | .ok (_, swap) => some (if swap then (s1, s0) else (s0, s1))
      | .error _ => none

/-- constraints.py:846-885 `get_all_contacts`; `chooseSolver` raises nothing but `NotImplementedError`, which is caught.
The arguments of the contact class are assumed to be right (`friction_coeff` has no default). -/
def allContacts : List ShapeObj → List (ShapeObj × ShapeObj)
  | [] => []
  | s :: l => contactsWith s l ++ allContacts l

/-! ### PointContact.update -/

/-- what `PointContact.update` stores: the frames' `bpose`, `_sdist`, `_is_active`, and the local `dsdist` -/
structure ContactUpdate where
  bpose0 : Mat4
  bpose1 : Mat4
  sdist : ℝ
  dsdist : ℝ
  active : Bool

open Classical in
/-- constraints.py:281-299 `PointContact.update(dt)`, after the collision solver returned `c`; `B0`, `B1`, `T0`, `T1` are
the poses and twists of the bodies of the shapes.  The frames' twists are read after their `bpose` was set
(core.py:1130-1134). -/
def contactUpdate (c : Collision) (B0 B1 : Mat4) (T0 T1 : Vec6) (proximity dt : ℝ) : Except PyErr ContactUpdate := do
  let H_b0g ← inv B0
  let H_b1g ← inv B1
  if ¬ ishomogeneousmatrix (H_b0g * c.H0) then .error .assertion
  else if ¬ ishomogeneousmatrix (H_b1g * c.H1) then .error .assertion
  else
    let H_c0g ← inv c.H0
    let Ad ← adjoint (H_c0g * c.H1)
    let A1 ← iadjoint (H_b1g * c.H1)
    let A0 ← iadjoint (H_b0g * c.H0)
    let dsdist := (Ad *ᵥ (A1 *ᵥ T1)) 5 - (A0 *ᵥ T0) 5
    return ⟨H_b0g * c.H0, H_b1g * c.H1, c.sdist, dsdist, decide (c.sdist + dsdist * dt < proximity)⟩

end
end Arboris
