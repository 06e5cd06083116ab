import Verif.Model.Joints
import Verif.Spec.Tree

/-!
# Model of `Body.update_geometric`, `Body.update_dynamic`, `World.update_geometric`, `World.update_dynamic`
and of `_SubFrame` (core.py)

The recursion of the Python code over `childrenjoints` is structural recursion on the forest of the bodies below the
ground (that the objects built through the API unfold to such a forest is property C54).
`update_*` store their results in the body objects; here they return the list of (body, stored values) in the order
in which the bodies are visited.
-/

namespace Arboris
open Matrix Spec

noncomputable section

/-- A `Body` object: the constant attributes (core.py:1175-1191). -/
structure Body where
  mass : Mat6
  viscosity : Mat6

/-- A joint with the frames it is attached to: `j.frame0.bpose`, `j.frame1.bpose` and `j.dof = slice(start, start+k)`. -/
structure Link where
  k : ℕ
  start : ℕ
  joint : JointVal k
  bpose0 : Mat4
  bpose1 : Mat4

/-- What `update_dynamic` stores in a body: core.py:1397-1400. -/
structure BodyDyn (n : ℕ) where
  pose : Mat4
  jac : Matrix (Fin 6) (Fin n) ℝ
  djac : Matrix (Fin 6) (Fin n) ℝ
  twist : Vec6

/-- `A[:, start:start+k] += B` (core.py:1435, 1438) -/
def addCols {n : ℕ} (A : Matrix (Fin 6) (Fin n) ℝ) (start k : ℕ) (B : Matrix (Fin 6) (Fin k) ℝ) :
    Matrix (Fin 6) (Fin n) ℝ :=
  Matrix.of fun i c =>
    if h : start ≤ c.val ∧ c.val < start + k then A i c + B i ⟨c.val - start, by omega⟩ else A i c

/-- `H_pc`, core.py:1275-1278 and 1420-1423 -/
def relPose (l : Link) : Mat4 :=
  let H_cn := l.bpose1
  let H_pr := l.bpose0
  let H_rn := l.joint.pose
  H_pr * (H_rn * invBody H_cn)

/-- One iteration of the loop of `Body.update_geometric`: core.py:1274-1280 -/
def geoStep (H_gp : Mat4) (l : Link) : Mat4 := H_gp * relPose l

/-- One iteration of the loop of `Body.update_dynamic`: core.py:1419-1440 -/
def dynStep {n : ℕ} (s : BodyDyn n) (l : Link) : BodyDyn n :=
  let H_gp := s.pose
  let J_pg := s.jac
  let dJ_pg := s.djac
  let T_pg := s.twist
  let H_cn := l.bpose1
  let H_pr := l.bpose0
  let H_rn := l.joint.pose
  let H_pc := H_pr * (H_rn * invBody H_cn)
  let child_pose := H_gp * H_pc
  let Ad_cp := iadjointBody H_pc
  let Ad_cn := adjointBody H_cn
  let Ad_rp := adjointBody (invBody H_pr)
  let dAd_nr := l.joint.idadjoint
  let dAd_cp := Ad_cn * (dAd_nr * Ad_rp)
  let T_nr := l.joint.twist
  let J_nr := l.joint.jac
  let dJ_nr := l.joint.djac
  let child_twist := Ad_cp *ᵥ T_pg + Ad_cn *ᵥ T_nr
  let child_jac := addCols (Ad_cp * J_pg) l.start l.k (Ad_cn * J_nr)
  let child_djac := addCols (dAd_cp * J_pg + Ad_cp * dJ_pg) l.start l.k (Ad_cn * dJ_nr)
  ⟨child_pose, child_jac, child_djac, child_twist⟩

/-- The recursion of core.py:1253-1280: poses of all descendant bodies, in visiting order. -/
def updateGeometric {B : Type} (pose : Mat4) : Forest Link B → List (B × Mat4)
  | .nil => []
  | .cons l b ch sib =>
    (b, geoStep pose l) :: (updateGeometric (geoStep pose l) ch ++ updateGeometric pose sib)

/-- The recursion of core.py:1282-1440: stored values of all descendant bodies, in visiting order. -/
def updateDynamic {B : Type} {n : ℕ} (s : BodyDyn n) : Forest Link B → List (B × BodyDyn n)
  | .nil => []
  | .cons l b ch sib => (b, dynStep s l) :: (updateDynamic (dynStep s l) ch ++ updateDynamic s sib)

/-- core.py:794-798: the values given to the ground. -/
def groundDyn (n : ℕ) : BodyDyn n := ⟨1, 0, 0, 0⟩

/-- `World.update_geometric` (core.py:747-758): pose of every body below the ground. -/
def worldGeometric {B : Type} (F : Forest Link B) : List (B × Mat4) := updateGeometric 1 F

/-- first part of `World.update_dynamic` (core.py:794-798). -/
def worldDynamic {B : Type} (n : ℕ) (F : Forest Link B) : List (B × BodyDyn n) := updateDynamic (groundDyn n) F

open Classical in
/-- `_nleffects` of a body: core.py:1401-1413 -/
def bodyNleffects (mass : Mat6) (twist : Vec6) : Mat6 :=
  let wx := skew (ang twist)
  let rx : Mat3 := if mass 5 5 ≤ 1e-10 then 0 else (mass 5 5)⁻¹ • b12 mass
  blk wx (rx * wx - wx * rx) 0 wx * mass

/-- The three sums of `World.update_dynamic`: core.py:800-812. -/
def worldMass {n : ℕ} (bs : List (Body × BodyDyn n)) : Matrix (Fin n) (Fin n) ℝ :=
  bs.foldl (fun acc x => acc + x.2.jacᵀ * x.1.mass * x.2.jac) 0
/-- core.py:801, 807-809 -/
def worldViscosity {n : ℕ} (bs : List (Body × BodyDyn n)) : Matrix (Fin n) (Fin n) ℝ :=
  bs.foldl (fun acc x => acc + x.2.jacᵀ * x.1.viscosity * x.2.jac) 0
/-- core.py:802, 810-812 -/
def worldNleffects {n : ℕ} (bs : List (Body × BodyDyn n)) : Matrix (Fin n) (Fin n) ℝ :=
  bs.foldl (fun acc x => acc +
    x.2.jacᵀ * (x.1.mass * x.2.djac + bodyNleffects x.1.mass x.2.twist * x.2.jac)) 0

/-! ### The same with the assertions of `Hg.inv`, `Hg.adjoint`, `Hg.iadjoint` kept -/

/-- core.py:1274-1280 with assertions -/
def geoStepE (H_gp : Mat4) (l : Link) : Except PyErr Mat4 := do
  let H_nc ← inv l.bpose1
  return H_gp * (l.bpose0 * (l.joint.pose * H_nc))

/-- core.py:1419-1440 with assertions, in evaluation order; `j.idadjoint` evaluates `Hg.adjoint(j.ipose)`
(rigidmotion.py:55-57); `l.joint.ipose` itself is produced by the joint. -/
def dynStepE {n : ℕ} (s : BodyDyn n) (l : Link) : Except PyErr (BodyDyn n) := do
  let H_nc ← inv l.bpose1
  let H_pc := l.bpose0 * (l.joint.pose * H_nc)
  let child_pose := s.pose * H_pc
  let Ad_cp ← iadjoint H_pc
  let Ad_cn ← adjoint l.bpose1
  let H_rp ← inv l.bpose0
  let Ad_rp ← adjoint H_rp
  let _ ← adjoint l.joint.ipose
  let dAd_cp := Ad_cn * (l.joint.idadjoint * Ad_rp)
  let child_twist := Ad_cp *ᵥ s.twist + Ad_cn *ᵥ l.joint.twist
  let child_jac := addCols (Ad_cp * s.jac) l.start l.k (Ad_cn * l.joint.jac)
  let child_djac := addCols (dAd_cp * s.jac + Ad_cp * s.djac) l.start l.k (Ad_cn * l.joint.djac)
  return ⟨child_pose, child_jac, child_djac, child_twist⟩

/-- core.py:1253-1280 with assertions -/
def updateGeometricE {B : Type} (pose : Mat4) : Forest Link B → Except PyErr (List (B × Mat4))
  | .nil => .ok []
  | .cons l b ch sib => do
    let p ← geoStepE pose l
    let rc ← updateGeometricE p ch
    let rs ← updateGeometricE pose sib
    return (b, p) :: (rc ++ rs)

/-- core.py:1282-1440 with assertions -/
def updateDynamicE {B : Type} {n : ℕ} (s : BodyDyn n) : Forest Link B → Except PyErr (List (B × BodyDyn n))
  | .nil => .ok []
  | .cons l b ch sib => do
    let d ← dynStepE s l
    let rc ← updateDynamicE d ch
    let rs ← updateDynamicE s sib
    return (b, d) :: (rc ++ rs)

/-! ### Sub-frames -/

/-- `_SubFrame.pose/twist/jacobian/djacobian`: core.py:1123-1150, with the bodies' values up to date. -/
def subFrame {n : ℕ} (d : BodyDyn n) (bpose : Mat4) : BodyDyn n :=
  ⟨d.pose * bpose, iadjointBody bpose * d.jac, iadjointBody bpose * d.djac, iadjointBody bpose *ᵥ d.twist⟩

end
end Arboris
