import Verif.Model.Control
import Verif.Model.Collisions

/-!
# `SoftFingerContact` registered in a world

The contact object (constraints.py:244-303, 423-439, 786-843) with its collision detection, and the world whose constraints are
such contacts.  `n` is `world.ndof`.
-/

namespace Arboris
open Matrix Spec Mech Build

noncomputable section

/-- variable part of a `SoftFingerContact`: `_is_enabled`; what it reads of the bodies of its two shapes (`pose`, `jacobian`,
`twist`); `bpose` of its two `MovingSubFrame`; `_sdist`, `_is_active`, `_force` -/
structure TouchState (n : ℕ) where
  enabled : Bool
  body0 : BodyDyn n
  body1 : BodyDyn n
  bpose0 : Mat4
  bpose1 : Mat4
  sdist : ℝ
  isActive : Bool
  force : Vec4

/-- constants of a `SoftFingerContact`, constraints.py:424-429: `_mu`, `_eps`, `_proximity`, and the collision solver applied to
the shapes, as a function of the poses of their bodies.  `pinv` is `numpy.linalg.pinv`. -/
structure TouchParams where
  pinv : Matrix (Fin 4) (Fin 4) ℝ → Matrix (Fin 4) (Fin 4) ℝ
  eps : Vec3 := ![1, 1, 1]
  mu : ℝ
  proximity : ℝ := 0.02
  collide : Mat4 → Mat4 → Except PyErr Collision

/-- `PointContact.update(dt)`, constraints.py:281-299 -/
def touchUpdate {n : ℕ} (p : TouchParams) (s : TouchState n) (dt : ℝ) : Except PyErr (TouchState n) :=
  match p.collide s.body0.pose s.body1.pose with
  | .error e => .error e
  | .ok c =>
    match contactUpdate c s.body0.pose s.body1.pose s.body0.twist s.body1.twist p.proximity dt with
    | .error e => .error e
    | .ok u => .ok { s with bpose0 := u.bpose0, bpose1 := u.bpose1, sdist := u.sdist, isActive := u.active, force := 0 }

/-- `SoftFingerContact.jacobian`, constraints.py:435-439, on the `pose` and `jacobian` of the two `MovingSubFrame`
(core.py:1113-1116, 1137-1141) -/
def touchJac {n : ℕ} (s : TouchState n) : Matrix (Fin 4) (Fin n) ℝ :=
  sfJac (s.body0.pose * s.bpose0) (s.body1.pose * s.bpose1) (iadjointBody s.bpose0 * s.body0.jac)
    (iadjointBody s.bpose1 * s.body1.jac)

/-- The class `SoftFingerContact`, constraints.py:244-303, 305-843.  An exception of `update` is raised by `touchEngine`; here the
state is then kept. -/
def softContact (n : ℕ) (p : TouchParams) : ConClass n where
  St := TouchState n
  ndol := 4
  enabled s := s.enabled
  update s dt :=
    match touchUpdate p s dt with
    | .ok s' => s'
    | .error _ => s
  active s := s.isActive
  jac s := touchJac s
  force s := s.force
  solve s vel Y dt :=
    let r := softSolve p.pinv p.eps p.mu s.sdist s.force vel Y dt
    ({ s with force := r.1 }, r.2)

/-- collisions.py:149-161 `plane_sphere_collision`: the frame of the plane has pose `F0` in its body, the frame of the sphere
`F1` in its own; `coeffs = (normal, d)` -/
def planeSphereShapes (sort : Vec3 → Equiv.Perm (Fin 3)) (F0 : Mat4) (normal : Vec3) (d : ℝ) (F1 : Mat4) (radius : ℝ)
    (B0 B1 : Mat4) : Except PyErr Collision :=
  planeSphere sort (B0 * F0) normal d (pos (B1 * F1)) radius

/-- the body of a shape: the ground, or a body given by its rank in `world.iterbodies()` below the ground -/
def bodyAt {n : ℕ} {σ : Type} (w : MWorld n σ) : Option ℕ → BodyDyn n
  | none => groundDyn n
  | some i =>
    match w.dyn[i]? with
    | some x => x.2
    | none => groundDyn n

open Classical in
/-- what a contact of constants `p`, between shapes of the bodies `b0` and `b1`, reads of the world -/
def touchLook {n : ℕ} {σ : Type} (p : TouchParams) (b0 b1 : Option ℕ) (w : MWorld n σ) (c : Con n) : Con n :=
  if h : c.cls = softContact n p then
    ⟨softContact n p, { (cast (congrArg ConClass.St h) c.st : TouchState n) with body0 := bodyAt w b0, body1 := bodyAt w b1 }⟩
  else c

/-- a world with these controllers and with one such contact -/
def touchPlug (n : ℕ) (up : Vec3) (cs : List LibCtrl) (p : TouchParams) (b0 b1 : Option ℕ) : Plug n Unit where
  ctrl := (libPlug n up cs).ctrl
  look := touchLook p b0 b1

open Classical in
/-- the exception of `c.update(dt)`, if any, for the enabled contacts of constants `p` (core.py:977-978) -/
def touchRaises {n : ℕ} (p : TouchParams) (dt : ℝ) (c : Con n) : Option PyErr :=
  if h : c.cls = softContact n p then
    if c.cls.enabled c.st then
      match touchUpdate p (cast (congrArg ConClass.St h) c.st : TouchState n) dt with
      | .error e => some e
      | .ok _ => none
    else none
  else none

/-- the methods `simulate` uses: those of `engine`, an exception raised by the `update` of a contact leaving
`update_constraints` (core.py:973-978) -/
def touchEngine (n : ℕ) (up : Vec3) (cs : List LibCtrl) (p : TouchParams) (b0 b1 : Option ℕ) : Sim.Engine (MWorld n Unit) :=
  let P := touchPlug n up cs p b0 b1
  { engine P with
    constraints := fun dt w =>
      match ((w.cons.map (P.look w)).filterMap (touchRaises p dt)).head? with
      | some e => .error e
      | none => constraints P dt w }

end
end Arboris
