import Verif.Model.Control

/-!
# What `init` leaves in the controllers of the library

`World.init` ends with the `init` of the controllers (core.py:708-709), which compute the attributes that `update` uses.  Here a
controller has the attributes a user sets (`LibCtrl`) and those `init` computes; its `update` reads the latter.
-/

namespace Arboris
open Matrix Spec Mech Build

noncomputable section

/-- `_bodies` (the bodies, by their rank in `world.ground.iter_descendant_bodies()`) and `_gravity_dtwist`, controllers.py:50-56 -/
structure WInit where
  bodies : List ℕ
  dtwist : Vec6

/-- A registered controller: a `WeightController`, its attribute `gravity` and what `init` computed (`None` before,
controllers.py:37-41); a `ProportionalDerivativeController`, its attributes `joints` (by rank) and gains, and `_dof_map` (meaningless
while `_wndof` is `None`, controllers.py:131). -/
inductive Ctl
  | weight (gravity : ℝ) (cache : Option WInit)
  | pd (joints : List ℕ) (g : PDGains) (map : Option (List ℕ))

/-- the attributes a user sets -/
def Ctl.settings : Ctl → LibCtrl
  | .weight γ _ => .weight γ
  | .pd js g _ => .pd js g

/-- a new controller: controllers.py:27-41 and 111-155 -/
def Ctl.new : LibCtrl → Ctl
  | .weight γ => .weight γ none
  | .pd js g => .pd js g none

open Classical in
/-- `c.init(world)`: controllers.py:43-57 and 157-167.  The arrays of zeros it makes are not kept here. -/
def Ctl.init {n : ℕ} {σ : Type} (up : Vec3) (w : MWorld n σ) : Ctl → Ctl
  | .weight γ _ =>
    .weight γ (some ⟨(List.range w.tree.bodies.length).filter fun r => ∃ b, w.tree.bodies[r]? = some b ∧ weightNorm b.mass ≠ 0,
      gravityTwist γ up⟩)
  | .pd js g _ => .pd js g (some (pdDofMap (pdRead w js)))

/-- `c.update(dt)`: controllers.py:59-66 and 169-186.  Before `init`, `for b in None` and `zeros((None, None))` raise `TypeError`.  The
bodies have their current mass, and the pose and jacobian of the last `update_dynamic` (without it, `pose` is `None`). -/
def Ctl.update {n : ℕ} {σ : Type} (w : MWorld n σ) (dt : ℝ) : Ctl → Except PyErr (CtrlVal n)
  | .weight _ none => .error .typeError
  | .weight _ (some c) => do
    let g ← c.bodies.foldlM (init := (0 : Fin n → ℝ)) fun acc r =>
      match w.tree.bodies[r]?, w.dyn[r]? with
      | some b, some x => do
        let A ← iadjoint x.2.pose
        return acc + x.2.jacᵀ *ᵥ (b.mass *ᵥ (A *ᵥ c.dtwist))
      | _, _ => .error .typeError
    return ⟨g, 0⟩
  | .pd _ _ none => .error .typeError
  | .pd js g (some map) => do
    let gpos ← pdStack (pdRead w js)
    let c := pdCndof (pdRead w js)
    if map = [] ∨ ∃ d ∈ map, n ≤ d then .error .indexError
    else
      return ⟨scatter map fun i => pdDot c g.kp (fun m => g.gposDes m - gpos.getD m 0) i + pdDot c g.kd g.gvelDes i,
        scatter2 map fun i m => -(dt * g.kp i m + g.kd i m)⟩

/-- core.py:879-882: the first that raises stops the loop -/
def Ctl.askAll {n : ℕ} {σ : Type} (w : MWorld n σ) (dt : ℝ) : List Ctl → Except PyErr (List (CtrlVal n))
  | [] => .ok []
  | c :: cs =>
    match c.update w dt with
    | .error e => .error e
    | .ok v =>
      match Ctl.askAll w dt cs with
      | .error e => .error e
      | .ok vs => .ok (v :: vs)

/-- the world seen by the constraints -/
def Mech.MWorld.forget {n : ℕ} {σ : Type} (w : MWorld n σ) : MWorld n Unit := { w with mem := () }

/-- a world whose controllers are its `mem`, and whose constraints look at it as `look` says -/
def hookPlug (n : ℕ) (look : MWorld n Unit → Con n → Con n) : Plug n (List Ctl) where
  ctrl w dt :=
    match Ctl.askAll w dt w.mem with
    | .error e => .error e
    | .ok vs => .ok (w.mem, vs)
  look w c := look w.forget c

/-- `World.init`, core.py:684-709, with the `init` of the controllers -/
def hookInit {n : ℕ} (up : Vec3) (w : MWorld n (List Ctl)) : Except PyErr (MWorld n (List Ctl)) :=
  match Mech.init w with
  | .error e => .error e
  | .ok w => .ok { w with mem := w.mem.map (Ctl.init up w) }

/-- the methods `simulate` uses -/
def hookEngine {n : ℕ} (up : Vec3) (look : MWorld n Unit → Con n → Con n) : Sim.Engine (MWorld n (List Ctl)) :=
  { Mech.engine (hookPlug n look) with init := hookInit up }

/-- the controllers of the library and the constraints that look at the world as `look` says, in a world without caches -/
def lookPlug (n : ℕ) (up : Vec3) (cs : List LibCtrl) (look : MWorld n Unit → Con n → Con n) : Plug n Unit :=
  { libPlug n up cs with look := look }

/-! ### Driving a world by hand -/

/-- `joint.gpos[:] = q` (linear joints) or `joint.gpos = H` (`FreeJoint`) -/
def _root_.Arboris.Build.JAttr.place (q : ℕ → ℝ) (H : Mat4) : JAttr → JAttr
  | .lin k _ dq => .lin k (fun i => q i.val) dq
  | .free _ T => .free H T
  | .fixed => .fixed

/-- the tree whose joints and bodies, counted from `a` in the order of `iterjoints` and of `iter_descendant_bodies`, are changed by `f`
and `g` -/
def editTree (f : ℕ → MLink → MLink) (g : ℕ → Body → Body) : ℕ → Forest MLink Body → Forest MLink Body × ℕ
  | a, .nil => (.nil, a)
  | a, .cons l b ch sib =>
    let c := editTree f g (a + 1) ch
    let s := editTree f g c.2 sib
    (.cons (f a l) (g a b) c.1 s.1, s.2)

/-- what a script may do with a world between two calls of `simulate`, or instead of calling it: the methods of the world, and
assignments to attributes (`c.gravity`, `c.kp` and the other gains, `body.mass`, `joint.gpos`); `world.register(c)` -/
inductive HandOp
  | init
  | dynamic
  | controllers (dt : ℝ)
  | constraints (dt : ℝ)
  | integrate (dt : ℝ)
  | setGravity (i : ℕ) (γ : ℝ)
  | setGains (i : ℕ) (g : PDGains)
  | setMass (r : ℕ) (M : Mat6)
  | setPos (r : ℕ) (q : ℕ → ℝ) (H : Mat4)
  | register (c : LibCtrl)

/-- `c.gravity = γ` -/
def Ctl.setGravity (γ : ℝ) : Ctl → Ctl
  | .weight _ c => .weight γ c
  | c => c

/-- `c.kp = …` -/
def Ctl.setGains (g : PDGains) : Ctl → Ctl
  | .pd js _ m => .pd js g m
  | c => c

open Classical in
/-- one operation.  `update_controllers` and `integrate` assert `dt > 0` (core.py:876, 1063).  (The constructor of a
`ProportionalDerivativeController` needs that `init` has been called once, core.py:226; it is not in the model.) -/
def HandOp.run {n : ℕ} (up : Vec3) (look : MWorld n Unit → Con n → Con n) (w : MWorld n (List Ctl)) : HandOp → Except PyErr (MWorld n (List Ctl))
  | .init => hookInit up w
  | .dynamic => Mech.dynamic w
  | .controllers dt => if 0 < dt then Mech.controllers (hookPlug n look) dt w else .error .assertion
  | .constraints dt => Mech.constraints (hookPlug n look) dt w
  | .integrate dt => if 0 < dt then Mech.integrate dt w else .error .assertion
  | .setGravity i γ => .ok { w with mem := w.mem.modify i (Ctl.setGravity γ) }
  | .setGains i g => .ok { w with mem := w.mem.modify i (Ctl.setGains g) }
  | .setMass r M => .ok { w with tree := (editTree (fun _ l => l) (fun a b => if a = r then { b with mass := M } else b) 0 w.tree).1 }
  | .setPos r q H => .ok { w with tree := (editTree (fun a l => if a = r then { l with att := l.att.place q H } else l) (fun _ b => b) 0 w.tree).1 }
  | .register c => .ok { w with mem := w.mem ++ [Ctl.new c] }

/-- the operations one after the other -/
def handRun {n : ℕ} (up : Vec3) (look : MWorld n Unit → Con n → Con n) : List HandOp → MWorld n (List Ctl) → Except PyErr (MWorld n (List Ctl))
  | [], w => .ok w
  | o :: os, w =>
    match o.run up look w with
    | .error e => .error e
    | .ok w => handRun up look os w

end
end Arboris
