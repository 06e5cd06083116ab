import Verif.Model.Parse
import Verif.Model.Logger
import Verif.Model.Homogeneous

/-!
# Model of `arboris/visu/world_drawer.py`: `hsv_to_rgb`, `ColorGenerator`, `Drawer`
-/

namespace Arboris.Visu
open Log

/-- an RGB triple -/
abbrev Color := ℝ × ℝ × ℝ

/-- world_drawer.py:33-51 `hsv_to_rgb` (`%` of Python: the result has the sign of the divisor, as `Int.emod`) -/
noncomputable def hsvToRgb (h s v : ℝ) : Color :=
  let hi := ⌊h / 60⌋ % 6
  let f := h / 60 - ⌊h / 60⌋
  let p := v * (1 - s)
  let q := v * (1 - f * s)
  let t := v * (1 - (1 - f) * s)
  if hi = 0 then (v, t, p)
  else if hi = 1 then (q, v, p)
  else if hi = 2 then (p, v, t)
  else if hi = 3 then (p, q, v)
  else if hi = 4 then (t, p, v)
  else (v, p, q)

/-! ### ColorGenerator -/

/-- an object to be coloured: a body, or a frame or shape with its parent body -/
inductive Thing where
  | body (b : ℕ)
  | part (x : ℕ) (parent : ℕ)
  deriving DecidableEq

/-- a key of the mapping: an object or a name (`None` is a possible name) -/
inductive CKey where
  | obj (t : Thing)
  | name (s : Option String)
  deriving DecidableEq

structure Gen where
  palette : List Color
  map : PDict CKey Color

/-- world_drawer.py:209-211 `set_color`, for a triple -/
noncomputable def setColor (g : Gen) (k : CKey) (c : Color) : Except PyErr Gen :=
  open Classical in
  if 0 ≤ c.1 ∧ c.1 ≤ 1 ∧ 0 ≤ c.2.1 ∧ c.2.1 ≤ 1 ∧ 0 ≤ c.2.2 ∧ c.2.2 ≤ 1 then .ok { g with map := PDict.set g.map k c }
  else .error .assertion

/-- world_drawer.py:197-207 `__init__` -/
noncomputable def newGen (user : PDict CKey Color) (nb : ℕ) : Except PyErr Gen :=
  user.foldlM (fun g kv => setColor g kv.1 kv.2) ⟨(List.range nb).map fun k : ℕ => hsvToRgb (360 / nb * k) 0.9 0.9, []⟩

/-- world_drawer.py:248-253 `generate_color`: `pop` takes the last colour; white when there is none -/
noncomputable def generate (g : Gen) : Color × Gen :=
  match g.palette.getLast? with
  | some c => (c, { g with palette := g.palette.dropLast })
  | none => ((1, 1, 1), g)

/-- `self._map[obj]`, then `self._map[obj.name]` -/
def lookup (names : Thing → Option String) (g : Gen) (t : Thing) : Option Color :=
  match PDict.get? g.map (.obj t) with
  | some c => some c
  | none => PDict.get? g.map (.name (names t))

/-- world_drawer.py:213-246 `get_color` on a body -/
noncomputable def getBody (names : Thing → Option String) (g : Gen) (b : ℕ) : Except PyErr (Color × Gen) :=
  match lookup names g (.body b) with
  | some c => .ok (c, g)
  | none => do
    let (c, g) := generate g
    let g ← setColor g (.obj (.body b)) c
    return (c, g)

/-- world_drawer.py:213-246 `get_color` -/
noncomputable def getColor (names : Thing → Option String) (g : Gen) : Thing → Except PyErr (Color × Gen)
  | .body b => getBody names g b
  | .part x p =>
    match lookup names g (.part x p) with
    | some c => .ok (c, g)
    | none => getBody names g p

/-! ### Drawer -/

open Graph

/-- what the drawer reads in the world: which subframes are `MovingSubFrame`s, the `bpose` of the subframes, the `pose`
of the joints and of the bodies, and whether `norm(mass) > 10e-8` -/
structure Geo where
  moving : ℕ → Bool
  bpose : ℕ → Mat4
  jpose : ℕ → Mat4
  bodyPose : ℕ → Mat4
  heavy : ℕ → Bool

/-- a transform node made by the driver and attached to its parent: world_drawer.py:277-285 `_add_frame` (the arrows,
the line and the colours are not modelled) -/
structure Node where
  parent : Option ℕ
  pose : Mat4

/-- `transforms` : the keys of `transform_nodes` with their nodes -/
structure DSt where
  nodes : List Node
  frameNodes : PDict FrameRef ℕ
  jointNodes : PDict ℕ ℕ
  movingNodes : PDict ℕ ℕ

/-- world_drawer.py:277-285 `_add_frame`: the new node's number is `nodes.length` -/
def DSt.add (d : DSt) (parent : ℕ) (pose : Mat4) : DSt := { d with nodes := d.nodes ++ [⟨some parent, pose⟩] }

/-- `self.frame_nodes[f]` -/
def DSt.node (d : DSt) (f : FrameRef) : Except PyErr ℕ :=
  match PDict.get? d.frameNodes f with
  | some i => .ok i
  | none => .error .keyError

/-- `self.frame_nodes[f] = i` -/
def DSt.bind (d : DSt) (f : FrameRef) (i : ℕ) : DSt := { d with frameNodes := PDict.set d.frameNodes f i }

/-- world_drawer.py:273-275 `init_parse`: the driver's ground node has number 0 -/
def initParse (ground : ℕ) : DSt := ⟨[⟨none, 1⟩], [(.body ground, 0)], [], []⟩

/-- world_drawer.py:287-357 `add_link` (`numpy.linalg.inv` is the matrix inverse) -/
noncomputable def drawLink (o : Objs) (g : Geo) (flat : Bool) (d : DSt) (f0 : FrameRef) (j : ℕ) (f1 : FrameRef) :
    Except PyErr DSt :=
  match f1 with
  | .body b =>
    if flat then
      let n := d.nodes.length
      .ok ((d.add 0 (g.bodyPose b)).bind (.body b) n)
    else do
      let p ← d.node f0
      let n := d.nodes.length
      let d := (d.add p (g.jpose j)).bind (.body b) n
      return { d with jointNodes := PDict.set d.jointNodes j n }
  | .sub f =>
    if g.moving f then .error .valueError
    else if flat then
      let n := d.nodes.length
      let d := d.add 0 (g.bodyPose (o.subBody f))
      let d := d.add n (g.bpose f)
      .ok ((d.bind (.body (o.subBody f)) n).bind (.sub f) (n + 1))
    else do
      let p ← d.node f0
      let n := d.nodes.length
      let d := d.add p (g.jpose j)
      let d := d.add n (g.bpose f)⁻¹
      let d := (d.bind (.body (o.subBody f)) (n + 1)).bind (.sub f) n
      return { d with jointNodes := PDict.set d.jointNodes j n }

/-- world_drawer.py:359-395 `register`, for the classes of the library (constraints and controllers are ignored) -/
noncomputable def drawReg (o : Objs) (g : Geo) (flat : Bool) (d : DSt) : Obj → Except PyErr DSt
  | .frame (.body b) => if g.heavy b then do let _ ← d.node (.body b); return d else .ok d
  | .frame (.sub f) =>
    if (PDict.get? d.frameNodes (.sub f)).isSome then .ok d
    else if g.moving f then
      if flat then
        let n := d.nodes.length
        let d := (d.add 0 (g.bpose f)).bind (.sub f) n
        .ok { d with movingNodes := PDict.set d.movingNodes f n }
      else do
        let p ← d.node (.body (o.subBody f))
        let n := d.nodes.length
        let d := (d.add p (g.bpose f)).bind (.sub f) n
        return { d with movingNodes := PDict.set d.movingNodes f n }
    else do
      let p ← d.node (.body (o.subBody f))
      let n := d.nodes.length
      return (d.add p (g.bpose f)).bind (.sub f) n
  | .shape s => do let _ ← d.node (o.shapeFrame s); return d
  | _ => .ok d

/-- one hook called by `World.parse` -/
noncomputable def drawEv (o : Objs) (g : Geo) (flat : Bool) (d : DSt) : Graph.Ev → Except PyErr DSt
  | .initParse ground => .ok (initParse ground)
  | .reg x => drawReg o g flat d x
  | .link f0 j f1 => drawLink o g flat d f0 j f1

/-- `world.parse(drawer)` -/
noncomputable def draw (o : Objs) (g : Geo) (flat : Bool) (calls : List Graph.Ev) : Except PyErr DSt :=
  calls.foldlM (drawEv o g flat) ⟨[], [], [], []⟩

end Arboris.Visu
