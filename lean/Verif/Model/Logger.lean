import Verif.Model.Names

/-!
# Model of `SaveLogger`, `PickleLogger` and `Hdf5Logger` (observers.py:166-399)

Objects (bodies, joints, frames) are numbered.  The nested dictionaries `_root[group][name]` are one dictionary with keys
(group, name), `_root["timeline"]` having the key (timeline, "").  Files are assumed new: `require_group` and
`require_dataset` create, and the names do not contain "/".
-/

namespace Arboris.Log
open Names

/-! ### numpy arrays and broadcasting -/

/-- a numpy array of floats: shape, and value at a multi-index -/
structure Nd where
  shape : List ℕ
  val : List ℕ → ℝ

/-- `numpy.zeros` -/
noncomputable def zeros (shape : List ℕ) : Nd := ⟨shape, fun _ => 0⟩

/-- can an array be broadcast to a shape?  Shapes are given last dimension first. -/
def bcOk : List ℕ → List ℕ → Bool
  | [], _ => true
  | s :: ss, d :: ds => (s == 1 || s == d) && bcOk ss ds
  | s :: ss, [] => s == 1 && bcOk ss []

/-- the index read in the source (shape and indices last dimension first) -/
def bcIdx : List ℕ → List ℕ → List ℕ
  | [], _ => []
  | s :: ss, i :: is => (if s = 1 then 0 else i) :: bcIdx ss is
  | _ :: ss, [] => 0 :: bcIdx ss []

/-- numpy / h5py broadcasting of the right-hand side of an assignment -/
def Nd.bcast (x : Nd) (dst : List ℕ) : Option Nd :=
  if bcOk x.shape.reverse dst.reverse then
    some ⟨dst, fun idx => x.val (bcIdx x.shape.reverse idx.reverse).reverse⟩
  else none

/-- `a[k] = x` (numpy; `k` not negative) -/
def Nd.setRow (a : Nd) (k : ℕ) (x : Nd) : Except PyErr Nd :=
  match a.shape with
  | [] => .error .indexError
  | n :: sh =>
    if k < n then
      match x.bcast sh with
      | none => .error .valueError
      | some y => .ok ⟨n :: sh, fun idx => match idx with
        | i :: r => if i = k then y.val r else a.val (i :: r)
        | [] => a.val []⟩
    else .error .indexError

/-- a homogeneous matrix, as an array -/
def ofMat4 (H : Mat4) : Nd := ⟨[4, 4], fun idx => match idx with
  | [i, j] => if h : i < 4 ∧ j < 4 then H ⟨i, h.1⟩ ⟨j, h.2⟩ else 0
  | _ => 0⟩

/-- a float -/
def ofReal (x : ℝ) : Nd := ⟨[], fun _ => x⟩

/-! ### dictionaries -/

/-- the keys of `_root` -/
inductive Group where
  | timeline | gpositions | gvelocities | transforms | model
  deriving DecidableEq, Repr

abbrev Key := Group × String

/-- a Python dictionary, in insertion order -/
abbrev PDict (K A : Type) := List (K × A)

/-- `d[k]` -/
def PDict.get? {K A : Type} [DecidableEq K] (d : PDict K A) (k : K) : Option A := (d.find? fun p => p.1 = k).map Prod.snd

/-- `d[k] = a` -/
def PDict.set {K A : Type} [DecidableEq K] (d : PDict K A) (k : K) (a : A) : PDict K A :=
  if (PDict.get? d k).isSome then d.map fun p => if p.1 = k then (k, a) else p else d ++ [(k, a)]

/-! ### SaveLogger -/

/-- the constructor's flags -/
structure Cfg where
  transforms : Bool
  state : Bool
  model : Bool
  flat : Bool

/-- what `init` reads in the world: `getjoints()`, `iterbodies()` (ground first), `itermovingsubframes()`; `frame1 j` is
`j.frames[1]`. -/
structure LWorld where
  joints : List ℕ
  bodies : List ℕ
  moving : List ℕ
  frame1 : ℕ → ℕ
  names : ℕ → Option String
  gposShape : ℕ → List ℕ
  jndof : ℕ → ℕ
  ndof : ℕ

/-- what `update` reads: the current values -/
structure View where
  time : ℝ
  gpos : ℕ → Nd
  gvel : ℕ → Nd
  pose : ℕ → Mat4
  bpose : ℕ → Mat4
  wgvel : Nd
  mass : Nd
  admittance : Nd
  nleffects : Nd
  gforce : Nd

/-- the values of `_arb_transforms` -/
inductive Src where
  | plain (id : ℕ)   -- a body or a joint
  | moving (id : ℕ)  -- a MovingSubFrame
  deriving DecidableEq

structure Logger where
  nb : ℕ
  step : ℕ
  root : PDict Key Nd
  arb : PDict String Src

/-- `elem.name` once named -/
def nm (names : ℕ → Option String) (i : ℕ) : String := (names i).getD ""

/-- `name_all_elements(nlist, True)` -/
def nameE (idStr : ℕ → String) (names : ℕ → Option String) (s : Seq) : Except PyErr (ℕ → Option String) :=
  match nameAll idStr names s true with
  | (n, none) => .ok n
  | (_, some _) => .error .duplicateName

/-- observers.py:249-257, the `gpositions` and `gvelocities` entries (`getjoints()` is a list) -/
noncomputable def initState (idStr : ℕ → String) (cfg : Cfg) (w : LWorld) (nb : ℕ) (names : ℕ → Option String)
    (root : PDict Key Nd) : Except PyErr (PDict Key Nd × (ℕ → Option String)) :=
  if cfg.state then do
    let names ← nameE idStr names (.list w.joints)
    return (w.joints.foldl (fun root j =>
      (root.set (.gpositions, nm names j) (zeros (nb :: w.gposShape j))).set (.gvelocities, nm names j) (zeros [nb, w.jndof j]))
      root, names)
  else return (root, names)

/-- observers.py:263-272, `_arb_transforms` for the bodies or the joints (`iterbodies()` is a generator, `nonflatlist` a
list) -/
def initArb (idStr : ℕ → String) (cfg : Cfg) (w : LWorld) (names : ℕ → Option String) :
    Except PyErr (PDict String Src × (ℕ → Option String)) :=
  if cfg.flat then do
    let names ← nameE idStr names (.oneShot w.bodies)
    return (w.bodies.foldl (fun d b => PDict.set d (nm names b) (Src.plain b)) ([] : PDict String Src), names)
  else do
    let names ← nameE idStr names (.list (w.joints.map w.frame1))
    return (w.joints.foldl (fun d j => PDict.set d (nm names (w.frame1 j)) (Src.plain j)) ([] : PDict String Src), names)

/-- observers.py:259-279, the `transforms` entries (`itermovingsubframes()` is a generator) -/
noncomputable def initTransforms (idStr : ℕ → String) (cfg : Cfg) (w : LWorld) (nb : ℕ) (names : ℕ → Option String)
    (root : PDict Key Nd) : Except PyErr (PDict Key Nd × PDict String Src × (ℕ → Option String)) :=
  if cfg.transforms then do
    let (arb, names) ← initArb idStr cfg w names
    let names ← nameE idStr names (.oneShot w.moving)
    let arb := w.moving.foldl (fun d f => PDict.set d (nm names f) (Src.moving f)) arb
    return (arb.foldl (fun root kv => root.set (.transforms, kv.1) (zeros [nb, 4, 4])) root, arb, names)
  else return (root, [], names)

/-- observers.py:280-288, the `model` entries -/
noncomputable def initModel (cfg : Cfg) (w : LWorld) (nb : ℕ) (root : PDict Key Nd) : PDict Key Nd :=
  if cfg.model then
    ((((root.set (.model, "gvel") (zeros [nb, w.ndof])).set (.model, "mass") (zeros [nb, w.ndof, w.ndof])).set
      (.model, "admittance") (zeros [nb, w.ndof, w.ndof])).set (.model, "nleffects") (zeros [nb, w.ndof, w.ndof])).set
      (.model, "gforce") (zeros [nb, w.ndof])
  else root

/-- observers.py:241-288 `init`: the logger and the names afterwards.  `len(timeline)` is positive: `simulate` has
already read `timeline[0]`. -/
noncomputable def init (idStr : ℕ → String) (cfg : Cfg) (w : LWorld) (len : ℕ) :
    Except PyErr (Logger × (ℕ → Option String)) := do
  let nb := len - 1
  let (root, names) ← initState idStr cfg w nb w.names [((.timeline, ""), zeros [nb])]
  let (root, arb, names) ← initTransforms idStr cfg w nb names root
  return (⟨nb, 0, initModel cfg w nb root, arb⟩, names)

/-- `_root[key][step] = x` -/
def write (step : ℕ) (root : PDict Key Nd) (kx : Key × Nd) : Except PyErr (PDict Key Nd) :=
  match root.get? kx.1 with
  | none => .error .keyError
  | some a => do
    let a ← a.setRow step kx.2
    return root.set kx.1 a

/-- observers.py:290-317 `update`: the assignments, in order -/
def writes (cfg : Cfg) (w : LWorld) (names : ℕ → Option String) (arb : PDict String Src) (v : View) : List (Key × Nd) :=
  [((.timeline, ""), ofReal v.time)] ++
  (if cfg.state then w.joints.flatMap fun j => [((.gpositions, nm names j), v.gpos j), ((.gvelocities, nm names j), v.gvel j)]
    else []) ++
  (if cfg.transforms then arb.map fun kv => ((.transforms, kv.1), ofMat4 (match kv.2 with
    | .moving f => if cfg.flat then v.pose f else v.bpose f
    | .plain b => v.pose b)) else []) ++
  (if cfg.model then [((.model, "gvel"), v.wgvel), ((.model, "mass"), v.mass), ((.model, "admittance"), v.admittance),
    ((.model, "nleffects"), v.nleffects), ((.model, "gforce"), v.gforce)] else [])

/-- observers.py:290-317 `update` -/
def update (cfg : Cfg) (w : LWorld) (names : ℕ → Option String) (l : Logger) (v : View) : Except PyErr Logger := do
  if l.step ≤ l.nb then
    let root ← (writes cfg w names l.arb v).foldlM (write l.step) l.root
    return { l with root := root, step := l.step + 1 }
  else throw .assertion

/-- observers.py:388-399 `Hdf5Logger.finish`: the datasets of the file.  Every dataset but the time line is required
with the shape (nb_steps, 4, 4); h5py raises `TypeError` when the value cannot be broadcast. -/
def hdf5Finish (l : Logger) : Except PyErr (PDict Key Nd) :=
  l.root.mapM fun kv =>
    let shape := if kv.1.1 = .timeline then [l.nb] else [l.nb, 4, 4]
    match kv.2.bcast shape with
    | none => .error .typeError
    | some a => .ok (kv.1, a)

/-- observers.py:344-346 `PickleLogger.finish`: what is dumped -/
def pickleFinish (l : Logger) : PDict Key Nd := l.root

end Arboris.Log
