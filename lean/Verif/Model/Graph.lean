import Verif.Basic

/-!
# Model of the object graph of `arboris/core.py`: bodies, joints, registries

Python objects are identified by natural numbers (one name space per class); `is` / default `==` is equality of
identifiers.  Attributes that never change after construction are in `Objs`, the mutable ones in `World`.
A method that may raise returns the state it leaves behind *and* the result, so partial updates are visible.
-/

namespace Arboris.Graph

/-- A `Frame`: a `Body` used as a frame (core.py:1173) or a `SubFrame` / `MovingSubFrame` (core.py:1157-1171) -/
inductive FrameRef
  | body (b : ℕ)
  | sub (f : ℕ)
  deriving DecidableEq, Repr

/-- Immutable attributes: body of a subframe (core.py:1117-1122), frame of a shape (core.py:383-386), frames to be
registered with a constraint (`_child_obj_to_reg`, core.py:337, constraints.py:277: only frames are ever put there),
`ndof` of a joint (core.py:213-216). -/
structure Objs where
  subBody : ℕ → ℕ
  shapeFrame : ℕ → FrameRef
  conKids : ℕ → List FrameRef
  ndof : ℕ → ℕ

/-- core.py:1188-1189 -/
structure BodyObj where
  parent : Option ℕ := none
  children : List ℕ := []
  deriving DecidableEq, Repr

/-- core.py:203-205; `dof` is the slice `(start, stop)` set by `World.init` -/
structure JointObj where
  frame0 : Option FrameRef := none
  frame1 : Option FrameRef := none
  dof : Option (ℕ × ℕ) := none
  deriving DecidableEq, Repr

/-- core.py:411-427 (the numerical attributes are in the other models) -/
structure World where
  ground : ℕ
  body : ℕ → BodyObj
  joint : ℕ → JointObj
  subframes : List ℕ
  shapes : List ℕ
  constraints : List ℕ
  controllers : List ℕ
  ndof : ℕ

/-- core.py:411-427 `World.__init__`, with every other object still pristine -/
def World.new (ground : ℕ) : World :=
  ⟨ground, fun _ => {}, fun _ => {}, [], [], [], [], 0⟩

/-- core.py:1153-1154 and 1247-1249 `Frame.body` -/
def Objs.bodyOf (o : Objs) : FrameRef → ℕ
  | .body b => b
  | .sub f => o.subBody f

/-- `if not obj in l: l.append(obj)` -/
def addNew (l : List ℕ) (x : ℕ) : List ℕ := if x ∈ l then l else l ++ [x]

/-- what can be passed to `register` -/
inductive Obj
  | frame (f : FrameRef) | joint (j : ℕ) | shape (s : ℕ) | con (c : ℕ) | ctrl (c : ℕ) | other
  deriving DecidableEq, Repr

/-- core.py:586-631 `World.register` on a frame: bodies are ignored, subframes listed once -/
def registerFrame (w : World) : FrameRef → World
  | .body _ => w
  | .sub f => { w with subframes := addNew w.subframes f }

/-- core.py:607-631 `World.register` -/
def register (o : Objs) (w : World) : Obj → World × Except PyErr Unit
  | .frame f => (registerFrame w f, .ok ())
  | .joint _ => (w, .error .valueError)
  | .shape s => (registerFrame { w with shapes := addNew w.shapes s } (o.shapeFrame s), .ok ())
  | .con c =>
    if c ∈ w.constraints then (w, .ok ())
    else ((o.conKids c).foldl registerFrame { w with constraints := w.constraints ++ [c] }, .ok ())
  | .ctrl c => ({ w with controllers := addNew w.controllers c }, .ok ())
  | .other => (w, .error .valueError)

/-- core.py:209-211 `Joint.set_frames` -/
def setFrames (w : World) (j : ℕ) (f0 f1 : Option FrameRef) : World :=
  { w with joint := Function.update w.joint j { w.joint j with frame0 := f0, frame1 := f1 } }

/-- `body.parentjoint = p` -/
def setParent (w : World) (b : ℕ) (p : Option ℕ) : World :=
  { w with body := Function.update w.body b { w.body b with parent := p } }

/-- assignment of `body.childrenjoints` -/
def setChildren (w : World) (b : ℕ) (l : List ℕ) : World :=
  { w with body := Function.update w.body b { w.body b with children := l } }

/-- a positional argument of `add_link` / `replace_joint` -/
inductive Arg
  | frame (f : FrameRef) | joint (j : ℕ) | other
  deriving DecidableEq, Repr

/-- core.py:529-538: the part of `add_link` after its assertions -/
def addLink1 (o : Objs) (w : World) (f0 : FrameRef) (j : ℕ) (f1 : FrameRef) : World × Except PyErr Unit :=
  let w1 := setFrames w j (some f0) (some f1)
  if (w1.body (o.bodyOf f1)).parent = none then
    let w2 := setParent w1 (o.bodyOf f1) (some j)
    let w3 := setChildren w2 (o.bodyOf f0) ((w2.body (o.bodyOf f0)).children ++ [j])
    (registerFrame (registerFrame w3 f0) f1, .ok ())
  else (w1, .error .valueError)

/-- core.py:507-540 `World.add_link`; the recursion on `*args` is the recursion on the argument list.  Less than
three arguments is a `TypeError` of the call itself. -/
def addLink (o : Objs) (w : World) : List Arg → World × Except PyErr Unit
  | a0 :: aj :: a1 :: rest =>
    match a0, aj, a1 with
    | .frame f0, .joint j, .frame f1 =>
      if (w.joint j).frame0 = none ∧ (w.joint j).frame1 = none ∧ rest.length % 3 = 0 then
        match addLink1 o w f0 j f1 with
        | (w', .error e) => (w', .error e)
        | (w', .ok ()) => if rest.length > 0 then addLink o w' rest else (w', .ok ())
      else (w, .error .assertion)
    | _, _, _ => (w, .error .assertion)
  | _ => (w, .error .typeError)

/-- the expression `j.frame1.body` -/
def frame1Body (o : Objs) (w : World) (j : ℕ) : Except PyErr ℕ :=
  match (w.joint j).frame1 with
  | none => .error .attributeError
  | some f => .ok (o.bodyOf f)

/-- core.py:1217-1222 `Body.iter_descendant_joints`, as the list it yields; the first argument is Python's
recursion limit -/
def iterDescJoints (o : Objs) (w : World) : ℕ → ℕ → Except PyErr (List ℕ)
  | 0, _ => .error .recursionError
  | k + 1, b => do
    let ls ← (w.body b).children.mapM fun j => do
      let b' ← frame1Body o w j
      let l ← iterDescJoints o w k b'
      pure (j :: l)
    pure ls.flatten

/-- core.py:1203-1208 `Body.iter_descendant_bodies` -/
def iterDescBodies (o : Objs) (w : World) : ℕ → ℕ → Except PyErr (List ℕ)
  | 0, _ => .error .recursionError
  | k + 1, b => do
    let bs ← (w.body b).children.mapM (frame1Body o w)
    let ls ← bs.mapM fun b' => do
      let l ← iterDescBodies o w k b'
      pure (b' :: l)
    pure ls.flatten

/-- core.py:1210-1215 `Body.iter_ancestor_bodies` -/
def iterAncestorBodies (o : Objs) (w : World) : ℕ → ℕ → Except PyErr (List ℕ)
  | 0, _ => .error .recursionError
  | k + 1, b =>
    match (w.body b).parent with
    | none => .ok []
    | some j =>
      match (w.joint j).frame0 with
      | none => .error .attributeError
      | some f => do
        let l ← iterAncestorBodies o w k (o.bodyOf f)
        pure (o.bodyOf f :: l)

/-- core.py:430-434 `World.iterbodies` -/
def iterBodies (o : Objs) (w : World) (lim : ℕ) : Except PyErr (List ℕ) := do
  let l ← iterDescBodies o w lim w.ground
  pure (w.ground :: l)

/-- core.py:487-490 `World.iterjoints` -/
def iterJoints (o : Objs) (w : World) (lim : ℕ) : Except PyErr (List ℕ) := iterDescJoints o w lim w.ground

/-- core.py:686-690: one turn of the numbering loop -/
def numberStep (o : Objs) (w : World) (j : ℕ) : World :=
  { w with ndof := w.ndof + o.ndof j
           joint := Function.update w.joint j { w.joint j with dof := some (w.ndof, w.ndof + o.ndof j) } }

/-- core.py:684-690 `World.init`, dof numbering (the `gvel` views of lines 700-703 are in `Model/Views.lean`; the
`init` hooks of constraints and controllers are not part of the graph).  Simplification: if the generator raises, the
slices already assigned to the first joints are not recorded. -/
def init (o : Objs) (w : World) (lim : ℕ) : World × Except PyErr Unit :=
  match iterJoints o w lim with
  | .error e => (w, .error e)
  | .ok js => (js.foldl (numberStep o) { w with ndof := 0 }, .ok ())

/-- core.py:569-583: the general branch of `replace_joint`, `args = first :: …` and `last` its last element -/
def replaceChain (o : Objs) (w : World) (lim old : ℕ) (f0 f1 : FrameRef) (args : List Arg) : World × Except PyErr Unit :=
  match (w.joint old).frame0, (w.joint old).frame1 with
  | some g0, some g1 =>
    if o.bodyOf g0 = o.bodyOf f0 ∧ o.bodyOf g1 = o.bodyOf f1 then
      let w1 := setFrames (setParent w (o.bodyOf f1) none) old none none
      match addLink o w1 args with
      | (w2, .error e) => (w2, .error e)
      | (w2, .ok ()) =>
        let l := (w2.body (o.bodyOf f0)).children
        match l.getLast? with
        | none => (w2, .error .indexError)
        | some x => init o (setChildren w2 (o.bodyOf f0) (l.dropLast.set (l.idxOf old) x)) lim
    else (w, .error .assertion)
  | _, _ => (w, .error .attributeError)

/-- core.py:558-560: the assertions on `old_joint` -/
def replaceGuard (o : Objs) (w : World) (old : ℕ) : Except PyErr (FrameRef × FrameRef) :=
  match (w.joint old).frame0, (w.joint old).frame1 with
  | none, _ => .error .attributeError
  | some g0, f1 =>
    if old ∈ (w.body (o.bodyOf g0)).children then
      match f1 with
      | none => .error .attributeError
      | some g1 => if (w.body (o.bodyOf g1)).parent = some old then .ok (g0, g1) else .error .assertion
    else .error .assertion

/-- core.py:542-584 `World.replace_joint` (`old_joint` is a `Joint` by typing; a non-frame first or last argument has
no `.body`: `AttributeError`) -/
def replaceJoint (o : Objs) (w : World) (lim old : ℕ) (args : List Arg) : World × Except PyErr Unit :=
  match replaceGuard o w old with
  | .error e => (w, .error e)
  | .ok (g0, g1) =>
    match args with
    | [] => (w, .error .runtimeError)
    | [x] => replaceChain o w lim old g0 g1 [.frame g0, x, .frame g1]
    | _ =>
      if args.length % 3 ≠ 0 then (w, .error .runtimeError)
      else match args.head?, args.getLast? with
        | some (.frame f0), some (.frame f1) => replaceChain o w lim old f0 f1 args
        | _, _ => (w, .error .attributeError)

end Arboris.Graph
