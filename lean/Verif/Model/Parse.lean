import Verif.Model.Graph

/-! # Model of `World.parse` (core.py:633-681): the sequence of hook calls made on the target -/

namespace Arboris.Graph

/-- a call made on the `target` object -/
inductive Ev
  | initParse (ground : ℕ)
  | reg (x : Obj)
  | link (f0 : FrameRef) (j : ℕ) (f1 : FrameRef)
  deriving DecidableEq, Repr

/-- the set `registered` (core.py:675) and the calls made so far -/
structure PSt where
  seen : List FrameRef
  trace : List Ev

def PSt.emit (st : PSt) (e : Ev) : PSt := { st with trace := st.trace ++ [e] }

/-- core.py:656-658: `for s in self._shapes: if frame is s.frame: target.register(s)` -/
def parseShapes (o : Objs) (w : World) (st : PSt) (f : FrameRef) : PSt :=
  w.shapes.foldl (fun st s => if o.shapeFrame s = f then st.emit (.reg (.shape s)) else st) st

/-- core.py:650-658: `_register_frame_and_children` on a subframe (which is not a `Body`) -/
def parseSub (o : Objs) (w : World) (st : PSt) (f : ℕ) : PSt :=
  if .sub f ∈ st.seen then st
  else parseShapes o w (PSt.emit { st with seen := .sub f :: st.seen } (.reg (.frame (.sub f)))) (.sub f)

/-- core.py:645-658: `_register_frame_and_children` on a body -/
def parseBody (o : Objs) (w : World) (st : PSt) (b : ℕ) : PSt :=
  if .body b ∈ st.seen then st
  else
    let st := PSt.emit { st with seen := .body b :: st.seen } (.reg (.frame (.body b)))
    let st := w.subframes.foldl
      (fun st f => if .sub f ∉ st.seen ∧ o.subBody f = b then parseSub o w st f else st) st
    parseShapes o w st (.body b)

/-- core.py:668-673 `_recurse_over_joints`, on `childrenjoints` of a body (first argument: recursion limit).  With
`frames == (None, None)` the attribute access `f1.body` fails. -/
def parseJoints (o : Objs) (w : World) : ℕ → PSt → List ℕ → Except PyErr PSt
  | _, st, [] => .ok st
  | 0, _, _ :: _ => .error .recursionError
  | k + 1, st, j :: js =>
    match (w.joint j).frame0, (w.joint j).frame1 with
    | some f0, some f1 => do
      let st := st.emit (.link f0 j f1)
      let st := parseBody o w st (o.bodyOf f1)
      let st ← parseJoints o w k st (w.body (o.bodyOf f1)).children
      parseJoints o w (k + 1) st js
    | _, _ => .error .attributeError
  termination_by k _ js => (k, js.length)

/-- core.py:633-681 `World.parse`: the calls made on the target -/
def parse (o : Objs) (w : World) (lim : ℕ) : Except PyErr (List Ev) := do
  let st : PSt := ⟨[], [.initParse w.ground]⟩
  let st := parseBody o w st w.ground
  let st ← parseJoints o w lim st (w.body w.ground).children
  pure (st.trace ++ w.constraints.map (fun c => .reg (.con c)) ++ w.controllers.map (fun c => .reg (.ctrl c)))

end Arboris.Graph
