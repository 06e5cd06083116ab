import Verif.Model.Collada

/-!
# Model of the links drawn by `DaenimColladaDriver` (`arboris/visu/visu_collada.py`)

`_add_frame` draws a line from the parent node to every frame whose pose in its parent is constant.  The line is an
instance of the mesh `line_geometry-mesh` of `simple_shapes.dae:103-123`, the segment from `(0, 0, 0)` to `(0, 0, 1)`.
(`pydaenimColladaDriver.create_line` makes no node.)  Colours and the OSG descriptions are not modelled.
-/

namespace Arboris.Visu
open Log Graph Build

/-- visu_collada.py:114-133 `create_line`: the product of the node's transforms, a `ScaleTransform` and then a
`MatrixTransform`.  `argsort` is `numpy.argsort(abs(·))`, used by `zaligned`. -/
noncomputable def createLine (argsort : Vec3 → Equiv.Perm (Fin 3)) (start stop : Vec3) : Except PyErr Mat4 := do
  let vector := stop - start
  let n := norm3 vector
  if n > 0 then
    let v := n⁻¹ • vector
    let H ← zaligned v (argsort v)
    return scaleT n n n * mkH (rot H) start
  else .error .assertion

/-- the node of a line, child of the transform node `parent` -/
structure LineNode where
  parent : ℕ
  xform : Mat4

/-- the calls of `_add_frame` with `is_constant` in a hook of the drawer, with the number of the parent node and the pose:
world_drawer.py:341-343 (flat) and 348-350 of `add_link`, 362-368 of `register`.  `d` is the drawer before the hook: the first
node made by the hook has the number `d.nodes.length`. -/
noncomputable def constFrames (o : Objs) (g : Geo) (flat : Bool) (d : DSt) : Graph.Ev → Except PyErr (List (ℕ × Mat4))
  | .link _ _ (.sub f) =>
    if flat then .ok [(d.nodes.length, g.bpose f)] else .ok [(d.nodes.length, (g.bpose f)⁻¹)]
  | .reg (.frame (.sub f)) =>
    if (PDict.get? d.frameNodes (.sub f)).isSome then .ok []
    else if g.moving f then .ok []
    else do
      let p ← d.node (.body (o.subBody f))
      return [(p, g.bpose f)]
  | _ => .ok []

/-- world_drawer.py:277-285 `_add_frame`, its lines -/
noncomputable def addLines (argsort : Vec3 → Equiv.Perm (Fin 3)) : List (ℕ × Mat4) → Except PyErr (List LineNode)
  | [] => .ok []
  | (p, pose) :: l =>
    if norm3 (pos pose) > 0 then do
      let X ← createLine argsort 0 (pos pose)
      let rest ← addLines argsort l
      return ⟨p, X⟩ :: rest
    else addLines argsort l

/-- one hook called by `World.parse`, with the lines already drawn -/
noncomputable def linesEv (o : Objs) (g : Geo) (flat : Bool) (argsort : Vec3 → Equiv.Perm (Fin 3)) (s : DSt × List LineNode)
    (e : Graph.Ev) : Except PyErr (DSt × List LineNode) := do
  let d ← drawEv o g flat s.1 e
  let c ← constFrames o g flat s.1 e
  let new ← addLines argsort c
  return (d, s.2 ++ new)

/-- `world.parse(drawer)` with a `DaenimColladaDriver`: visu_collada.py:51-53 -/
noncomputable def drawLines (o : Objs) (g : Geo) (flat : Bool) (argsort : Vec3 → Equiv.Perm (Fin 3)) (calls : List Graph.Ev) :
    Except PyErr (DSt × List LineNode) :=
  calls.foldlM (linesEv o g flat argsort) (⟨[], [], [], []⟩, [])

end Arboris.Visu
