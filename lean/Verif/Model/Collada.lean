import Verif.Model.Visu
import Verif.Model.Build
import Verif.Model.Mass

/-!
# Model of `arboris/visu/dae_writer.py`: the COLLADA scene and its animation

The document is modelled by its content: the transform nodes (of `Model/Visu`) with their `id`s, the nodes of the shapes,
the `rigid_body` elements, the animations.  XML text is not modelled.
-/

namespace Arboris.Visu
open Log Graph Build

/-! ### ids -/

/-- dae_writer.py:345-351, the name of a new node: `name`, or the first of `name_0` … `name_99` not yet used, or `name_99` -/
def freshId (taken : List String) (s : String) : String :=
  if s ∈ taken then (((List.range 100).map fun i => s ++ "_" ++ toString i).find? fun t => t ∉ taken).getD (s ++ "_99") else s

/-- dae_writer.py:340-354 `_get_collada_node`: `id` of the new node, and `_names` afterwards.  Without name (or with the
empty name) the node has no `id`. -/
def nodeId (taken : List String) : Option String → Option String × List String
  | none => (none, taken)
  | some s => if s = "" then (none, taken) else (some (freshId taken s), taken ++ [freshId taken s])

/-- several nodes, one after the other -/
def nodeIds (taken : List String) : List (Option String) → List (Option String) × List String
  | [] => ([], taken)
  | x :: l =>
    let (i, taken) := nodeId taken x
    let (is, taken) := nodeIds taken l
    (i :: is, taken)

/-! ### shapes -/

/-- the meshes of `simple_shapes.dae`: the unit sphere, the cube `[-1, 1]³`, the cylinder of radius 1 and axis `z` from
`-1/2` to `1/2`, the square `[-1, 1]²` of the plane `z = 0` -/
inductive Mesh where
  | sphere | box | cylinder | plane
  deriving DecidableEq

/-- `collada.scene.ScaleTransform` -/
def scaleT (x y z : ℝ) : Mat4 := !![x, 0, 0, 0; 0, y, 0, 0; 0, 0, z, 0; 0, 0, 0, 1]

/-- the driver's options: `point radius`, `plane half extents` (world_drawer.py:70-96); the driver passes no `options` on (dae_writer.py:322) -/
structure Opts where
  pointRadius : ℝ
  planeHalf : ℝ × ℝ

/-- world_drawer.py:70-96 `get_default_options` -/
noncomputable def defaultOpts (scale : ℝ) : Opts := ⟨0.008 * scale, (1 * scale, 1 * scale)⟩

/-- dae_writer.py:416-455 `create_ellipsoid`, `create_box`, `create_cylinder`, `create_plane` and world_drawer.py:130-134
`create_sphere`, `create_point`: the mesh and the product of the node's transforms.  `argsort` is `numpy.argsort(abs(·))`,
used by `zaligned`. -/
noncomputable def shapeXform (op : Opts) (argsort : Vec3 → Equiv.Perm (Fin 3)) : ShapeGeo → Except PyErr (Mesh × Mat4)
  | .point => .ok (.sphere, scaleT op.pointRadius op.pointRadius op.pointRadius)
  | .sphere r => .ok (.sphere, scaleT r r r)
  | .box he => .ok (.box, scaleT (he 0) (he 1) (he 2))
  | .cylinder l r => .ok (.cylinder, scaleT r r l)
  | .plane c => do
    let n : Vec3 := ![c 0, c 1, c 2]
    let H ← zaligned n (argsort n)
    return (.plane, mkH (rot H) (c 3 • n) * scaleT op.planeHalf.1 op.planeHalf.2 0)

/-- is the shape's name given to the driver's node?  `create_sphere` and `create_point` drop it (world_drawer.py:130-134) -/
def keepsName : ShapeGeo → Bool
  | .point | .sphere _ => false
  | _ => true

/-- the node of a shape, child of the transform node `parent` -/
structure ShapeNode where
  parent : ℕ
  id : Option String
  mesh : Mesh
  xform : Mat4

/-! ### the scene -/

/-- names of the frames and of the shapes, and the shapes -/
structure Labels where
  frame : FrameRef → Option String
  shape : ℕ → Option String
  geo : ℕ → ShapeGeo

/-- drawer and driver: `ids` are the `id`s of the transform nodes, `taken` is `_names` -/
structure CSt where
  d : DSt
  ids : List (Option String)
  taken : List String
  shapes : List ShapeNode

/-- names given to `create_transform` in a hook of the drawer, in the order in which the nodes are created:
world_drawer.py:315-354 (`add_link`), 362-378 (`register`) -/
def newLabels (o : Objs) (lab : Labels) (flat : Bool) (d : DSt) : Graph.Ev → List (Option String)
  | .initParse _ => []
  | .link _ _ (.body b) => [lab.frame (.body b)]
  | .link _ _ (.sub f) =>
    if flat then [lab.frame (.body (o.subBody f)), lab.frame (.sub f)] else [lab.frame (.sub f), lab.frame (.body (o.subBody f))]
  | .reg (.frame (.sub f)) => if (PDict.get? d.frameNodes (.sub f)).isSome then [] else [lab.frame (.sub f)]
  | .reg _ => []

/-- one hook called by `World.parse`.  dae_writer.py:388-399 `add_ground`: the ground's node has the id "ground", which is
not put in `_names`.  (`create_inertia`, `create_frame_arrows`, `create_line` make no node in this driver.) -/
noncomputable def sceneEv (o : Objs) (g : Geo) (flat : Bool) (lab : Labels) (op : Opts) (argsort : Vec3 → Equiv.Perm (Fin 3)) (c : CSt)
    (e : Graph.Ev) : Except PyErr CSt := do
  let d ← drawEv o g flat c.d e
  match e with
  | .initParse _ => return { c with d := d, ids := [some "ground"] }
  | .reg (.shape s) =>
    let (mesh, x) ← shapeXform op argsort (lab.geo s)
    let (i, taken) := nodeId c.taken (if keepsName (lab.geo s) then lab.shape s else none)
    let p ← c.d.node (o.shapeFrame s)
    return { c with taken := taken, shapes := c.shapes ++ [⟨p, i, mesh, x⟩] }
  | e =>
    let (is, taken) := nodeIds c.taken (newLabels o lab flat c.d e)
    return { c with d := d, ids := c.ids ++ is, taken := taken }

/-- `world.parse(drawer)` with a `pydaenimColladaDriver`: dae_writer.py:43-45 -/
noncomputable def scene (o : Objs) (g : Geo) (flat : Bool) (lab : Labels) (op : Opts) (argsort : Vec3 → Equiv.Perm (Fin 3))
    (calls : List Graph.Ev) : Except PyErr CSt :=
  calls.foldlM (sceneEv o g flat lab op argsort) ⟨⟨[], [], [], []⟩, [], [], []⟩

/-- dae_writer.py:31-36, the names given by `write_collada_scene` (`getbodies()` and `nonflatlist` are lists,
`itermovingsubframes()` is a generator) -/
def sceneNames (idStr : ℕ → String) (flat : Bool) (w : LWorld) (names : ℕ → Option String) : Except PyErr (ℕ → Option String) := do
  let names ← nameE idStr names (.list (if flat then w.bodies else w.joints.map w.frame1))
  nameE idStr names (.oneShot w.moving)

/-! ### the animation -/

/-- one `animation` element: name of the target (`target = name/matrix`), the `input` and `output` arrays.  The
interpolation is "STEP": the target keeps the `k`-th matrix from the `k`-th time on. -/
structure Anim where
  target : String
  input : List ℝ
  output : List ℝ

/-- `value.flatten()` of an array of shape `(nb, 4, 4)` -/
def flatten44 (a : Nd) : List ℝ :=
  (List.range (a.shape.headD 0)).flatMap fun k => (List.range 4).flatMap fun i => (List.range 4).map fun j => a.val [k, i, j]

/-- a one-dimensional array, as a list -/
def toList1 (a : Nd) : List ℝ := (List.range (a.shape.headD 0)).map fun k => a.val [k]

/-- dae_writer.py:94-153 `write_collada_animation_from_transforms`: `rnd` is `round(·, precision)` -/
def animations (rnd : ℝ → ℝ) (timeline : Nd) (transforms : List (String × Nd)) : List Anim :=
  transforms.map fun kv => ⟨kv.1, (toList1 timeline).map rnd, (flatten44 kv.2).map rnd⟩

/-- type of the file of the log: extension, or argument `file_type` -/
inductive FileType where
  | hdf5 | pickle | unknown
  deriving DecidableEq

/-- dae_writer.py:66-69 and 81, on the last part of the file name or on the argument -/
def fileTypeOf (s : String) : FileType :=
  if s ∈ ["hdf5", "h5"] then .hdf5 else if s ∈ ["pickle", "pkl"] then .pickle else .unknown

/-- dae_writer.py:51-90 `write_collada_animation` on the content of a log (`None` for `file_type`: the file's extension).
With an unknown type the variable `timeline` is not bound (`UnboundLocalError`, a `NameError`); the entries of the HDF5
group are those of the pickled dictionary. -/
def writeAnimation (rnd : ℝ → ℝ) (log : PDict Key Nd) (extension : String) (file_type : Option String) : Except PyErr (List Anim) :=
  match fileTypeOf (file_type.getD extension) with
  | .unknown => .error .nameError
  | _ =>
    match PDict.get? log (.timeline, "") with
    | none => .error .keyError
    | some tl => .ok (animations rnd tl ((log.filter fun kv => kv.1.1 = .transforms).map fun kv => (kv.1.2, kv.2)))

/-- visu_collada.py:252-286 `view(scene_file, hdf5_file, hdf5_group)`: the arguments given to `write_collada_animation` are
`(anim_file, scene, hdf5_file, hdf5_group)`, so that the group is taken for the file type -/
def viewAnimation (rnd : ℝ → ℝ) (log : PDict Key Nd) (extension : String) (hdf5_group : String := "/") : Except PyErr (List Anim) :=
  writeAnimation rnd log extension (some hdf5_group)

/-! ### inertia -/

/-- a `rigid_body` element: `mass`, `mass_frame` (a translation, then rotations about `z`, `y`, `x`, in degrees), `inertia` -/
structure RigidBodyElem where
  mass : ℝ
  translate : Vec3
  rotZ : ℝ
  rotY : ℝ
  rotX : ℝ
  inertia : Vec3

/-- `numpy.degrees` -/
noncomputable def degrees (x : ℝ) : ℝ := x * (180 / Real.pi)

/-- dae_writer.py:457-480 `create_inertia`; `R` is the matrix of eigenvectors computed by `numpy.linalg.eig` in
`principalframe` -/
noncomputable def createInertia (M : Mat6) (R : Mat3) : Except PyErr RigidBodyElem := do
  let H ← principalframe M R
  let Mcom ← transport M H
  let (az, ay, ax) ← rotzyx_angles H
  return ⟨Mcom 5 5, pos H, degrees az, degrees ay, degrees ax, ![Mcom 0 0, Mcom 1 1, Mcom 2 2]⟩

end Arboris.Visu
