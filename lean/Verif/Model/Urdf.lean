import Verif.Model.Human36

/-!
# Model of `robots/urdf/__init__.py` and of the data structure of `robots/urdf/urdf_parser.py`

The objects are those the parser makes (urdf_parser.py:55-660); reading the XML text is not modelled.  A dictionary is
the list of its items, in the order in which Python enumerates them; that order is arbitrary in Python 2, so nothing
is assumed about it.  `sort z` is the answer of `numpy.argsort(numpy.absolute(z))` used by `Hg.zaligned`.
-/

namespace Arboris.Urdf
open Graph Build Matrix

noncomputable section

/-- urdf_parser.py:568-582 `Pose` -/
structure UPose where
  position : Option (List ℝ)
  rotation : Option (List ℝ)

/-- urdf_parser.py:152-236: `Box`, `Sphere`, `Cylinder`, `Mesh` (as they are parsed: a `scale` is a list of floats) -/
inductive UGeom
  | box (dims : Vec3)
  | sphere (radius : ℝ)
  | cylinder (radius length : ℝ)
  | mesh (filename : String) (scale : Option (List ℝ))

/-- urdf_parser.py:250-274 `Inertial` -/
structure UInertial where
  ixx : ℝ
  ixy : ℝ
  ixz : ℝ
  iyy : ℝ
  iyz : ℝ
  izz : ℝ
  mass : ℝ
  origin : Option UPose

/-- urdf_parser.py:55-71, 630-649: `Collision`, `Visual` (materials are not modelled) -/
structure UShape where
  geometry : Option UGeom
  origin : Option UPose

/-- urdf_parser.py:489-509 `Link` -/
structure ULink where
  name : String
  visual : Option UShape
  inertial : Option UInertial
  collision : Option UShape

/-- urdf_parser.py:302-308 -/
inductive UType
  | revolute | continuous | prismatic | floating | planar | fixed | unknown
  deriving DecidableEq

/-- urdf_parser.py:434-449 `JointLimit` -/
structure ULimit where
  effort : ℝ
  velocity : ℝ
  lower : Option ℝ
  upper : Option ℝ

/-- urdf_parser.py:301-352 `Joint`.  Simplification: `axis` is `None` or three numbers (in the code, a string which is
split and converted); elements without `<parent>` or `<child>` are not modelled. -/
structure UJoint where
  name : String
  parent : String
  child : String
  joint_type : UType
  axis : Option Vec3
  origin : Option UPose
  limits : Option ULimit

/-! ### the container: urdf_parser.py:666-762 -/

/-- `d[k] = v` -/
def dictSet {α : Type} (d : List (String × α)) (k : String) (v : α) : List (String × α) :=
  if k ∈ d.map Prod.fst then d.map fun x => if x.1 = k then (k, v) else x else d ++ [(k, v)]

/-- urdf_parser.py:667-675 (`materials` and `elements` are left out) -/
structure Robot where
  links : List (String × ULink)
  joints : List (String × UJoint)
  parent_map : List (String × String × String)
  child_map : List (String × List (String × String))

/-- urdf_parser.py:667-675 `URDF()` -/
def Robot.empty : Robot := ⟨[], [], [], []⟩

/-- urdf_parser.py:724-726 `add_link` -/
def Robot.addLink (r : Robot) (link : ULink) : Robot := { r with links := dictSet r.links link.name link }

/-- urdf_parser.py:728-736 `add_joint` -/
def Robot.addJoint (r : Robot) (joint : UJoint) : Robot :=
  { r with
    joints := dictSet r.joints joint.name joint
    parent_map := dictSet r.parent_map joint.child (joint.name, joint.parent)
    child_map :=
      match r.child_map.lookup joint.parent with
      | some l => dictSet r.child_map joint.parent (l ++ [(joint.name, joint.child)])
      | none => dictSet r.child_map joint.parent [(joint.name, joint.child)] }

/-- urdf_parser.py:685-701: the elements of the file, in order (materials and the others do not matter here) -/
def Robot.add (r : Robot) : ULink ⊕ UJoint → Robot
  | .inl l => r.addLink l
  | .inr j => r.addJoint j

/-- urdf_parser.py:678-701 `parse_xml_string`, once each element is parsed -/
def Robot.parse (elements : List (ULink ⊕ UJoint)) : Robot := elements.foldl Robot.add .empty

/-- urdf_parser.py:757-760: one turn of the loop of `get_root` -/
def rootStep (r : Robot) (root : Option String) (link : String) : Except PyErr (Option String) :=
  if link ∈ r.parent_map.map Prod.fst then .ok root
  else if root = none then .ok (some link) else .error .assertion

/-- urdf_parser.py:755-762 `get_root` -/
def Robot.getRoot (r : Robot) : Except PyErr String := do
  let root ← (r.links.map Prod.fst).foldlM (rootStep r) none
  match root with
  | none => .error .assertion
  | some x => .ok x

/-- urdf_parser.py:743-751: the loop of `get_chain`, at most `n` turns (`none`: it is still running).  `acc` is the
list `chain` built so far. -/
def chainLoop (r : Robot) (root : String) (joints links fixed : Bool) : ℕ → String → List String → Option (Except PyErr (List String))
  | n, link, acc =>
    if link = root then some (.ok acc.reverse) else
    match n with
    | 0 => none
    | n + 1 =>
      match r.parent_map.lookup link with
      | none => some (.error .keyError)
      | some (joint, parent) =>
        let go := fun acc => chainLoop r root joints links fixed n parent (if links then acc ++ [parent] else acc)
        if joints then
          if fixed then go (acc ++ [joint])
          else match r.joints.lookup joint with
            | none => some (.error .keyError)
            | some j => go (if j.joint_type = .fixed then acc else acc ++ [joint])
        else go acc

/-- urdf_parser.py:739-753 `get_chain`, when its loop takes at most `n` turns -/
def Robot.getChain (r : Robot) (n : ℕ) (root tip : String) (joints links fixed : Bool) : Option (Except PyErr (List String)) :=
  chainLoop r root joints links fixed n tip (if links then [tip] else [])

/-! ### `to_arboris`: urdf/__init__.py:45-154 -/

/-- `f(*l)` for a function of three arguments -/
def star3 {α : Type} (f : ℝ → ℝ → ℝ → α) : Option (List ℝ) → Except PyErr α
  | some [x, y, z] => .ok (f x y z)
  | _ => .error .typeError

/-- urdf/__init__.py:29-33 -/
def rpy (roll pitch yaw : ℝ) : Mat3 := rot (rotzyx yaw pitch roll)

/-- urdf/__init__.py:72-75, and 149-151 with the default `np.eye(4)` -/
def toPose : Option UPose → Except PyErr Mat4
  | none => .ok 1
  | some p => do
    let H ← star3 transl p.position
    let R ← star3 rpy p.rotation
    .ok (mkH R (pos H))

/-- urdf/__init__.py:59-69 `M_com` -/
def comMass (i : UInertial) : Mat6 :=
  let m := max 1e-6 i.mass
  let xx := max 1e-6 i.ixx
  let yy := max 1e-6 i.iyy
  let zz := max 1e-6 i.izz
  blk !![xx, i.ixy, i.ixz; i.ixy, yy, i.iyz; i.ixz, i.iyz, zz] 0 0 (m • 1)

/-- urdf/__init__.py:56-70 -/
def toMass (i : UInertial) : Except PyErr Mat6 := do
  let H_body_com ← toPose i.origin
  let K ← inv H_body_com
  transport (comMass i) K

/-- `np.allclose(axis, e)` -/
def close3 (axis e : Vec3) : Prop := ∀ i, |axis i - e i| ≤ 1e-8 + 1e-5 * |e i|

/-- the dictionary built at urdf/__init__.py:77-116; the class of the joint is given by what its constructor makes -/
structure JointDict where
  parent : String
  child : String
  H_parent_child : Mat4
  H_child_joint : Option Mat4
  type : JAttr

open Classical in
/-- urdf/__init__.py:85-93 and 96-104: the class, and `H_child_joint` -/
def axisCase (sort : Vec3 → Equiv.Perm (Fin 3)) (kx ky kz : LinKind) (axis : Vec3) : Except PyErr (Option Mat4 × JAttr) :=
  if close3 axis ![1, 0, 0] then .ok (none, .zero kx)
  else if close3 axis ![0, 1, 0] then .ok (none, .zero ky)
  else if close3 axis ![0, 0, 1] then .ok (none, .zero kz)
  else do
    let H ← zaligned axis (sort axis)
    .ok (some H, .zero kz)

/-- urdf/__init__.py:84-114 -/
def typeCase (sort : Vec3 → Equiv.Perm (Fin 3)) (axis : Vec3) : UType → Except PyErr (Option Mat4 × JAttr)
  | .revolute => axisCase sort .Rx .Ry .Rz axis
  | .prismatic => axisCase sort .Tx .Ty .Tz axis
  | .fixed => .ok (none, .fixed)
  | .floating => .ok (none, .free 1 0)
  | _ => .error .keyError

/-- urdf/__init__.py:77-116: `obj.axis.split()` is evaluated for all types of joints -/
def toJoint (sort : Vec3 → Equiv.Perm (Fin 3)) (j : UJoint) : Except PyErr JointDict := do
  let H ← toPose j.origin
  match j.axis with
  | none => .error .attributeError
  | some axis => do
    let t ← typeCase sort axis j.joint_type
    .ok ⟨j.parent, j.child, H, t.1, t.2⟩

/-- urdf/__init__.py:129-147: what `load_in_world` uses of it; `obj.scale.split()` fails on a list.  `none` is a mesh. -/
def toGeo : Option UGeom → Except PyErr (Option ShapeGeo)
  | none => .error .typeError
  | some (.box d) => .ok (some (.box ((1 / 2 : ℝ) • d)))
  | some (.sphere r) => .ok (some (.sphere r))
  | some (.cylinder r l) => .ok (some (.cylinder l r))
  | some (.mesh _ none) => .ok none
  | some (.mesh _ (some _)) => .error .attributeError

/-- urdf/__init__.py:124-127 -/
def toCollision (s : UShape) : Except PyErr (Option ShapeGeo × Mat4) := do
  let g ← toGeo s.geometry
  let H ← toPose s.origin
  .ok (g, H)

/-! ### `load_in_world`: urdf/__init__.py:186-279 -/

/-- urdf/__init__.py:50-54, 199-201: a body, its name, its mass.  Simplification: without `<inertial>` the attribute
`mass` becomes `None`; here the matrix stays zero, and the theorems about masses only speak of the other links. -/
def setBody (b : ℕ) (name : String) (mass : Option Mat6) : Prog Unit := fun S =>
  .ok ((), { S with bname := Function.update S.bname b (some name)
                    mass := match mass with
                      | some M => Function.update S.mass b M
                      | none => S.mass })

/-- urdf/__init__.py:53: `to_arboris(obj.inertial)` -/
def massOf : Option UInertial → Except PyErr (Option Mat6)
  | none => .ok none
  | some i => do
    let M ← toMass i
    .ok (some M)

/-- urdf/__init__.py:212-223 -/
def addShape (b : ℕ) (H : Mat4) : Option ShapeGeo → Prog Unit
  | none => pure ()
  | some g => do
    let f ← newSub b H none
    let s ← newShape (.sub f) g none
    reg (.shape s)

/-- urdf/__init__.py:205-223 -/
def loadCollision (b : ℕ) : Option UShape → Prog Unit
  | none => pure ()
  | some s => do
    let c ← liftE (toCollision s)
    addShape b c.2 c.1

/-- urdf/__init__.py:195-223: one turn of the loop; the new item of `list_of_bodies` -/
def loadLink (pre suf : String) (l : String × ULink) : Prog (String × ℕ) := do
  let b ← newBody none none
  let M ← liftE (massOf l.2.inertial)
  setBody b (pre ++ l.1 ++ suf) M
  loadCollision b l.2.collision
  pure (pre ++ l.1 ++ suf, b)

/-- the calls, one after the other, with their values -/
def loadLinks (pre suf : String) : List (String × ULink) → Prog (List (String × ℕ))
  | [] => pure []
  | l :: ls => do
    let x ← loadLink pre suf l
    let xs ← loadLinks pre suf ls
    pure (x :: xs)

/-- urdf/__init__.py:237-245 -/
def jointFrames (parent child : ℕ) (d : JointDict) : Prog (FrameRef × FrameRef) :=
  match d.H_child_joint with
  | some H => do
    let f0 ← newSub parent (d.H_parent_child * H) none
    let f1 ← newSub child H none
    pure (.sub f0, .sub f1)
  | none => do
    let f0 ← newSub parent d.H_parent_child none
    pure (.sub f0, .body child)

/-- urdf/__init__.py:251-263: the `JointLimits` constraint registered for the joint, if any.  Simplification: the
constraint itself is not put in the state, `load` lists them in `limits`. -/
def jointLimits (save : Bool) (u : UJoint) (j : ℕ) : Except PyErr (List (ℕ × ℝ × ℝ)) :=
  if save ∧ (u.joint_type = .revolute ∨ u.joint_type = .prismatic) then
    match u.limits with
    | none => .error .attributeError
    | some L =>
      match L.lower, L.upper with
      | some lo, some up => .ok [(j, lo, up)]
      | _, _ => .ok []
  else .ok []

/-- urdf/__init__.py:227-263: one turn of the loop (line 232 sets an attribute of the class, hidden by that of the
instance) -/
def loadJoint (sort : Vec3 → Equiv.Perm (Fin 3)) (pre suf : String) (save : Bool) (bodies : List (String × ℕ)) (x : String × UJoint) :
    Prog (List (ℕ × ℝ × ℝ)) := do
  let d ← liftE (toJoint sort x.2)
  let parent ← byName bodies d.parent
  let child ← byName bodies d.child
  let f ← jointFrames parent child d
  let j ← newJoint d.type (some (pre ++ x.1 ++ suf))
  link f.1 j f.2
  liftE (jointLimits save x.2 j)

/-- the calls, one after the other -/
def loadJoints (sort : Vec3 → Equiv.Perm (Fin 3)) (pre suf : String) (save : Bool) (bodies : List (String × ℕ)) :
    List (String × UJoint) → Prog (List (ℕ × ℝ × ℝ))
  | [] => pure []
  | x :: xs => do
    let l ← loadJoint sort pre suf save bodies x
    let ls ← loadJoints sort pre suf save bodies xs
    pure (l ++ ls)

/-- urdf/__init__.py:268-271 -/
def baseFrame : Option Mat4 → Prog FrameRef
  | none => ground
  | some H => fun S => (do
      let f ← newSub S.w.ground H none
      pure (.sub f) : Prog FrameRef) S

/-- the arguments of `URDFConverter`: urdf/__init__.py:161 -/
structure Options where
  H_init : Option Mat4 := none
  fixed_base : Bool := false
  pre : String := ""
  suf : String := ""
  root_joint_name : String := "root_joint"
  save_joint_limits : Bool := true

/-- what is made besides the world: `list_of_bodies`, the joint limits registered -/
structure Result where
  bodies : List (String × ℕ)
  limits : List (ℕ × ℝ × ℝ)

/-- urdf/__init__.py:186-279 `load_in_world` (a robot has been loaded) -/
def load (sort : Vec3 → Equiv.Perm (Fin 3)) (lim : ℕ) (opt : Options) (r : Robot) : Prog Result := do
  let bodies ← loadLinks opt.pre opt.suf r.links
  let limits ← loadJoints sort opt.pre opt.suf opt.save_joint_limits bodies r.joints
  let root ← liftE r.getRoot
  let b ← byName bodies root
  let f ← baseFrame opt.H_init
  let j ← newJoint (if opt.fixed_base then .fixed else .free 1 0) (some (opt.pre ++ opt.root_joint_name ++ opt.suf))
  link f j (.body b)
  init lim
  pure ⟨bodies, limits⟩

/-! ### the tables: urdf/__init__.py:325-363 -/

/-- urdf/__init__.py:334-335, 349, 361: an attribute of `urdf_joint.limits` -/
def limitsOf (u : UJoint) : Except PyErr ULimit :=
  match u.limits with
  | none => .error .attributeError
  | some L => .ok L

/-- urdf/__init__.py:325-339 `get_joint_limits` -/
def getJointLimits (pre suf : String) (r : Robot) : Except PyErr (List (String × ℝ × ℝ)) :=
  r.joints.foldlM (fun d x => do
    let L ← limitsOf x.2
    match L.lower, L.upper with
    | some lo, some up => .ok (dictSet d (pre ++ x.1 ++ suf) (lo, up))
    | _, _ => .ok d) []

/-- urdf/__init__.py:341-351 `get_effort_limits` -/
def getEffortLimits (pre suf : String) (r : Robot) : Except PyErr (List (String × ℝ)) :=
  r.joints.foldlM (fun d x => do
    let L ← limitsOf x.2
    .ok (dictSet d (pre ++ x.1 ++ suf) L.effort)) []

/-- urdf/__init__.py:353-363 `get_velocity_limits` -/
def getVelocityLimits (pre suf : String) (r : Robot) : Except PyErr (List (String × ℝ)) :=
  r.joints.foldlM (fun d x => do
    let L ← limitsOf x.2
    .ok (dictSet d (pre ++ x.1 ++ suf) L.velocity)) []

end
end Arboris.Urdf
