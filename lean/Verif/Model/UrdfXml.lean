import Verif.Model.Urdf

/-!
# Model of `robots/urdf/urdf_parser.py`: the classes, `parse` and `to_xml`

An XML document is a tree of nodes, as `xml.dom.minidom` gives it; the text of the file, namespaces and warnings are not
modelled (`verbose` only changes warnings).  Python 2 has two types of strings: `str` (`bytes`) and `unicode` (`uni`); the
attributes read by minidom are `unicode`.  How numbers are written (`"{0}".format`) and read (`float`) is a parameter.
-/

namespace Arboris.UrdfXml
open Urdf

noncomputable section

/-- a node of minidom: an element (its name, its attributes, its children), a text, a comment, or something else
(processing instruction, CDATA section, doctype) -/
inductive Xml
  | elem (tag : String) (attrs : List (String × String)) (kids : List Xml)
  | text (s : String)
  | comment (s : String)
  | other (s : String)

/-- `"{0}".format(x)`, and `float(s)` (`none`: it raises `ValueError`) -/
structure Codec where
  fmt : ℝ → String
  read : String → Option ℝ

/-- a Python 2 string -/
inductive PyStr
  | bytes (s : String)
  | uni (s : String)

/-- its characters -/
def PyStr.chars : PyStr → String
  | .bytes s => s
  | .uni s => s

/-- the values given to `set_attribute` -/
inductive PVal
  | none
  | str (s : PyStr)
  | num (x : ℝ)
  | nums (l : List ℝ)

/-- `None`, or the value -/
def PVal.ofOpt {α : Type} (g : α → PVal) : Option α → PVal
  | .none => .none
  | .some a => g a

/-! ### text: urdf_parser.py:27-41 -/

/-- the characters `split()` cuts at (the ones of ASCII) -/
def isBlank (c : Char) : Bool := c ∈ [' ', '\t', '\n', '\r', '\x0b', '\x0c']

/-- the word read so far, if any -/
def flush (cur : List Char) : List (List Char) := if cur = [] then [] else [cur]

/-- `split()`, `cur` being the beginning of a word -/
def splitGo (cur : List Char) : List Char → List (List Char)
  | [] => flush cur
  | c :: l => if isBlank c then flush cur ++ splitGo [] l else splitGo (cur ++ [c]) l

/-- `s.split()` -/
def pySplit (s : String) : List String := (splitGo [] s.toList).map String.ofList

/-- `" ".join(l)` -/
def pyJoin (l : List String) : String := String.ofList ([' '].intercalate (l.map String.toList))

/-- urdf_parser.py:27-28 `pfloat` -/
def pfloat (c : Codec) (x : ℝ) : String := String.ofList ((c.fmt x).toList.reverse.dropWhile (· = '.')).reverse

/-- `float(s)` -/
def float (c : Codec) (s : String) : Except PyErr ℝ :=
  match c.read s with
  | some x => .ok x
  | none => .error .valueError

/-- `map(float, s.split())` -/
def floats (c : Codec) (s : String) : Except PyErr (List ℝ) := (pySplit s).mapM (float c)

/-- the encoding of `str(u)` -/
def isAscii (s : String) : Bool := s.toList.all fun c => c.val < 128

/-! ### nodes: urdf_parser.py:23-56 -/

/-- the attributes of an element being built -/
abbrev Attrs := List (String × String)

/-- urdf_parser.py:30-39 `set_attribute` -/
def setAttr (c : Codec) (name : String) (value : PVal) (a : Attrs) : Except PyErr Attrs :=
  match value with
  | .none => .ok a
  | .nums l => .ok (dictSet a name (pyJoin (l.map (pfloat c))))
  | .num x => .ok (dictSet a name (pfloat c x))
  | .str (.bytes s) => .ok (dictSet a name s)
  | .str (.uni s) => if isAscii s then .ok (dictSet a name s) else .error .unicodeError

/-- urdf_parser.py:41-44 `short` -/
def short (c : Codec) (name key : String) (value : PVal) : Except PyErr Xml := do
  let a ← setAttr c key value []
  .ok (.elem name a [])

/-- urdf_parser.py:23-25 `add`: the list of nodes appended -/
def add {α : Type} (toXml : α → Except PyErr Xml) : Option α → Except PyErr (List Xml)
  | none => .ok []
  | some a => do
    let x ← toXml a
    .ok [x]

/-- text and comments -/
def Xml.isNoise : Xml → Bool
  | .text _ => true
  | .comment _ => true
  | _ => false

/-- urdf_parser.py:46-54 `children` -/
def children : Xml → List Xml
  | .elem _ _ kids => kids.filter fun k => !k.isNoise
  | _ => []

/-- `node.localName` -/
def localName : Xml → Option String
  | .elem tag _ _ => some tag
  | _ => none

/-- `node.getAttribute(name)` -/
def getAttribute (name : String) : Xml → Except PyErr String
  | .elem _ attrs _ => .ok ((attrs.lookup name).getD "")
  | _ => .error .attributeError

/-- `if node.hasAttribute(name): … g(node.getAttribute(name))` -/
def ifAttribute {α : Type} (name : String) (g : String → Except PyErr α) : Xml → Except PyErr (Option α)
  | .elem _ attrs _ =>
    match attrs.lookup name with
    | none => .ok none
    | some s => do
      let a ← g s
      .ok (some a)
  | _ => .error .attributeError

/-! ### poses and shapes -/

/-- urdf_parser.py:573-582 `Pose.parse` -/
def parsePose (c : Codec) (n : Xml) : Except PyErr UPose := do
  let p ← ifAttribute "xyz" (floats c) n
  let r ← ifAttribute "rpy" (floats c) n
  .ok ⟨p, r⟩

/-- urdf_parser.py:584-588 `Pose.to_xml` -/
def poseXml (c : Codec) (p : UPose) : Except PyErr Xml := do
  let a ← setAttr c "xyz" (.ofOpt .nums p.position) []
  let a ← setAttr c "rpy" (.ofOpt .nums p.rotation) a
  .ok (.elem "origin" a [])

/-- urdf_parser.py:152-236: the shapes.  Simplification: `Box()` without dimensions is not modelled. -/
inductive XGeom
  | box (dims : ℝ × ℝ × ℝ)
  | cylinder (radius length : ℝ)
  | sphere (radius : ℝ)
  | mesh (filename : Option PyStr) (scale : Option (List ℝ))

/-- urdf_parser.py:162-164 `Box.parse`, with 153-159 -/
def parseBox (c : Codec) (n : Xml) : Except PyErr XGeom := do
  let s ← getAttribute "size" n
  let l ← floats c s
  match l with
  | x :: y :: z :: _ => .ok (.box (x, y, z))
  | _ => .error .indexError

/-- urdf_parser.py:184-187 `Cylinder.parse` -/
def parseCylinder (c : Codec) (n : Xml) : Except PyErr XGeom := do
  let r ← getAttribute "radius" n
  let l ← getAttribute "length" n
  let r ← float c r
  let l ← float c l
  .ok (.cylinder r l)

/-- urdf_parser.py:207-209 `Sphere.parse` -/
def parseSphere (c : Codec) (n : Xml) : Except PyErr XGeom := do
  let r ← getAttribute "radius" n
  let r ← float c r
  .ok (.sphere r)

/-- urdf_parser.py:229-237 `Mesh.parse` -/
def parseMesh (c : Codec) (n : Xml) : Except PyErr XGeom := do
  let fn ← getAttribute "filename" n
  let s ← getAttribute "scale" n
  if s = "" then .ok (.mesh (some (.uni fn)) none)
  else do
    let l ← floats c s
    .ok (.mesh (some (.uni fn)) (some l))

/-- urdf_parser.py:132-145 `Geometry.parse`: `None` for an unknown shape -/
def parseGeom (c : Codec) (n : Xml) : Except PyErr (Option XGeom) :=
  match children n with
  | [] => .error .indexError
  | shape :: _ =>
    if localName shape = some "box" then some <$> parseBox c shape
    else if localName shape = some "cylinder" then some <$> parseCylinder c shape
    else if localName shape = some "sphere" then some <$> parseSphere c shape
    else if localName shape = some "mesh" then some <$> parseMesh c shape
    else .ok none

/-- urdf_parser.py:166-171, 189-195, 211-216, 239-245: `to_xml` of the shapes -/
def geomXml (c : Codec) : XGeom → Except PyErr Xml
  | .box (x, y, z) => do
    let a ← setAttr c "size" (.nums [x, y, z]) []
    .ok (.elem "geometry" [] [.elem "box" a []])
  | .cylinder r l => do
    let a ← setAttr c "radius" (.num r) []
    let a ← setAttr c "length" (.num l) a
    .ok (.elem "geometry" [] [.elem "cylinder" a []])
  | .sphere r => do
    let a ← setAttr c "radius" (.num r) []
    .ok (.elem "geometry" [] [.elem "sphere" a []])
  | .mesh fn s => do
    let a ← setAttr c "filename" (.ofOpt .str fn) []
    let a ← setAttr c "scale" (.ofOpt .nums s) a
    .ok (.elem "geometry" [] [.elem "mesh" a []])

/-- urdf_parser.py:58-61 `Collision` -/
structure XCollision where
  geometry : Option XGeom
  origin : Option UPose

/-- urdf_parser.py:65-73: one turn of the loop -/
def collisionStep (c : Codec) (o : XCollision) (k : Xml) : Except PyErr XCollision :=
  if localName k = some "geometry" then do
    let g ← parseGeom c k
    .ok { o with geometry := g }
  else if localName k = some "origin" then do
    let p ← parsePose c k
    .ok { o with origin := some p }
  else .ok o

/-- urdf_parser.py:63-74 `Collision.parse` -/
def parseCollision (c : Codec) (n : Xml) : Except PyErr XCollision := (children n).foldlM (collisionStep c) ⟨none, none⟩

/-- urdf_parser.py:76-80 `Collision.to_xml` -/
def collisionXml (c : Codec) (o : XCollision) : Except PyErr Xml := do
  let g ← add (geomXml c) o.geometry
  let p ← add (poseXml c) o.origin
  .ok (.elem "collision" [] (g ++ p))

/-! ### materials -/

/-- urdf_parser.py:536-540 `Material`, with `Color` 87-89 -/
structure XMaterial where
  name : Option PyStr
  color : Option (ℝ × ℝ × ℝ × ℝ)
  texture : Option PyStr

/-- urdf_parser.py:91-95 `Color.parse` -/
def parseColor (c : Codec) (n : Xml) : Except PyErr (ℝ × ℝ × ℝ × ℝ) := do
  let s ← getAttribute "rgba" n
  let l ← floats c s
  match l with
  | [r, g, b, a] => .ok (r, g, b, a)
  | _ => .error .valueError

/-- urdf_parser.py:97-100 `Color.to_xml` -/
def colorXml (c : Codec) (x : ℝ × ℝ × ℝ × ℝ) : Except PyErr Xml := do
  let a ← setAttr c "rgba" (.nums [x.1, x.2.1, x.2.2.1, x.2.2.2]) []
  .ok (.elem "color" a [])

/-- urdf_parser.py:547-554: one turn of the loop -/
def materialStep (c : Codec) (o : XMaterial) (k : Xml) : Except PyErr XMaterial :=
  if localName k = some "color" then do
    let x ← parseColor c k
    .ok { o with color := some x }
  else if localName k = some "texture" then do
    let s ← getAttribute "filename" k
    .ok { o with texture := some (.uni s) }
  else .ok o

/-- urdf_parser.py:542-556 `Material.parse` -/
def parseMaterial (c : Codec) (n : Xml) : Except PyErr XMaterial := do
  let name ← ifAttribute "name" (fun s => .ok (.uni s)) n
  (children n).foldlM (materialStep c) ⟨name, none, none⟩

/-- urdf_parser.py:563-566: the texture (`setAttribute` itself takes both types of strings) -/
def textureXml (s : PyStr) : Except PyErr Xml := .ok (.elem "texture" [("filename", s.chars)] [])

/-- urdf_parser.py:558-567 `Material.to_xml` -/
def materialXml (c : Codec) (o : XMaterial) : Except PyErr Xml := do
  let a ← setAttr c "name" (.ofOpt .str o.name) []
  let k ← add (colorXml c) o.color
  let t ← add textureXml o.texture
  .ok (.elem "material" a (k ++ t))

/-- urdf_parser.py:631-635 `Visual` -/
structure XVisual where
  geometry : Option XGeom
  material : Option XMaterial
  origin : Option UPose

/-- urdf_parser.py:640-649: one turn of the loop -/
def visualStep (c : Codec) (o : XVisual) (k : Xml) : Except PyErr XVisual :=
  if localName k = some "geometry" then do
    let g ← parseGeom c k
    .ok { o with geometry := g }
  else if localName k = some "origin" then do
    let p ← parsePose c k
    .ok { o with origin := some p }
  else if localName k = some "material" then do
    let m ← parseMaterial c k
    .ok { o with material := some m }
  else .ok o

/-- urdf_parser.py:637-650 `Visual.parse` -/
def parseVisual (c : Codec) (n : Xml) : Except PyErr XVisual := (children n).foldlM (visualStep c) ⟨none, none, none⟩

/-- urdf_parser.py:652-657 `Visual.to_xml` -/
def visualXml (c : Codec) (o : XVisual) : Except PyErr Xml := do
  let g ← add (geomXml c) o.geometry
  let p ← add (poseXml c) o.origin
  let m ← add (materialXml c) o.material
  .ok (.elem "visual" [] (g ++ p ++ m))

/-! ### links -/

/-- `float(child.getAttribute(name))` -/
def floatAttr (c : Codec) (name : String) (n : Xml) : Except PyErr ℝ := do
  let s ← getAttribute name n
  float c s

/-- urdf_parser.py:266-273: one turn of the loop -/
def inertialStep (c : Codec) (o : UInertial) (k : Xml) : Except PyErr UInertial :=
  if localName k = some "inertia" then do
    let xx ← floatAttr c "ixx" k
    let xy ← floatAttr c "ixy" k
    let xz ← floatAttr c "ixz" k
    let yy ← floatAttr c "iyy" k
    let yz ← floatAttr c "iyz" k
    let zz ← floatAttr c "izz" k
    .ok { o with ixx := xx, ixy := xy, ixz := xz, iyy := yy, iyz := yz, izz := zz }
  else if localName k = some "mass" then do
    let m ← floatAttr c "value" k
    .ok { o with mass := m }
  else if localName k = some "origin" then do
    let p ← parsePose c k
    .ok { o with origin := some p }
  else .ok o

/-- urdf_parser.py:263-274 `Inertial.parse` -/
def parseInertial (c : Codec) (n : Xml) : Except PyErr UInertial :=
  (children n).foldlM (inertialStep c) ⟨0, 0, 0, 0, 0, 0, 0, none⟩

/-- urdf_parser.py:276-287 `Inertial.to_xml`.  Simplification: Python enumerates the six items of `self.matrix` in an
arbitrary order; here they are in the order of the constructor. -/
def inertialXml (c : Codec) (o : UInertial) : Except PyErr Xml := do
  let m ← short c "mass" "value" (.num o.mass)
  let a ← setAttr c "ixx" (.num o.ixx) []
  let a ← setAttr c "ixy" (.num o.ixy) a
  let a ← setAttr c "ixz" (.num o.ixz) a
  let a ← setAttr c "iyy" (.num o.iyy) a
  let a ← setAttr c "iyz" (.num o.iyz) a
  let a ← setAttr c "izz" (.num o.izz) a
  let p ← add (poseXml c) o.origin
  .ok (.elem "inertial" [] ([m, .elem "inertia" a []] ++ p))

/-- urdf_parser.py:490-494 `Link` -/
structure XLink where
  name : PyStr
  visual : Option XVisual
  inertial : Option UInertial
  collision : Option XCollision

/-- urdf_parser.py:499-508: one turn of the loop -/
def linkStep (c : Codec) (o : XLink) (k : Xml) : Except PyErr XLink :=
  if localName k = some "visual" then do
    let v ← parseVisual c k
    .ok { o with visual := some v }
  else if localName k = some "collision" then do
    let x ← parseCollision c k
    .ok { o with collision := some x }
  else if localName k = some "inertial" then do
    let i ← parseInertial c k
    .ok { o with inertial := some i }
  else .ok o

/-- urdf_parser.py:496-509 `Link.parse` -/
def parseLink (c : Codec) (n : Xml) : Except PyErr XLink := do
  let name ← getAttribute "name" n
  (children n).foldlM (linkStep c) ⟨.uni name, none, none, none⟩

/-- urdf_parser.py:511-517 `Link.to_xml` -/
def linkXml (c : Codec) (o : XLink) : Except PyErr Xml := do
  let v ← add (visualXml c) o.visual
  let x ← add (collisionXml c) o.collision
  let i ← add (inertialXml c) o.inertial
  .ok (.elem "link" [("name", o.name.chars)] (v ++ x ++ i))

/-! ### joints -/

/-- urdf_parser.py:108-111 `Dynamics`: strings when parsed -/
structure XDynamics where
  damping : PVal
  friction : PVal

/-- `None`, or the string -/
def optStr : Option PyStr → PVal := PVal.ofOpt .str

/-- urdf_parser.py:113-120 `Dynamics.parse` -/
def parseDynamics (n : Xml) : Except PyErr XDynamics := do
  let d ← ifAttribute "damping" (fun s => .ok (.uni s)) n
  let f ← ifAttribute "friction" (fun s => .ok (.uni s)) n
  .ok ⟨optStr d, optStr f⟩

/-- urdf_parser.py:122-126 `Dynamics.to_xml` -/
def dynamicsXml (c : Codec) (o : XDynamics) : Except PyErr Xml := do
  let a ← setAttr c "damping" o.damping []
  let a ← setAttr c "friction" o.friction a
  .ok (.elem "dynamics" a [])

/-- urdf_parser.py:407-411 `JointCalibration` -/
structure XCalibration where
  rising : Option ℝ
  falling : Option ℝ

/-- urdf_parser.py:413-420 `JointCalibration.parse` -/
def parseCalibration (c : Codec) (n : Xml) : Except PyErr XCalibration := do
  let r ← ifAttribute "rising" (float c) n
  let f ← ifAttribute "falling" (float c) n
  .ok ⟨r, f⟩

/-- urdf_parser.py:422-426 `JointCalibration.to_xml` -/
def calibrationXml (c : Codec) (o : XCalibration) : Except PyErr Xml := do
  let a ← setAttr c "rising" (.ofOpt .num o.rising) []
  let a ← setAttr c "falling" (.ofOpt .num o.falling) a
  .ok (.elem "calibration" a [])

/-- urdf_parser.py:441-449 `JointLimit.parse` -/
def parseLimit (c : Codec) (n : Xml) : Except PyErr ULimit := do
  let e ← floatAttr c "effort" n
  let v ← floatAttr c "velocity" n
  let lo ← ifAttribute "lower" (float c) n
  let up ← ifAttribute "upper" (float c) n
  .ok ⟨e, v, lo, up⟩

/-- urdf_parser.py:451-457 `JointLimit.to_xml` -/
def limitXml (c : Codec) (o : ULimit) : Except PyErr Xml := do
  let a ← setAttr c "effort" (.num o.effort) []
  let a ← setAttr c "velocity" (.num o.velocity) a
  let a ← setAttr c "lower" (.ofOpt .num o.lower) a
  let a ← setAttr c "upper" (.ofOpt .num o.upper) a
  .ok (.elem "limit" a [])

/-- urdf_parser.py:468-472 `JointMimic` -/
structure XMimic where
  joint_name : PyStr
  multiplier : Option ℝ
  offset : Option ℝ

/-- urdf_parser.py:474-481 `JointMimic.parse` -/
def parseMimic (c : Codec) (n : Xml) : Except PyErr XMimic := do
  let j ← getAttribute "joint" n
  let m ← ifAttribute "multiplier" (float c) n
  let o ← ifAttribute "offset" (float c) n
  .ok ⟨.uni j, m, o⟩

/-- urdf_parser.py:483-488 `JointMimic.to_xml` -/
def mimicXml (c : Codec) (o : XMimic) : Except PyErr Xml := do
  let a ← setAttr c "joint" (.str o.joint_name) []
  let a ← setAttr c "multiplier" (.ofOpt .num o.multiplier) a
  let a ← setAttr c "offset" (.ofOpt .num o.offset) a
  .ok (.elem "mimic" a [])

/-- urdf_parser.py:597-602 `SafetyController` -/
structure XSafety where
  velocity : ℝ
  position : Option ℝ
  lower : Option ℝ
  upper : Option ℝ

/-- urdf_parser.py:604-613 `SafetyController.parse` -/
def parseSafety (c : Codec) (n : Xml) : Except PyErr XSafety := do
  let v ← floatAttr c "k_velocity" n
  let lo ← ifAttribute "soft_lower_limit" (float c) n
  let up ← ifAttribute "soft_upper_limit" (float c) n
  let p ← ifAttribute "k_position" (float c) n
  .ok ⟨v, p, lo, up⟩

/-- urdf_parser.py:615-621 `SafetyController.to_xml` -/
def safetyXml (c : Codec) (o : XSafety) : Except PyErr Xml := do
  let a ← setAttr c "k_velocity" (.num o.velocity) []
  let a ← setAttr c "k_position" (.ofOpt .num o.position) a
  let a ← setAttr c "soft_upper_limit" (.ofOpt .num o.upper) a
  let a ← setAttr c "soft_lower_limit" (.ofOpt .num o.lower) a
  .ok (.elem "safety_controller" a [])

/-- urdf_parser.py:312-325 `Joint`; `axis` is `None`, a string (when parsed) or numbers -/
structure XJoint where
  name : PyStr
  parent : Option PyStr
  child : Option PyStr
  joint_type : PyStr
  axis : PVal
  origin : Option UPose
  limits : Option ULimit
  dynamics : Option XDynamics
  safety : Option XSafety
  calibration : Option XCalibration
  mimic : Option XMimic

/-- urdf_parser.py:330-352: one turn of the loop -/
def jointStep (c : Codec) (o : XJoint) (k : Xml) : Except PyErr XJoint :=
  if localName k = some "parent" then do
    let s ← getAttribute "link" k
    .ok { o with parent := some (.uni s) }
  else if localName k = some "child" then do
    let s ← getAttribute "link" k
    .ok { o with child := some (.uni s) }
  else if localName k = some "axis" then do
    let s ← getAttribute "xyz" k
    .ok { o with axis := .str (.uni s) }
  else if localName k = some "origin" then do
    let p ← parsePose c k
    .ok { o with origin := some p }
  else if localName k = some "limit" then do
    let l ← parseLimit c k
    .ok { o with limits := some l }
  else if localName k = some "dynamics" then do
    let d ← parseDynamics k
    .ok { o with dynamics := some d }
  else if localName k = some "safety_controller" then do
    let s ← parseSafety c k
    .ok { o with safety := some s }
  else if localName k = some "calibration" then do
    let x ← parseCalibration c k
    .ok { o with calibration := some x }
  else if localName k = some "mimic" then do
    let m ← parseMimic c k
    .ok { o with mimic := some m }
  else .ok o

/-- urdf_parser.py:326-353 `Joint.parse` -/
def parseJoint (c : Codec) (n : Xml) : Except PyErr XJoint := do
  let name ← getAttribute "name" n
  let type ← getAttribute "type" n
  (children n).foldlM (jointStep c) ⟨.uni name, none, none, .uni type, .none, none, none, none, none, none, none⟩

/-- urdf_parser.py:362-363: the axis, if any -/
def axisXml (c : Codec) : PVal → Except PyErr (List Xml)
  | .none => .ok []
  | v => do
    let x ← short c "axis" "xyz" v
    .ok [x]

/-- urdf_parser.py:355-368 `Joint.to_xml` (`mimic` is not written) -/
def jointXml (c : Codec) (o : XJoint) : Except PyErr Xml := do
  let a ← setAttr c "name" (.str o.name) []
  let a ← setAttr c "type" (.str o.joint_type) a
  let p ← short c "parent" "link" (optStr o.parent)
  let k ← short c "child" "link" (optStr o.child)
  let or ← add (poseXml c) o.origin
  let ax ← axisXml c o.axis
  let li ← add (limitXml c) o.limits
  let dy ← add (dynamicsXml c) o.dynamics
  let sa ← add (safetyXml c) o.safety
  let ca ← add (calibrationXml c) o.calibration
  .ok (.elem "joint" a ([p, k] ++ or ++ ax ++ li ++ dy ++ sa ++ ca))

/-! ### the robot -/

/-- what `elements` contains -/
inductive XElement
  | joint (j : XJoint)
  | link (l : XLink)
  | material (m : XMaterial)

/-- urdf_parser.py:666-675 `URDF`.  Simplification: the dictionaries are made from `elements` (`Model/Urdf`), `materials`
is left out. -/
structure URDF where
  name : PyStr
  elements : List XElement

/-- urdf_parser.py:685-701: one turn of the loop -/
def robotStep (c : Codec) (es : List XElement) (k : Xml) : Except PyErr (List XElement) :=
  if localName k = some "joint" then do
    let j ← parseJoint c k
    .ok (es ++ [.joint j])
  else if localName k = some "link" then do
    let l ← parseLink c k
    .ok (es ++ [.link l])
  else if localName k = some "material" then do
    let m ← parseMaterial c k
    .ok (es ++ [.material m])
  else .ok es

/-- urdf_parser.py:677-702 `parse_xml_string`; `doc` are the nodes of the document -/
def parseDoc (c : Codec) (doc : List Xml) : Except PyErr URDF :=
  match doc.filter fun k => !k.isNoise with
  | [] => .error .indexError
  | robot :: _ => do
    let name ← getAttribute "name" robot
    let es ← (children robot).foldlM (robotStep c) []
    .ok ⟨.uni name, es⟩

/-- `element.to_xml(doc)` -/
def elementXml (c : Codec) : XElement → Except PyErr Xml
  | .joint j => jointXml c j
  | .link l => linkXml c l
  | .material m => materialXml c m

/-- urdf_parser.py:764-773 `to_xml`, before it is printed -/
def robotXml (c : Codec) (r : URDF) : Except PyErr (List Xml) := do
  let es ← r.elements.mapM (elementXml c)
  .ok [.elem "robot" [("name", r.name.chars)] es]

end
end Arboris.UrdfXml
