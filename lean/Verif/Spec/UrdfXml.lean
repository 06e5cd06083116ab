import Verif.Model.UrdfXml

/-! # Specification of the XML files of URDF: what is read of a file, and what is kept by writing a robot and reading it again -/

namespace Arboris.UrdfXml.Spec
open Urdf

noncomputable section

/-! ### the vocabulary -/

/-- the elements which are read inside an element -/
def kidsRead : String → List String
  | "robot" => ["joint", "link", "material"]
  | "link" => ["visual", "collision", "inertial"]
  | "visual" => ["geometry", "origin", "material"]
  | "collision" => ["geometry", "origin"]
  | "inertial" => ["inertia", "mass", "origin"]
  | "material" => ["color", "texture"]
  | "joint" => ["parent", "child", "axis", "origin", "limit", "dynamics", "safety_controller", "calibration", "mimic"]
  | _ => []

/-- the attributes which are read in an element -/
def attrsRead : String → List String
  | "robot" => ["name"]
  | "link" => ["name"]
  | "joint" => ["name", "type"]
  | "material" => ["name"]
  | "color" => ["rgba"]
  | "texture" => ["filename"]
  | "origin" => ["xyz", "rpy"]
  | "box" => ["size"]
  | "cylinder" => ["radius", "length"]
  | "sphere" => ["radius"]
  | "mesh" => ["filename", "scale"]
  | "inertia" => ["ixx", "ixy", "ixz", "iyy", "iyz", "izz"]
  | "mass" => ["value"]
  | "parent" => ["link"]
  | "child" => ["link"]
  | "axis" => ["xyz"]
  | "limit" => ["effort", "velocity", "lower", "upper"]
  | "dynamics" => ["damping", "friction"]
  | "safety_controller" => ["k_velocity", "k_position", "soft_lower_limit", "soft_upper_limit"]
  | "calibration" => ["rising", "falling"]
  | "mimic" => ["joint", "multiplier", "offset"]
  | _ => []

/-- the attributes of `l` which are in `names`, in the order of `names` -/
def keepAttrs (names : List String) (l : Attrs) : Attrs := names.filterMap fun n => (l.lookup n).map fun v => (n, v)

/-- is the node read inside an element `kind`?  In `<geometry>`, whatever is not text or comment -/
def isRead (kind : String) (n : Xml) : Bool :=
  match n with
  | .elem tag _ _ => kind = "geometry" || (kidsRead kind).contains tag
  | .other _ => kind = "geometry"
  | _ => false

mutual
/-- what is read of a node, as an element `kind` -/
def essence (kind : String) : Xml → Xml
  | .elem tag attrs kids => .elem tag (keepAttrs (attrsRead kind) attrs) (essences kind kids)
  | n => n
/-- what is read of the nodes inside an element `kind` -/
def essences (kind : String) : List Xml → List Xml
  | [] => []
  | n :: l => (if isRead kind n then [essence ((localName n).getD "") n] else []) ++ essences kind l
end

/-- what is read of a document: its first node (except text and comments), whatever its name, as a `<robot>` -/
def essenceDoc (doc : List Xml) : List Xml := ((doc.filter fun k => !k.isNoise).take 1).map (essence "robot")

/-! ### what is kept by writing and reading again -/

/-- Numbers are written as words, and `rd x` is the number read from the word written for `x`. -/
structure Reads (c : Codec) (rd : ℝ → ℝ) : Prop where
  word : ∀ x, pfloat c x ≠ "" ∧ ∀ k ∈ (pfloat c x).toList, isBlank k = false
  read : ∀ x, c.read (pfloat c x) = some (rd x)

/-- the text written for a value -/
def asText (c : Codec) : PVal → PVal
  | .none => .none
  | .str s => .str (.uni s.chars)
  | .num x => .str (.uni (pfloat c x))
  | .nums l => .str (.uni (pyJoin (l.map (pfloat c))))

/-- a string, once written and read -/
def reStr (s : PyStr) : PyStr := .uni s.chars

/-- a string or `None`, once written and read where a missing attribute reads as an empty string -/
def reOptStr : Option PyStr → PyStr
  | none => .uni ""
  | some s => reStr s

def rePose (rd : ℝ → ℝ) (p : UPose) : UPose := ⟨p.position.map (·.map rd), p.rotation.map (·.map rd)⟩

def reGeom (rd : ℝ → ℝ) : XGeom → XGeom
  | .box (x, y, z) => .box (rd x, rd y, rd z)
  | .cylinder r l => .cylinder (rd r) (rd l)
  | .sphere r => .sphere (rd r)
  | .mesh fn s => .mesh (some (reOptStr fn)) (match s with
    | some (x :: l) => some (rd x :: l.map rd)
    | _ => none)

def reCollision (rd : ℝ → ℝ) (o : XCollision) : XCollision := ⟨o.geometry.map (reGeom rd), o.origin.map (rePose rd)⟩

def reMaterial (rd : ℝ → ℝ) (o : XMaterial) : XMaterial :=
  ⟨o.name.map reStr, o.color.map fun x => (rd x.1, rd x.2.1, rd x.2.2.1, rd x.2.2.2), o.texture.map reStr⟩

def reVisual (rd : ℝ → ℝ) (o : XVisual) : XVisual :=
  ⟨o.geometry.map (reGeom rd), o.material.map (reMaterial rd), o.origin.map (rePose rd)⟩

def reInertial (rd : ℝ → ℝ) (o : UInertial) : UInertial :=
  ⟨rd o.ixx, rd o.ixy, rd o.ixz, rd o.iyy, rd o.iyz, rd o.izz, rd o.mass, o.origin.map (rePose rd)⟩

def reLink (rd : ℝ → ℝ) (o : XLink) : XLink :=
  ⟨reStr o.name, o.visual.map (reVisual rd), o.inertial.map (reInertial rd), o.collision.map (reCollision rd)⟩

def reLimit (rd : ℝ → ℝ) (o : ULimit) : ULimit := ⟨rd o.effort, rd o.velocity, o.lower.map rd, o.upper.map rd⟩

/-- A joint: numbers which are read as text stay text, a missing link becomes the link `""`, and `mimic` is lost. -/
def reJoint (c : Codec) (rd : ℝ → ℝ) (o : XJoint) : XJoint where
  name := reStr o.name
  parent := some (reOptStr o.parent)
  child := some (reOptStr o.child)
  joint_type := reStr o.joint_type
  axis := asText c o.axis
  origin := o.origin.map (rePose rd)
  limits := o.limits.map (reLimit rd)
  dynamics := o.dynamics.map fun d => ⟨asText c d.damping, asText c d.friction⟩
  safety := o.safety.map fun s => ⟨rd s.velocity, s.position.map rd, s.lower.map rd, s.upper.map rd⟩
  calibration := o.calibration.map fun x => ⟨x.rising.map rd, x.falling.map rd⟩
  mimic := none

def reElement (c : Codec) (rd : ℝ → ℝ) : XElement → XElement
  | .joint j => .joint (reJoint c rd j)
  | .link l => .link (reLink rd l)
  | .material m => .material (reMaterial rd m)

/-- the robot read from the file written for `r` -/
def reread (c : Codec) (rd : ℝ → ℝ) (r : URDF) : URDF := ⟨reStr r.name, r.elements.map (reElement c rd)⟩

/-! ### robots which can be written, robots which are kept -/

/-- Python 2 can convert the string: a `unicode` with other characters than those of ASCII cannot be -/
def Convertible : PyStr → Prop
  | .bytes _ => True
  | .uni s => isAscii s = true

/-- the string of a value, if it is one -/
def strOf : PVal → List PyStr
  | .str s => [s]
  | _ => []

def geomTexts : XGeom → List PyStr
  | .mesh fn _ => fn.toList
  | _ => []

def materialTexts (o : XMaterial) : List PyStr := o.name.toList

def linkTexts (o : XLink) : List PyStr :=
  (o.visual.toList.flatMap fun v => v.geometry.toList.flatMap geomTexts ++ v.material.toList.flatMap materialTexts) ++
    o.collision.toList.flatMap fun x => x.geometry.toList.flatMap geomTexts

def jointTexts (o : XJoint) : List PyStr :=
  [o.name, o.joint_type] ++ o.parent.toList ++ o.child.toList ++ strOf o.axis ++ o.dynamics.toList.flatMap fun d => strOf d.damping ++ strOf d.friction

/-- the strings which are converted when an element is written (the names of the links and the textures are not) -/
def texts : XElement → List PyStr
  | .joint j => jointTexts j
  | .link l => linkTexts l
  | .material m => materialTexts m

/-- The numbers which are read from files are written exactly, and so is 0. -/
structure Exact (c : Codec) (rd : ℝ → ℝ) : Prop where
  zero : rd 0 = 0
  read : ∀ s x, c.read s = some x → rd x = x

/-- not a mesh whose `scale` is there without any number -/
def ScaleGiven : XGeom → Prop
  | .mesh _ s => s ≠ some []
  | _ => True

/-- An element whose parts are all written: a joint has a parent, a child, and mimics no other joint; the scales of the meshes have numbers. -/
def Whole : XElement → Prop
  | .joint j => j.parent ≠ none ∧ j.child ≠ none ∧ j.mimic = none
  | .link l => (∀ v ∈ l.visual, ∀ g ∈ v.geometry, ScaleGiven g) ∧ ∀ x ∈ l.collision, ∀ g ∈ x.geometry, ScaleGiven g
  | .material _ => True

/-! ### repeated elements -/

/-- the last child with this name -/
def lastChild (name : String) (n : Xml) : Option Xml := ((children n).filter fun k => localName k = some name).getLast?

end
end Arboris.UrdfXml.Spec
