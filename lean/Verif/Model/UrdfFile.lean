import Verif.Model.UrdfXml

/-! # Model of `to_arboris` on what is read from a file: `robots/urdf/__init__.py` 73-116, on the classes of `Model/UrdfXml` -/

namespace Arboris.UrdfXml
open Urdf Build

noncomputable section

/-- urdf_parser.py:302-308: the constants which `joint_type` is compared with -/
def typeOf : String → UType
  | "revolute" => .revolute
  | "continuous" => .continuous
  | "prismatic" => .prismatic
  | "floating" => .floating
  | "planar" => .planar
  | "fixed" => .fixed
  | _ => .unknown

/-- `axis` in urdf/__init__.py:82: three numbers, or the string -/
inductive Axis
  | vec (v : Vec3)
  | word (s : String)

/-- urdf/__init__.py:82: `None` and lists have no `split` -/
def readAxis (c : Codec) : PVal → Except PyErr Axis
  | .str s =>
    match pySplit s.chars with
    | [x, y, z] => do
      let x ← float c x
      let y ← float c y
      let z ← float c z
      .ok (.vec ![x, y, z])
    | _ => .ok (.word s.chars)
  | _ => .error .attributeError

/-- urdf/__init__.py:85-93, 96-104: `numpy.allclose` of a string raises `TypeError` -/
def axisCaseFile (sort : Vec3 → Equiv.Perm (Fin 3)) (kx ky kz : LinKind) : Axis → Except PyErr (Option Mat4 × JAttr)
  | .vec v => axisCase sort kx ky kz v
  | .word s => if s = "x" ∨ s = "X" then .ok (none, .zero kx) else .error .typeError

/-- urdf/__init__.py:84-114 -/
def typeCaseFile (sort : Vec3 → Equiv.Perm (Fin 3)) (axis : Axis) : UType → Except PyErr (Option Mat4 × JAttr)
  | .revolute => axisCaseFile sort .Rx .Ry .Rz axis
  | .prismatic => axisCaseFile sort .Tx .Ty .Tz axis
  | .fixed => .ok (none, .fixed)
  | .floating => .ok (none, .free 1 0)
  | _ => .error .keyError

/-- the name of a link.  Simplification: `None` is the name `""`. -/
def linkName : Option PyStr → String
  | none => ""
  | some s => s.chars

/-- urdf/__init__.py:77-116 -/
def convertJoint (c : Codec) (sort : Vec3 → Equiv.Perm (Fin 3)) (j : XJoint) : Except PyErr JointDict := do
  let H ← toPose j.origin
  let axis ← readAxis c j.axis
  let t ← typeCaseFile sort axis (typeOf j.joint_type.chars)
  .ok ⟨linkName j.parent, linkName j.child, H, t.1, t.2⟩

/-! ### the same objects in `Model/Urdf` -/

/-- a shape -/
def viewGeom : XGeom → UGeom
  | .box d => .box ![d.1, d.2.1, d.2.2]
  | .cylinder r l => .cylinder r l
  | .sphere r => .sphere r
  | .mesh fn s => .mesh (linkName fn) s

/-- a link (without its materials) -/
def viewLink (l : XLink) : ULink :=
  ⟨l.name.chars, l.visual.map fun v => ⟨v.geometry.map viewGeom, v.origin⟩, l.inertial, l.collision.map fun x => ⟨x.geometry.map viewGeom, x.origin⟩⟩

/-- a joint, its axis being three numbers -/
def viewJoint (axis : Vec3) (j : XJoint) : UJoint :=
  ⟨j.name.chars, linkName j.parent, linkName j.child, typeOf j.joint_type.chars, some axis, j.origin, j.limits⟩

/-- the elements of a robot whose joints all have three numbers as axis; `none` if one has not -/
def viewElements (c : Codec) : List XElement → Option (List (ULink ⊕ UJoint))
  | [] => some []
  | .link l :: es => (viewElements c es).map (.inl (viewLink l) :: ·)
  | .material _ :: es => viewElements c es
  | .joint j :: es =>
    match readAxis c j.axis with
    | .ok (.vec v) => (viewElements c es).map (.inr (viewJoint v j) :: ·)
    | _ => none

end
end Arboris.UrdfXml
