import Verif.Props.ReplaceChain
import Verif.Spec.Matlab
import Verif.Model.MatlabConvert

/-!
# Specification vocabulary: robots made ready for Matlab
-/

namespace Arboris.Spec
open Graph Build Matlab

noncomputable section

/-- the tree with the chains `C j` at the place of the joints `j` -/
def replaceAll (o : Objs) (C : ℕ → Option (List (FrameRef × ℕ × FrameRef))) :
    Forest (FrameRef × ℕ × FrameRef) ℕ → Forest (FrameRef × ℕ × FrameRef) ℕ
  | .nil => .nil
  | .cons l b ch sib => match C l.2.1 with
    | none => .cons l b (replaceAll o C ch) (replaceAll o C sib)
    | some L => spine o L (replaceAll o C ch) (replaceAll o C sib)

/-- a joint of several rotations: the rotations, from the parent to the child -/
def rotations : JAttr → Option (List LinKind)
  | .lin .RzRyRx _ _ => some [.Rz, .Ry, .Rx]
  | .lin .RzRy _ _ => some [.Rz, .Ry]
  | .lin .RyRx _ _ => some [.Ry, .Rx]
  | .lin .RzRx _ _ => some [.Rz, .Rx]
  | _ => none

/-- the letters added to a name -/
def letters : LinKind → String
  | .Rz => "Rz"
  | .Ry => "Ry"
  | .Rx => "Rx"
  | _ => ""

/-- `j`, made between the states `S` and `S'`, is a hinge of class `k` at zero, named after the joint of name `name` -/
def IsNewHinge (S S' : RS) (name : Option String) (k : LinKind) (j : ℕ) : Prop :=
  S.nj ≤ j ∧ j < S'.nj ∧ S'.jattr j = .lin k 0 0 ∧ S'.jname j = name.map (· ++ letters k)

/-- `b`, made between the states `S` and `S'`, is a body without name of mass `m/10`, its moments of inertia being `m` -/
def IsNewBody (m : ℝ) (S S' : RS) (b : ℕ) : Prop :=
  S.nb ≤ b ∧ b < S'.nb ∧ S'.mass b = Matrix.diagonal ![m, m, m, m / 10, m / 10, m / 10] ∧ S'.bname b = none

/-- The links `L` lead from the frame `f0` to the frame `f1` by new hinges of classes `ks`, through new bodies. -/
def HingeChain (m : ℝ) (S S' : RS) (name : Option String) : FrameRef → List LinKind → FrameRef → List (FrameRef × ℕ × FrameRef) → Prop
  | f0, [k], f1, [x] => x.1 = f0 ∧ x.2.2 = f1 ∧ IsNewHinge S S' name k x.2.1
  | f0, k :: ks, f1, x :: xs => x.1 = f0 ∧ IsNewHinge S S' name k x.2.1 ∧
    ∃ b, x.2.2 = .body b ∧ IsNewBody m S S' b ∧ HingeChain m S S' name (.body b) ks f1 xs
  | _, _, _, _ => False

/-- what becomes of a link which is not the first of the robot: a joint of several rotations is replaced by hinges -/
def Split (m : ℝ) (S S' : RS) (l : FrameRef × ℕ × FrameRef) (C : Option (List (FrameRef × ℕ × FrameRef))) : Prop :=
  match rotations (S.jattr l.2.1) with
  | none => C = none
  | some ks => ∃ L, C = some L ∧ HingeChain m S S' (S.jname l.2.1) l.1 ks l.2.2 L

/-- what becomes of the first link: a joint which is not free is put, as it is, on a new body on a new free joint -/
def Floating (c : Conf) (S S' : RS) (l : FrameRef × ℕ × FrameRef) (C : Option (List (FrameRef × ℕ × FrameRef))) : Prop :=
  match S.jattr l.2.1 with
  | .free _ _ => C = none
  | _ => ∃ fr base, C = some [(l.1, fr, .body base), (.body base, l.2.1, l.2.2)] ∧ S.nj ≤ fr ∧ fr < S'.nj ∧ S.nb ≤ base ∧ base < S'.nb ∧
    S'.jattr fr = .free 1 0 ∧ S'.jname fr = none ∧ S'.bname base = none ∧
    S'.mass base = massBox (c.base_lengths 0) (c.base_lengths 1) (c.base_lengths 2) c.base_mass

/-- in state `S`, the shape `sh` is a sphere of radius `r` at the place `H` on the body `base`, and the constraint `con`
acts between `ground` and `base` -/
structure IsFoot (S : RS) (base ground : ℕ) (r : ℝ) (H : Mat4) (sh con : ℕ) : Prop where
  old : sh < S.nsh
  geo : S.geo sh = .sphere r
  place : ∃ sf < S.ns, S.o.shapeFrame sh = .sub sf ∧ S.o.subBody sf = base ∧ S.bpose sf = H
  contact : ∃ m0 < S.ns, ∃ m1 < S.ns, S.o.conKids con = [.sub m0, .sub m1] ∧ S.o.subBody m0 = ground ∧ S.o.subBody m1 = base

/-- what is registered between the states `S` and `S'` when a base is made: nothing for a free root; else a box on the ground,
four spheres on the base, and four contacts -/
def FeetOn (c : Conf) (con : ℕ) (S S' : RS) (l : FrameRef × ℕ × FrameRef) (C : Option (List (FrameRef × ℕ × FrameRef))) : Prop :=
  match S.jattr l.2.1 with
  | .free _ _ => S'.w.shapes = S.w.shapes ∧ S'.w.constraints = S.w.constraints ∧ S'.o.shapeFrame = S.o.shapeFrame ∧ S'.o.conKids = S.o.conKids
  | _ => ∃ base fr gp s1 s2 s3 s4, C = some [(l.1, fr, .body base), (.body base, l.2.1, l.2.2)] ∧
    S'.w.shapes = S.w.shapes ++ [gp, s1, s2, s3, s4] ∧ S'.w.constraints = S.w.constraints ++ [con, con + 1, con + 2, con + 3] ∧
    gp < S'.nsh ∧ S'.o.shapeFrame gp = .body S.w.ground ∧ S'.geo gp = .box (fun i => c.base_lengths i / 2 + 2 * c.contact_radius) ∧
    IsFoot S' base S.w.ground c.contact_radius (transl (c.base_lengths 0 / 2) (-c.base_lengths 1 / 2) (c.base_lengths 2 / 2)) s1 con ∧
    IsFoot S' base S.w.ground c.contact_radius (transl (c.base_lengths 0 / 2) (-c.base_lengths 1 / 2) (-c.base_lengths 2 / 2)) s2 (con + 1) ∧
    IsFoot S' base S.w.ground c.contact_radius (transl (-c.base_lengths 0 / 2) (-c.base_lengths 1 / 2) (-c.base_lengths 2 / 2)) s3 (con + 2) ∧
    IsFoot S' base S.w.ground c.contact_radius (transl (-c.base_lengths 0 / 2) (-c.base_lengths 1 / 2) (c.base_lengths 2 / 2)) s4 (con + 3)

/-- the shapes and constraints of the world are objects already made (`con` is the number of the next constraint) -/
structure Past (S : RS) (con : ℕ) : Prop where
  shapes : ∀ s ∈ S.w.shapes, s < S.nsh
  cons : ∀ x ∈ S.w.constraints, x < con

/-- the joint is not free -/
def NotFreeJ (S : RS) (j : ℕ) : Prop := ∀ H T, S.jattr j ≠ .free H T

/-- `(l, b, ch)` is a node of the tree: link, body, and what hangs from the body -/
inductive Node : Forest (FrameRef × ℕ × FrameRef) ℕ → (FrameRef × ℕ × FrameRef) → ℕ → Forest (FrameRef × ℕ × FrameRef) ℕ → Prop
  | here (l b ch sib) : Node (.cons l b ch sib) l b ch
  | down {l b ch sib l' b' ch'} : Node ch l' b' ch' → Node (.cons l b ch sib) l' b' ch'
  | right {l b ch sib l' b' ch'} : Node sib l' b' ch' → Node (.cons l b ch sib) l' b' ch'

end
end Arboris.Spec
