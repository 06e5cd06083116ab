import Verif.Model.Build
import Verif.Model.Mass

/-!
# Model of `matlab/convert_py2mat.py` and of the part of `matlab/convert_mat2py.m` that reads a robot back

The generator writes Matlab assignments to a stream.  An `Item` is one block of assignments, with the real numbers
themselves: the printing of numbers (`a2s`: 14 digits; `str`: 8 digits, line breaks after 75 columns, `...` in arrays of
more than 1000 entries) is not modelled.  `GenerationError` is a `RuntimeError` (convert_py2mat.py:19).
-/

namespace Arboris.Matlab
open Graph Build

noncomputable section

/-- `tree.br(i).bd(k)`: convert_py2mat.py:346-356.  `comment` is the body's name, in a comment of the file; `E` is the
array, column by column. -/
structure Bd where
  name : String
  comment : String
  E : List ℤ
  H0 : Mat4
  H1 : Mat4
  M : Mat6

/-- what Matlab puts in the places of an array that were skipped -/
instance : Inhabited Bd := ⟨"", "", [], 0, 0, 0⟩

/-- `tree.br(i).bd(k).shape(n)`: convert_py2mat.py:395-399 -/
structure Sh where
  type : String
  dims : List ℝ
  H : Mat4

/-- the value of `robot.model.q`: `hstack` of vectors is a vector, of matrices a matrix -/
inductive QVal
  | vec (q : List ℝ)
  | mats (l : List Mat4)

/-- the blocks written to the stream: convert_py2mat.py:289-297, 301-309, 316-320, 346-365, 394-404, 283-284;
`sim` is the `simulate` function of lines 202-228 -/
inductive Item
  | tree (name : String)
  | branch (br : ℕ) (parent : ℕ × ℕ)
  | link (br bd : ℕ) (d : Bd)
  | shape (br bd num : ℕ) (s : Sh)
  | state (H0 : Mat4) (q : QVal) (T : List ℝ)
  | sim (t_start t_end dt : ℝ) (gravity : List ℝ) (name : String)
  | mad

/-- the stream, and the attributes of the generator: convert_py2mat.py:265-269; `vals` stands for `_gpos` and `_gvel`,
that are always appended to together -/
structure St where
  out : List Item
  bmap : List (Option String × (ℕ × ℕ))
  vals : List JAttr

/-- a method of the generator: it may raise after having written -/
abbrev Gen (α : Type) := EStateM PyErr St α

/-- `self.stream.write(text)` -/
def write (x : Item) : Gen Unit := modify fun s => { s with out := s.out ++ [x] }

/-- `'{0}'.format(name)` -/
def pyStr : Option String → String
  | none => "None"
  | some s => s

/-- convert_py2mat.py:437-445 `_flip` -/
def flipMass (m : Mat6) : Mat6 := blk (b22 m) (b21 m) (b12 m) (b11 m)

/-- convert_py2mat.py:332-345: the literals `"[0 0 0 1 0 0]"`, …, `"eye(6)"` -/
def jtype (a : JAttr) (br bd : ℕ) : Except PyErr (List ℤ) :=
  match a with
  | .lin .Rx _ _ => .ok [0, 0, 0, 1, 0, 0]
  | .lin .Ry _ _ => .ok [0, 0, 0, 0, 1, 0]
  | .lin .Rz _ _ => .ok [0, 0, 0, 0, 0, 1]
  | .free _ _ =>
    if br ≠ 1 ∨ bd ≠ 1 then .error .runtimeError
    else .ok [1, 0, 0, 0, 0, 0,  0, 1, 0, 0, 0, 0,  0, 0, 1, 0, 0, 0,  0, 0, 0, 1, 0, 0,  0, 0, 0, 0, 1, 0,  0, 0, 0, 0, 0, 1]
  | _ => .error .runtimeError

/-- convert_py2mat.py:314-322 `_add_branch` -/
def addBranch (br : ℕ) (parent : ℕ × ℕ) : Gen Unit := write (.branch br parent)

/-- convert_py2mat.py:325-365 `_add_link` -/
def addLink (S : RS) (j br bd : ℕ) : Gen Unit := do
  match (S.w.joint j).frame0, (S.w.joint j).frame1 with
  | some f0, some f1 =>
    let b := S.o.bodyOf f1
    modify fun s => { s with bmap := (S.bname b, (br, bd)) :: s.bmap }
    match jtype (S.jattr j) br bd with
    | .error e => throw e
    | .ok E =>
      write (.link br bd ⟨pyStr (S.jname j), pyStr (S.bname b), E, S.bposeOf f0, S.bposeOf f1, flipMass (S.mass b)⟩)
  | _, _ => throw .attributeError

/-- convert_py2mat.py:423-424, 431-432: `self._gpos.append(j.gpos)`, `self._gvel.append(j.gvel)` -/
def addVal (S : RS) (j : ℕ) : Gen Unit := modify fun s => { s with vals := s.vals ++ [S.jattr j] }

/-- `j.frames[1].body.childrenjoints` -/
def kids (S : RS) (j : ℕ) : Gen (List ℕ) :=
  match (S.w.joint j).frame1 with
  | none => throw .attributeError
  | some f => pure (S.w.body (S.o.bodyOf f)).children

/-- convert_py2mat.py:414-434 `_traverse`; the first argument is Python's recursion limit -/
def traverse (S : RS) : ℕ → List ℕ → ℕ → ℕ → Gen ℕ
  | 0, _, _, _ => throw .recursionError
  | _ + 1, [], br, _ => pure br
  | k + 1, j :: js, br, bd => do
    let parent := (br, bd - 1)
    addLink S j br bd
    addVal S j
    let ch ← kids S j
    let br1 ← traverse S k ch br (bd + 1)
    js.foldlM (fun br j => do
      addBranch (br + 1) parent
      addLink S j (br + 1) 1
      addVal S j
      let ch ← kids S j
      traverse S k ch (br + 1) 2) br1

/-- the dictionary `num_in_bd`: convert_py2mat.py:375-378 -/
def bump (d : List (Option String × ℕ)) (n : Option String) : ℕ := match d.lookup n with
  | some k => k + 1
  | none => 1

/-- convert_py2mat.py:379-392: type and dimensions; another class leaves the variables of the turn before -/
def shapeText (g : ShapeGeo) (old : Option (String × List ℝ)) : Option (String × List ℝ) :=
  match g with
  | .point => some ("sphere", [0.01])
  | .sphere r => some ("sphere", [r])
  | .box h => some ("parallelepiped", [h 0 * 2, h 1 * 2, h 2 * 2])
  | .cylinder l r => some ("cylinder", [r, l])
  | .plane _ => old

/-- convert_py2mat.py:372-400: the loop of `_add_shapes` -/
def addShapesLoop (S : RS) : List ℕ → List (Option String × ℕ) → Option (String × List ℝ) → Gen Unit
  | [], _, _ => pure ()
  | v :: vs, d, old => do
    let f := S.o.shapeFrame v
    let n := S.bname (S.o.bodyOf f)
    match (← get).bmap.lookup n with
    | none => throw .keyError
    | some (br, bd) =>
      match shapeText (S.geo v) old with
      | none => throw .nameError
      | some (t, dims) => do
        write (.shape br bd (bump d n) ⟨t, dims, S.bposeOf f⟩)
        addShapesLoop S vs ((n, bump d n) :: d) (some (t, dims))

/-- convert_py2mat.py:368-411 `_add_shapes` -/
def addShapes (S : RS) : Gen Unit := do
  addShapesLoop S S.w.shapes [] none
  if S.w.shapes.length = 0 then write (.shape 1 1 1 ⟨"sphere", [0.01], 1⟩)

/-- `gpos` of a linear joint, `gvel` of any joint -/
def gposList : JAttr → List ℝ
  | .lin _ q _ => List.ofFn q
  | _ => []

/-- `gvel` -/
def gvelList : JAttr → List ℝ
  | .lin _ _ dq => List.ofFn dq
  | .free _ T => List.ofFn T
  | .fixed => []

/-- `gpos` of a free joint: a matrix -/
def matOf : JAttr → Option Mat4
  | .free H _ => some H
  | _ => none

/-- `gpos` of another joint: a vector -/
def vecOf : JAttr → Option (List ℝ)
  | .free _ _ => none
  | a => some (gposList a)

/-- `hstack(self._gpos[1:])`: of nothing, or of vectors and matrices together, a `ValueError` -/
def hstackPos (l : List JAttr) : Except PyErr QVal :=
  if l = [] then .error .valueError
  else match l.mapM matOf with
    | some Hs => .ok (.mats Hs)
    | none =>
      match l.mapM vecOf with
      | some qs => .ok (.vec qs.flatten)
      | none => .error .valueError

/-- convert_py2mat.py:299-312 `_finish` -/
def finish : Gen Unit := do
  match (← get).vals with
  | [] => throw .indexError
  | a :: l =>
    match a, hstackPos l with
    | _, .error e => throw e
    | .free H T, .ok q =>
      write (.state H q (((List.ofFn T).drop 3).take 3 ++ (List.ofFn T).take 3 ++ l.flatMap gvelList))
    | _, .ok _ => throw .valueError

/-- convert_py2mat.py:277-282: the body of the `try` -/
def body (S : RS) (lim root : ℕ) (name : String) : Gen Unit := do
  write (.tree name)
  addBranch 1 (0, 0)
  let _ ← traverse S lim [root] 1 1
  addShapes S
  finish

/-- convert_py2mat.py:271-285 `make_robot` (`root_joint` is a `Joint` by typing) -/
def makeRobot (S : RS) (lim root : ℕ) (name : String) : Gen Unit :=
  match S.jattr root with
  | .free _ _ => tryCatch (body S lim root name) fun e => do
      write .mad
      throw e
  | _ => throw .runtimeError

/-! ### executing the file, and reading the robot back -/

/-- `tree.br(i)` -/
structure Branch where
  root : ℕ × ℕ
  bds : List Bd

/-- what Matlab puts in the places of an array that were skipped -/
instance : Inhabited Branch := ⟨(0, 0), []⟩

/-- `l(i).field = …`, with Matlab's indices from 1: the array grows as needed -/
def setAt {α : Type} [Inhabited α] (l : List α) (i : ℕ) (f : α → α) : List α :=
  (l ++ List.replicate (i - l.length) default).modify (i - 1) f

/-- the assignments of a block, run by Matlab (those to `bd(k).shape` are not followed) -/
def execItem (T : List Branch) : Item → List Branch
  | .branch br p => setAt T br fun b => { b with root := p }
  | .link br bd d => setAt T br fun b => { b with bds := setAt b.bds bd fun _ => d }
  | _ => T

/-- the `tree` after the file was run -/
def exec (l : List Item) : List Branch := l.foldl execItem []

/-- the classes of joints `convert_mat2py.m` can write -/
inductive Kind
  | FreeJoint | RxJoint | RyJoint | RzJoint
  deriving DecidableEq, Repr

/-- convert_mat2py.m:104-116; `E(n)` counts column by column -/
def readKind (E : List ℤ) : Kind :=
  if E.length = 0 then .FreeJoint
  else if E.getD 3 0 = 1 then .RxJoint
  else if E.getD 4 0 = 1 then .RyJoint
  else if E.getD 5 0 = 1 then .RzJoint
  else .FreeJoint

/-- a call `w.add_link(parent_frame, joint, child_frame)` of the Python script, where the frames are at `H0` on the
body `parent` (`none`: `w.ground`) and at `H1` on the body `child`, just made with mass `mass`; a body is known by the
numbers in the variable `br<i>bd<k>`. -/
structure Call where
  parent : Option (ℕ × ℕ)
  child : ℕ × ℕ
  kind : Kind
  name : String
  H0 : Mat4
  H1 : Mat4
  mass : Mat6

/-- convert_mat2py.m:34-52, 71-77, 79-83, 85-120: `register` (a frame at the identity is the body itself: its `bpose`
is the identity too) -/
def readBd (b : Branch) (i j : ℕ) (d : Bd) : Call where
  parent := if i = 1 ∧ j = 1 then none else if j = 1 then some b.root else some (i, j - 1)
  child := (i, j)
  kind := readKind d.E
  name := d.name
  H0 := d.H0
  H1 := d.H1
  mass := flipMass d.M

/-- convert_mat2py.m:10-14: the two loops -/
def mat2py (T : List Branch) : List Call :=
  T.zipIdx.flatMap fun x => x.1.bds.zipIdx.map fun y => readBd x.1 (x.2 + 1) (y.2 + 1) y.1

end
end Arboris.Matlab
