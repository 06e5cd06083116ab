import Verif.Model.Matlab

/-!
# Model of `MatlabConverter` and `MatlabSimulationGenerator` (`matlab/convert_py2mat.py:25-233`)
-/

namespace Arboris.Matlab
open Graph Build

noncomputable section

/-- the attributes of a converter: convert_py2mat.py:50-57 (`small_mass` is used nowhere, the friction coefficient is no
part of the graph) -/
structure Conf where
  base_mass : ℝ := 1.0e4
  base_lengths : Vec3 := ![0.5/2, 0.5/5, 0.5/10]
  contact_radius : ℝ := 0.05

/-- `joint.name+suffix` or `None`: convert_py2mat.py:116-120 -/
def suffixed (name : Option String) (s : String) : Option String := name.map (· ++ s)

/-- convert_py2mat.py:122-124 `mass` -/
def midMass (c : Conf) : Mat6 := c.base_mass • Matrix.diagonal ![1.0, 1.0, 1.0, 0.1, 0.1, 0.1]

/-- `world.replace_joint(old, …)` -/
def replaceP (lim old : ℕ) (args : List Arg) : Prog Unit := fun S =>
  match replaceJoint S.o S.w lim old args with
  | (w, .ok ()) => .ok ((), { S with w := w })
  | (_, .error e) => .error e

/-- the state, as it is now -/
def look : Prog RS := fun S => .ok (S, S)

/-- convert_py2mat.py:109-157 `convert_nonroot_joint` (a joint that was never linked has no `.body`: `AttributeError`) -/
def convertJoint (c : Conf) (lim j : ℕ) : Prog Unit := do
  let S ← look
  match (S.w.joint j).frame0, (S.w.joint j).frame1 with
  | some f0, some f1 =>
    check (S.o.bodyOf f0 ≠ S.w.ground)
    match S.jattr j with
    | .lin .RzRyRx _ _ => do
      let rz ← newJoint (.zero .Rz) (suffixed (S.jname j) "Rz")
      let bzy ← newBody none (some (midMass c))
      let ry ← newJoint (.zero .Ry) (suffixed (S.jname j) "Ry")
      let byx ← newBody none (some (midMass c))
      let rx ← newJoint (.zero .Rx) (suffixed (S.jname j) "Rx")
      replaceP lim j [.frame f0, .joint rz, .frame (.body bzy), .frame (.body bzy), .joint ry, .frame (.body byx),
        .frame (.body byx), .joint rx, .frame f1]
    | .lin .RzRy _ _ => do
      let rz ← newJoint (.zero .Rz) (suffixed (S.jname j) "Rz")
      let bzy ← newBody none (some (midMass c))
      let ry ← newJoint (.zero .Ry) (suffixed (S.jname j) "Ry")
      replaceP lim j [.frame f0, .joint rz, .frame (.body bzy), .frame (.body bzy), .joint ry, .frame f1]
    | .lin .RyRx _ _ => do
      let ry ← newJoint (.zero .Ry) (suffixed (S.jname j) "Ry")
      let byx ← newBody none (some (midMass c))
      let rx ← newJoint (.zero .Rx) (suffixed (S.jname j) "Rx")
      replaceP lim j [.frame f0, .joint ry, .frame (.body byx), .frame (.body byx), .joint rx, .frame f1]
    | .lin .RzRx _ _ => do
      let rz ← newJoint (.zero .Rz) (suffixed (S.jname j) "Rz")
      let bzx ← newBody none (some (midMass c))
      let rx ← newJoint (.zero .Rx) (suffixed (S.jname j) "Rx")
      replaceP lim j [.frame f0, .joint rz, .frame (.body bzx), .frame (.body bzx), .joint rx, .frame f1]
    | _ => pure ()
  | _, _ => fail .attributeError

/-- convert_py2mat.py:95-105 `_traverse`.  The list `body.childrenjoints` is read again at each turn (`convertJoint` changes
it in place).  If it grew during the loop, Python would go on; the model stops with an error there (`C115` shows that this
does not happen).  The third argument is what is left of Python's recursion limit. -/
def traverseConv (c : Conf) (lim : ℕ) : ℕ → ℕ → Prog Unit
  | 0, _ => fail .recursionError
  | k + 1, b => do
    let S ← look
    let n := (S.w.body b).children.length
    (List.range n).forM fun i => do
      let S ← look
      match (S.w.body b).children[i]? with
      | none => pure ()
      | some j =>
        match (S.w.joint j).frame1 with
        | none => fail .attributeError
        | some f1 => do
          convertJoint c lim j
          traverseConv c lim k (S.o.bodyOf f1)
    let S ← look
    check ((S.w.body b).children.length ≤ n)

/-- `SoftFingerContact((shape0, shape1), mu)`: constraints.py:263-277, number `con`; a `MovingSubFrame` is a subframe at the
identity on the body of each shape (for a box and a sphere `choose_solver` keeps the order) -/
def newContact (con s0 s1 : ℕ) : Prog Unit := do
  let S ← look
  let m0 ← newSub (S.o.bodyOf (S.o.shapeFrame s0)) 1 none
  let m1 ← newSub (S.o.bodyOf (S.o.shapeFrame s1)) 1 none
  fun S => .ok ((), { S with o := { S.o with conKids := Function.update S.o.conKids con [.sub m0, .sub m1] } })

/-- convert_py2mat.py:82-88: one turn of the loop that puts spheres below the base; `x` are the indices `i`, `j` of the loop
and the number of the contact -/
def addFoot (c : Conf) (base groundPlane : ℕ) (x : ℝ × ℝ × ℕ) : Prog Unit := do
  let sf ← newSub base (transl (x.1 * c.base_lengths 0 / 2) (-c.base_lengths 1 / 2) (x.2.1 * c.base_lengths 2 / 2)) none
  let sh ← newShape (.sub sf) (.sphere c.contact_radius) none
  reg (.shape sh)
  newContact x.2.2 groundPlane sh
  reg (.con x.2.2)

/-- convert_py2mat.py:59-88 `convert_root_joint`; `con` is the number of the first contact (those of the four are `con`, …,
`con + 3`: constraints have no other place in this model) -/
def convertRoot (c : Conf) (lim con j : ℕ) : Prog Unit := do
  let S ← look
  match (S.w.joint j).frame0, (S.w.joint j).frame1 with
  | some f0, some f1 =>
    check (S.o.bodyOf f0 = S.w.ground)
    match S.jattr j with
    | .free _ _ => pure ()
    | _ => do
      let base ← newBody none (some (massBox (c.base_lengths 0) (c.base_lengths 1) (c.base_lengths 2) c.base_mass))
      let fr ← newJoint (.free 1 0) none
      replaceP lim j [.frame f0, .joint fr, .frame (.body base), .frame (.body base), .joint j, .frame f1]
      let gp ← newShape (.body S.w.ground) (.box fun i => c.base_lengths i / 2 + 2 * c.contact_radius) none
      reg (.shape gp)
      [(1, 1, con), (1, -1, con + 1), (-1, -1, con + 2), (-1, 1, con + 3)].forM (addFoot c base gp)
  | _, _ => fail .attributeError

/-- convert_py2mat.py:90-93 `convert_robot` -/
def convertRobot (c : Conf) (lim con j : ℕ) : Prog Unit := do
  let S ← look
  match (S.w.joint j).frame1 with
  | none => fail .attributeError
  | some f1 => do
    let b := S.o.bodyOf f1
    convertRoot c lim con j
    traverseConv c lim lim b

end
end Arboris.Matlab
