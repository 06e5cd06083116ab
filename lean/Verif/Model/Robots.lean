import Verif.Model.Build

/-!
# Model of `robots/snake.py`, `robots/simplearm.py`, `robots/simpleshapes.py`
-/

namespace Arboris.Build
open Graph Matrix Real

noncomputable section

/-! ### snake.py -/

/-- snake.py:49-57: the loop over `zip(lengths, masses, gpos, gvel)`; returns the last `frame` -/
def snakeLoop (frame : FrameRef) : List (ℝ × ℝ × ℝ × ℝ) → Prog FrameRef
  | [] => pure frame
  | (length, mass, q, dq) :: rest => do
    let radius := length / 5
    let angle := π / 2
    let M ← liftE (transport (massCylinder length radius mass) (rotx angle * transl 0 (-length / 2) 0))
    let body ← newBody none (some M)
    let joint ← newJoint (.lin .Rz (fun _ => q) (fun _ => dq)) none
    link frame joint (.body body)
    let f ← newSub body (transl 0 length 0) none
    snakeLoop (.sub f) rest

/-- snake.py:17-59 `add_snake` -/
def addSnake (lim nbody : ℕ) (lengths masses gpos gvel : Option (List ℝ)) (is_fixed : Bool) : Prog Unit := do
  let lengths := lengths.getD (List.replicate nbody 0.5)
  check (nbody = lengths.length)
  let masses := masses.getD (List.replicate nbody 2)
  check (nbody = masses.length)
  let gpos := gpos.getD (List.replicate nbody 0)
  check (nbody = gpos.length)
  let gvel := gvel.getD (List.replicate nbody 0)
  check (nbody = gvel.length)
  let frame ← if is_fixed then ground else
    match lengths, masses with
    | l0 :: _, m0 :: _ => do
      let L := l0 / 2
      let body ← newBody none (some (massBox L L L m0))
      let joint ← newJoint (.free 1 0) none
      let g ← ground
      link g joint (.body body)
      pure (.body body)
    | _, _ => fail .indexError
  let frame ← snakeLoop frame (lengths.zip (masses.zip (gpos.zip gvel)))
  reg (.frame frame)
  init lim

/-! ### simplearm.py -/

/-- simplearm.py:32-45 `create_body` -/
def armBody (name : String) (length mass : ℝ) (with_shapes : Bool) : Prog ℕ := do
  let M := massBox (length / 20) (length / 2) (length / 20) mass
  let Mb ← liftE (transport M (transl 0 (-length / 2) 0))
  let body ← newBody (some name) (some Mb)
  if with_shapes then do
    let f ← newSub body (transl 0 (length / 2) 0) none
    let shape ← newShape (.sub f) (.box ![length / 20, length / 2, length / 20]) none
    reg (.shape shape)
    pure body
  else pure body

/-- simplearm.py:19-76 `add_simplearm`; `lengths` and `masses` are triples (more elements are ignored, less is an
`IndexError`) -/
def addSimplearm (lim : ℕ) (name : String) (lengths masses : ℝ × ℝ × ℝ) (with_shapes : Bool) : Prog Unit := do
  let arm ← armBody (name ++ "Arm") lengths.1 masses.1 with_shapes
  let forearm ← armBody (name ++ "Forearm") lengths.2.1 masses.2.1 with_shapes
  let hand ← armBody (name ++ "Hand") lengths.2.2 masses.2.2 with_shapes
  let shoulder ← newJoint (.zero .Rz) (some (name ++ "Shoulder"))
  let g ← ground
  link g shoulder (.body arm)
  let f ← newSub arm (transl 0 lengths.1 0) (some (name ++ "ElbowBaseFrame"))
  let elbow ← newJoint (.zero .Rz) (some (name ++ "Elbow"))
  link (.sub f) elbow (.body forearm)
  let f ← newSub forearm (transl 0 lengths.2.1 0) (some (name ++ "WristBaseFrame"))
  let wrist ← newJoint (.zero .Rz) (some (name ++ "Wrist"))
  link (.sub f) wrist (.body hand)
  let f ← newSub hand (transl 0 lengths.2.2 0) (some (name ++ "EndEffector"))
  reg (.frame (.sub f))
  init lim

/-! ### simpleshapes.py -/

/-- simpleshapes.py:12-82: the common part of `add_sphere`, `add_box` and `add_cylinder` -/
def addFree (lim : ℕ) (name : Option String) (M : Mat6) (g : ShapeGeo) : Prog Unit := do
  let body ← newBody name (some M)
  let gr ← ground
  let joint ← newJoint (.free 1 0) none
  link gr joint (.body body)
  let s ← newShape (.body body) g none
  reg (.shape s)
  init lim

/-- simpleshapes.py:12-29 `add_sphere` -/
def addSphere (lim : ℕ) (radius mass : ℝ) (name : Option String) : Prog Unit :=
  addFree lim name (massSphere radius mass) (.sphere radius)
/-- simpleshapes.py:32-48 `add_box` -/
def addBox (lim : ℕ) (h : Vec3) (mass : ℝ) (name : Option String) : Prog Unit :=
  addFree lim name (massBox (h 0) (h 1) (h 2) mass) (.box h)
/-- simpleshapes.py:51-67 `add_cylinder` -/
def addCylinder (lim : ℕ) (length radius mass : ℝ) (name : Option String) : Prog Unit :=
  addFree lim name (massCylinder length radius mass) (.cylinder length radius)

/-- simpleshapes.py:70-75 `add_groundplane`, `up` being `world.up` -/
def addGroundplane (up : Vec3) : Prog Unit := do
  let g ← ground
  let s ← newShape g (.plane ![up 0, up 1, up 2, 0]) (some "Ground shape")
  reg (.shape s)

end
end Arboris.Build
