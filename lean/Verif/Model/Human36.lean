import Verif.Model.Build

/-!
# Model of `robots/human36.py`

The 33 anatomical lengths are the fields of a structure (in the code, the entries of a dictionary: a missing key is not
modelled).
-/

namespace Arboris.Build
open Graph Matrix

noncomputable section

/-- the dictionary of human36.py:94-157 -/
structure AnatLengths where
  yvT10 : ℝ
  xvT10 : ℝ
  zhip : ℝ
  yfootR : ℝ
  ytibiaR : ℝ
  yfemurR : ℝ
  ysternoclavR : ℝ
  zsternoclavR : ℝ
  xsternoclavR : ℝ
  yshoulderR : ℝ
  zshoulderR : ℝ
  xshoulderR : ℝ
  yhumerusR : ℝ
  yfootL : ℝ
  ytibiaL : ℝ
  yfemurL : ℝ
  ysternoclavL : ℝ
  zsternoclavL : ℝ
  xsternoclavL : ℝ
  yshoulderL : ℝ
  zshoulderL : ℝ
  xshoulderL : ℝ
  yhumerusL : ℝ
  yforearmR : ℝ
  yforearmL : ℝ
  yvC7 : ℝ
  yhandR : ℝ
  yhandL : ℝ
  yhead : ℝ
  xfootR : ℝ
  xfootL : ℝ
  xheelR : ℝ
  xheelL : ℝ

/-- human36.py:61-157 `anat_lengths_from_height` -/
def anatLengths (height : ℝ) : AnatLengths :=
  let yfoot := 0.0222 * height
  let ytibia := 0.2493 * height
  let yfemur := 0.2425 * height
  let ysternoclav := 0.0980 * height
  let zsternoclav := 0.5 * 0.0254
  let xsternoclav := 0.1052 * height
  let yshoulder := 0.0104 * height
  let zshoulder := 0.1295 * height - zsternoclav
  let xshoulder := 0.0526 * height
  let yhumerus := 0.1618 * height
  let yforearm := 0.1544 * height
  let yhand := 0.1091 * height
  let xfoot := 0.1482 * height
  let xheel := 0.0248 * height
  { yvT10 := 0.2075 * height,
    xvT10 := 0.0526 * height,
    zhip := 0.1002 * height,
    yfootR := yfoot,
    ytibiaR := ytibia,
    yfemurR := yfemur,
    ysternoclavR := ysternoclav,
    zsternoclavR := zsternoclav,
    xsternoclavR := xsternoclav,
    yshoulderR := yshoulder,
    zshoulderR := zshoulder,
    xshoulderR := xshoulder,
    yhumerusR := yhumerus,
    yfootL := yfoot,
    ytibiaL := ytibia,
    yfemurL := yfemur,
    ysternoclavL := ysternoclav,
    zsternoclavL := zsternoclav,
    xsternoclavL := xsternoclav,
    yshoulderL := yshoulder,
    zshoulderL := zshoulder,
    xshoulderL := xshoulder,
    yhumerusL := yhumerus,
    yforearmR := yforearm,
    yforearmL := yforearm,
    yvC7 := 0.139 * height,
    yhandR := yhand,
    yhandL := yhand,
    yhead := 0.1395 * height,
    xfootR := xfoot,
    xfootL := xfoot,
    xheelR := xheel,
    xheelL := xheel }

open Classical in
/-- human36.py:160-186 `height_from_anat_lengths` -/
def heightFromLengths (L : AnatLengths) : Except PyErr ℝ :=
  let right_leg := L.yfootR + L.ytibiaR + L.yfemurR
  let left_leg := L.yfootL + L.ytibiaL + L.yfemurL
  if left_leg ≠ right_leg then .error .valueError else
  .ok (left_leg + L.yvT10 + L.yvC7 + L.yhead)

/-- human36.py:242-298: the arguments of the calls of `add_body`: name, mass, position of the centre of mass, gyration radii -/
def humanBodies (L : AnatLengths) (mass : ℝ) : List (String × ℝ × Vec3 × Vec3) :=
  [("LPT", 0.275 * mass, ![0, 0.5108*L.yvT10, 0], L.yvT10 • ![0.2722, 0.2628, 0.226]),
   ("ThighR", 0.1416 * mass, ![0, -0.4095*L.yfemurR, 0], L.yfemurR • ![0.329, 0.149, 0.329]),
   ("ShankR", 0.0433 * mass, ![0, -0.4459*L.ytibiaR, 0], L.ytibiaR • ![0.255, 0.103, 0.249]),
   ("FootR", 0.0137 * mass, ![0.4415*L.xfootR - L.xheelR, -L.yfootR/2, 0], L.xfootR • ![0.124, 0.257, 0.245]),
   ("ThighL", 0.1416 * mass, ![0, -0.4095*L.yfemurL, 0], L.yfemurL • ![0.329, 0.149, 0.329]),
   ("ShankL", 0.0433 * mass, ![0, -0.4459*L.ytibiaL, 0], L.ytibiaL • ![0.255, 0.103, 0.249]),
   ("FootL", 0.0137 * mass, ![0.4415*L.xfootL - L.xheelL, -L.yfootL/2, 0], L.xfootL • ![0.124, 0.257, 0.245]),
   ("UPT", 0.1596 * mass, ![(L.xsternoclavR + L.xsternoclavL)/4, 0.7001*(L.ysternoclavR+L.ysternoclavL)/2, 0], L.ysternoclavR • ![0.716, 0.659, 0.454]),
   ("ScapulaR", 0, ![0, 0, 0], ![0, 0, 0]),
   ("ArmR", 0.0271 * mass, ![0, -0.5772*L.yhumerusR, 0], L.yhumerusR • ![0.285, 0.158, 0.269]),
   ("ForearmR", 0.0162 * mass, ![0, -0.4574*L.yforearmR, 0], L.yforearmR • ![0.276, 0.121, 0.265]),
   ("HandR", 0.0061 * mass, ![0, -0.3691*L.yhandR, 0], L.yhandR • ![0.235, 0.184, 0.288]),
   ("ScapulaL", 0, ![0, 0, 0], ![0, 0, 0]),
   ("ArmL", 0.0271 * mass, ![0, -0.5772*L.yhumerusL, 0], L.yhumerusL • ![0.285, 0.158, 0.269]),
   ("ForearmL", 0.0162 * mass, ![0, -0.4574*L.yforearmL, 0], L.yforearmL • ![0.276, 0.121, 0.265]),
   ("HandL", 0.0061 * mass, ![0, -0.3691*L.yhandL, 0], L.yhandL • ![0.288, 0.184, 0.235]),
   ("Head", 0.0694 * mass, ![0, 0.4998*L.yhead, 0], L.yhead • ![0.303, 0.261, 0.315])]

/-- human36.py:308-341: the arguments of the calls of `add_link`: body (`none` is the ground), translation, joint, name, body -/
def humanLinks (L : AnatLengths) : List (Option String × Vec3 × JAttr × String × String) :=
  [(none, ![0, L.yfootL+L.ytibiaL+L.yfemurL, 0], .free 1 0, "Root", "LPT"),
   (some "LPT", ![0, 0, L.zhip/2], .zero .RzRyRx, "HipR", "ThighR"),
   (some "ThighR", ![0, -L.yfemurR, 0], .zero .Rz, "KneeR", "ShankR"),
   (some "ShankR", ![0, -L.ytibiaR, 0], .zero .RzRx, "AnkleR", "FootR"),
   (some "LPT", ![0, 0, -L.zhip/2], .zero .RzRyRx, "HipL", "ThighL"),
   (some "ThighL", ![0, -L.yfemurL, 0], .zero .Rz, "KneeL", "ShankL"),
   (some "ShankL", ![0, -L.ytibiaL, 0], .zero .RzRx, "AnkleL", "FootL"),
   (some "LPT", ![-L.xvT10, L.yvT10, 0], .zero .RzRyRx, "Back", "UPT"),
   (some "UPT", ![L.xsternoclavR, L.ysternoclavR, L.zsternoclavR], .zero .RyRx, "Torso-ScapR", "ScapulaR"),
   (some "ScapulaR", ![-L.xshoulderR, L.yshoulderR, L.zshoulderR], .zero .RzRyRx, "Arm-ScapR", "ArmR"),
   (some "ArmR", ![0, -L.yhumerusR, 0], .zero .RzRy, "ElbowR", "ForearmR"),
   (some "ForearmR", ![0, -L.yforearmR, 0], .zero .RzRx, "WristR", "HandR"),
   (some "UPT", ![L.xsternoclavL, L.ysternoclavL, -L.zsternoclavL], .zero .RyRx, "Torso-ScapL", "ScapulaL"),
   (some "ScapulaL", ![-L.xshoulderL, L.yshoulderL, -L.zshoulderL], .zero .RzRyRx, "Arm-ScapL", "ArmL"),
   (some "ArmL", ![0, -L.yhumerusL, 0], .zero .RzRy, "ElbowL", "ForearmL"),
   (some "ForearmL", ![0, -L.yforearmL, 0], .zero .RzRx, "WristL", "HandL"),
   (some "UPT", ![L.xvT10, L.yvC7, 0], .zero .RzRyRx, "Neck", "Head")]

/-- human36.py:358-387: the arguments of the calls of `add_tag`: name, body, position -/
def humanTags (L : AnatLengths) (h : ℝ) : List (String × String × Vec3) :=
  [("Right foot toe tip", "FootR", ![L.xfootR-L.xheelR+1e-4*h, -L.yfootR, 0]),
   ("Right foot heel", "FootR", ![-L.xheelR, -L.yfootR, 0]),
   ("Right foot phalange 5", "FootR", ![0.0662*h, -L.yfootR, 0.0305*h]),
   ("Right foot phalange 1", "FootR", ![0.0662*h, -L.yfootR, -0.0305*h]),
   ("Right foot lateral malleolus", "ShankR", ![0, -L.ytibiaR, 0.0249*h]),
   ("Femoral lateral epicondyle", "ThighR", ![0, -L.yfemurR, 0.0290*h]),
   ("Right great trochanter", "ThighR", ![0, 0, 0.0941*h-L.zhip/2]),
   ("Right iliac crest", "LPT", ![0.0271*h, 0.0366*h, 0.0697*h]),
   ("Left foot toe tip", "FootL", ![L.xfootL-L.xheelL+1e-4*h, -L.yfootL, 0]),
   ("Left foot heel", "FootL", ![-L.xheelL, -L.yfootL, 0]),
   ("Left foot phalange 5", "FootL", ![0.0662*h, -L.yfootL, -0.0305*h]),
   ("Left foot phalange 1", "FootL", ![0.0662*h, -L.yfootL, 0.0305*h]),
   ("Left foot lateral malleolus", "ShankL", ![0, -L.ytibiaL, -0.0249*h]),
   ("Left femoral lateral epicondyle", "ThighL", ![0, -L.yfemurL, -0.0290*h]),
   ("Left great trochanter", "ThighL", ![0, 0, -0.0941*h+L.zhip/2]),
   ("Left iliac crest", "LPT", ![0.0271*h, 0.0366*h, -0.0697*h]),
   ("Substernale (Xyphoid)", "UPT", ![0.1219*h, 0, 0]),
   ("Suprasternale", "UPT", ![(L.xsternoclavL+L.xsternoclavL)/2, (L.ysternoclavL+L.ysternoclavL)/2, 0]),
   ("Right acromion", "ScapulaR", ![-L.xshoulderR, 0.0198*h+L.yshoulderR, L.zshoulderR]),
   ("Right humeral lateral epicondyle (radiale)", "ArmR", ![0, -L.yhumerusR, 0.0211*h]),
   ("Right stylion", "ForearmR", ![0, -0.1533*h, 0.0331*h]),
   ("Right 3rd dactylion", "HandR", ![0, -L.yhandR, 0]),
   ("Left acromion", "ScapulaL", ![-L.xshoulderL, 0.0198*h+L.yshoulderL, -L.zshoulderL]),
   ("Left humeral lateral epicondyle (radiale)", "ArmL", ![0, -L.yhumerusL, -0.0211*h]),
   ("Left stylion", "ForearmL", ![0, -0.1533*h, -0.0331*h]),
   ("Left 3rd dactylion", "HandL", ![0, -L.yhandL, 0]),
   ("Cervicale", "UPT", ![-0.0392*0 +L.xvT10, L.yvC7, 0]),
   ("Vertex", "Head", ![0, L.yhead, 0])]

/-- human36.py:390-393 -/
def humanPoints : List String :=
  ["Right foot toe tip", "Right foot heel", "Right foot phalange 5", "Right foot phalange 1", "Left foot toe tip", "Left foot heel", "Left foot phalange 5", "Left foot phalange 1"]

/-- `bodies[name]`, `tags[name]` (core.py:103-109): the first object with this name, or `KeyError` -/
def byName (l : List (String × ℕ)) (name : String) : Prog ℕ :=
  match l.lookup name with
  | some x => pure x
  | none => fail .keyError

/-- human36.py:233-241 `add_body` -/
def humanAddBody (pre : String) (r : String × ℝ × Vec3 × Vec3) : Prog (String × ℕ) := do
  let mass := r.2.1
  let gyr := r.2.2.2
  let mass_g := diag6 (mass * gyr 0 ^ 2) (mass * gyr 1 ^ 2) (mass * gyr 2 ^ 2) mass
  let H_fg := mkH 1 r.2.2.1
  let H_gf ← liftE (inv H_fg)
  let Ad ← liftE (adjoint H_gf)
  let mass_o := Adᵀ * (mass_g * Ad)
  let b ← newBody (some (pre ++ r.1)) (some mass_o)
  pure (pre ++ r.1, b)

/-- human36.py:302-303: `body0` is the ground, or the name of a body -/
def humanParent (pre : String) (bodies : List (String × ℕ)) : Option String → Prog ℕ
  | none => fun S => .ok (S.w.ground, S)
  | some n => byName bodies (pre ++ n)

/-- human36.py:301-306 `add_link` (the joint is created by the caller; its name is set at line 308) -/
def humanAddLink (pre : String) (bodies : List (String × ℕ)) (r : Option String × Vec3 × JAttr × String × String) : Prog Unit := do
  let joint ← newJoint r.2.2.1 (some (pre ++ r.2.2.2.1))
  let body0 ← humanParent pre bodies r.1
  let frame0 ← newSub body0 (transl (r.2.1 0) (r.2.1 1) (r.2.1 2)) none
  let body1 ← byName bodies (pre ++ r.2.2.2.2)
  link (.sub frame0) joint (.body body1)

/-- human36.py:345-357 `add_tag` (no name is empty) -/
def humanAddTag (pre : String) (bodies : List (String × ℕ)) (r : String × String × Vec3) : Prog (String × ℕ) := do
  let b ← byName bodies (pre ++ r.2.1)
  let tag ← newSub b (transl (r.2.2 0) (r.2.2 1) (r.2.2 2)) (some (pre ++ r.1))
  reg (.frame (.sub tag))
  pure (pre ++ r.1, tag)

/-- human36.py:394-396: the body of the loop -/
def humanAddPoint (pre : String) (tags : List (String × ℕ)) (k : String) : Prog Unit := do
  let tag ← byName tags (pre ++ k)
  let shape ← newShape (.sub tag) .point (some (pre ++ k))
  reg (.shape shape)

/-- the calls, one after the other -/
def each {α β : Type} (f : α → Prog β) : List α → Prog (List β)
  | [] => pure []
  | a :: l => do
    let b ← f a
    let bs ← each f l
    pure (b :: bs)

/-- human36.py:189-399 `add_human36` -/
def addHuman36 (lim : ℕ) (height mass : ℝ) (anat_lengths : Option AnatLengths) (pre : String) : Prog Unit := do
  let L := anat_lengths.getD (anatLengths height)
  let h ← liftE (heightFromLengths L)
  let bodies ← each (humanAddBody pre) (humanBodies L mass)
  let _ ← each (humanAddLink pre bodies) (humanLinks L)
  let tags ← each (humanAddTag pre bodies) (humanTags L h)
  let _ ← each (humanAddPoint pre tags) humanPoints
  init lim

end
end Arboris.Build
