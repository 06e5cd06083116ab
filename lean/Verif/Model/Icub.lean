import Verif.Model.Human36
import Verif.Model.Urdf
import Verif.Model.RigidMotion

/-!
# Model of `robots/icub.py`

The tables are dictionaries: Python enumerates their items in an order of its own, so `addIcub` takes the four lists of items,
in any order.
-/

namespace Arboris.Build
open Graph Matrix
open Real (pi)
local notation "π" => Real.pi

noncomputable section

/-- icub.py:26-67 `get_joint_limits`: name, lower and upper limit, in degrees -/
def icubLimitsDeg : List (String × ℝ × ℝ) :=
  [("torso_pitch", (-22), 84),
   ("torso_roll", (-39), 39),
   ("torso_yaw", (-59), 59),
   ("head_pitch", (-40), 30),
   ("head_roll", (-70), 60),
   ("head_yaw", (-55), 55),
   ("l_shoulder_pitch", (-95), 5),
   ("l_shoulder_roll", 0, 160.8),
   ("l_shoulder_yaw", (-37), 100),
   ("l_elbow_pitch", 5.5, 106),
   ("l_elbow_yaw", (-50), 50),
   ("l_wrist_roll", (-65), 10),
   ("l_wrist_pitch", (-25), 25),
   ("r_shoulder_pitch", (-95), 5),
   ("r_shoulder_roll", 0, 160.8),
   ("r_shoulder_yaw", (-37), 100),
   ("r_elbow_pitch", 5.5, 106),
   ("r_elbow_yaw", (-50), 50),
   ("r_wrist_roll", (-65), 10),
   ("r_wrist_pitch", (-25), 25),
   ("l_hip_pitch", (-44), 132),
   ("l_hip_roll", (-119), 17),
   ("l_hip_yaw", (-79), 79),
   ("l_knee", (-125), 23),
   ("l_ankle_pitch", (-42), 21),
   ("l_ankle_roll", (-24), 24),
   ("r_hip_pitch", (-44), 132),
   ("r_hip_roll", (-119), 17),
   ("r_hip_yaw", (-79), 79),
   ("r_knee", (-125), 23),
   ("r_ankle_pitch", (-42), 21),
   ("r_ankle_roll", (-24), 24)]

/-- icub.py:26-67 `get_joint_limits` -/
def icubLimits (in_radian : Bool) : List (String × ℝ × ℝ) :=
  if in_radian then icubLimitsDeg.map fun x => (x.1, x.2.1 * π / 180, x.2.2 * π / 180) else icubLimitsDeg

/-- icub.py:69-106 `get_torque_limits` -/
def icubTorques : List (String × ℝ) :=
  [("torso_pitch", 36),
   ("torso_roll", 80),
   ("torso_yaw", 80),
   ("head_pitch", 20),
   ("head_roll", 20),
   ("head_yaw", 20),
   ("l_shoulder_pitch", 84),
   ("l_shoulder_roll", 84),
   ("l_shoulder_yaw", 34),
   ("l_elbow_pitch", 20),
   ("l_elbow_yaw", 0.45),
   ("l_wrist_roll", 0.65),
   ("l_wrist_pitch", 0.65),
   ("r_shoulder_pitch", 84),
   ("r_shoulder_roll", 84),
   ("r_shoulder_yaw", 34),
   ("r_elbow_pitch", 20),
   ("r_elbow_yaw", 0.45),
   ("r_wrist_roll", 0.65),
   ("r_wrist_pitch", 0.65),
   ("l_hip_pitch", 84),
   ("l_hip_roll", 84),
   ("l_hip_yaw", 40),
   ("l_knee", 30),
   ("l_ankle_pitch", 24),
   ("l_ankle_roll", 11),
   ("r_hip_pitch", 84),
   ("r_hip_roll", 84),
   ("r_hip_yaw", 40),
   ("r_knee", 30),
   ("r_ankle_pitch", 24),
   ("r_ankle_roll", 11)]

/-- icub.py:108-160 `get_joints_data`: name, parent body, pose of the joint in the parent body, child body -/
def icubJoints : List (String × String × Mat4 × String) :=
  [("torso_pitch", "waist", rotz (π / 2) * roty (-π / 2), "lap_belt_1"),
   ("torso_roll", "lap_belt_1", T_DH 0 0 0.032 (π / 2), "lap_belt_2"),
   ("torso_yaw", "lap_belt_2", T_DH 0 (-π / 2) 0 (π / 2), "chest"),
   ("head_pitch", "chest", T_DH (-0.1933) (-π / 2) 0.00231 (-π / 2), "neck_1"),
   ("head_roll", "neck_1", T_DH 0 (π / 2) 0.033 (π / 2), "neck_2"),
   ("head_yaw", "neck_2", T_DH 0.001 (-π / 2) 0 (-π / 2), "head"),
   ("l_shoulder_pitch", "chest", T_DH (-0.1433) (105 * π / 180) 0.0233647 (-π / 2), "l_shoulder_1"),
   ("l_shoulder_roll", "l_shoulder_1", T_DH 0.10774 (π / 2) 0 (-π / 2), "l_shoulder_2"),
   ("l_shoulder_yaw", "l_shoulder_2", T_DH 0 (-π / 2) 0 (π / 2), "l_arm"),
   ("l_elbow_pitch", "l_arm", T_DH 0.15228 (75 * π / 180) 0 (-π / 2), "l_elbow_1"),
   ("l_elbow_yaw", "l_elbow_1", T_DH 0 0 (-0.015) (π / 2), "l_forearm"),
   ("l_wrist_roll", "l_forearm", T_DH 0.1373 (-π / 2) 0 (π / 2), "l_wrist_1"),
   ("l_wrist_pitch", "l_wrist_1", T_DH 0 (π / 2) 0 (π / 2), "l_hand"),
   ("r_shoulder_pitch", "chest", T_DH (-0.1433) (-105 * π / 180) (-0.0233647) (π / 2), "r_shoulder_1"),
   ("r_shoulder_roll", "r_shoulder_1", T_DH (-0.10774) (-π / 2) 0 (π / 2), "r_shoulder_2"),
   ("r_shoulder_yaw", "r_shoulder_2", T_DH 0 (-π / 2) 0 (-π / 2), "r_arm"),
   ("r_elbow_pitch", "r_arm", T_DH (-0.15228) (-105 * π / 180) 0 (-π / 2), "r_elbow_1"),
   ("r_elbow_yaw", "r_elbow_1", T_DH 0 0 0.015 (π / 2), "r_forearm"),
   ("r_wrist_roll", "r_forearm", T_DH (-0.1373) (-π / 2) 0 (π / 2), "r_wrist_1"),
   ("r_wrist_pitch", "r_wrist_1", T_DH 0 (π / 2) 0 (π / 2), "r_hand"),
   ("l_hip_pitch", "waist", transl 0 (-0.0681) (-0.1199) * rotx (-π / 2), "l_hip_1"),
   ("l_hip_roll", "l_hip_1", T_DH 0 (π / 2) 0 (-π / 2), "l_hip_2"),
   ("l_hip_yaw", "l_hip_2", T_DH 0 (π / 2) 0 (-π / 2), "l_thigh"),
   ("l_knee", "l_thigh", T_DH (-0.2236) (-π / 2) 0 (π / 2), "l_shank"),
   ("l_ankle_pitch", "l_shank", T_DH 0 (π / 2) (-0.213) π, "l_ankle_1"),
   ("l_ankle_roll", "l_ankle_1", T_DH 0 0 0 (-π / 2), "l_foot"),
   ("r_hip_pitch", "waist", transl 0 0.0681 (-0.1199) * rotx (-π / 2), "r_hip_1"),
   ("r_hip_roll", "r_hip_1", T_DH 0 (π / 2) 0 (π / 2), "r_hip_2"),
   ("r_hip_yaw", "r_hip_2", T_DH 0 (π / 2) 0 (π / 2), "r_thigh"),
   ("r_knee", "r_thigh", T_DH 0.2236 (-π / 2) 0 (-π / 2), "r_shank"),
   ("r_ankle_pitch", "r_shank", T_DH 0 (π / 2) (-0.213) π, "r_ankle_1"),
   ("r_ankle_roll", "r_ankle_1", T_DH 0 0 0 (π / 2), "r_foot")]

/-- the dimensions of a shape: a tuple of any length -/
abbrev Dims := List ℝ

/-- icub.py:163-231 `get_bodies_data`: name, shapes (dimensions, mass, pose in the body) -/
def icubBodies : List (String × List (Dims × ℝ × Mat4)) :=
  [("waist", [([0.032, 0.0235, 0.057215], 0.20297, transl 0.006 0 (-0.1))]),
   ("lap_belt_1", [([0.0315, 0.0635, 0.088], 3.623, transl (-0.0383) (-0.0173) 0 * rotz (-π / 4))]),
   ("lap_belt_2", [([0.097, 0.031], 0.91179, transl 0 0 0.008)]),
   ("chest", [([0.0274, 0.04], 0.45165, transl 0 0 (-0.0447)),
     ([0.036, 0.0545, 0.059], 1.8388, transl (-0.03) 0 (-0.1174) * rotz (π / 12)),
     ([0.036, 0.0545, 0.059], 1.8388, transl 0.03 0 (-0.1174) * rotz (-π / 12))]),
   ("neck_1", [([0.077, 0.015], 0.28252, 1)]),
   ("neck_2", [([0.033, 0.015], 0.1, 1)]),
   ("head", [([0.08], 0.78, transl 0 0 0.0825)]),
   ("l_shoulder_1", [([0.011, 0.031], 0.48278, transl 0 0 0.07224)]),
   ("l_shoulder_2", [([0.059, 0.03], 0.20779, 1)]),
   ("l_arm", [([0.156, 0.026], 1.1584, transl 0 0 0.078)]),
   ("l_elbow_1", [([0.01], 0.050798, 1)]),
   ("l_forearm", [([0.14, 0.02], 0.48774, transl 0 0 0.07)]),
   ("l_wrist_1", [([0.04, 0.01], 0.05, 1)]),
   ("l_hand", [([0.0345, 0.0325, 0.012], 0.19099, transl 0.0345 0 0)]),
   ("r_shoulder_1", [([0.011, 0.031], 0.48278, transl 0 0 (-0.07224))]),
   ("r_shoulder_2", [([0.059, 0.03], 0.20779, 1)]),
   ("r_arm", [([0.156, 0.026], 1.1584, transl 0 0 (-0.078))]),
   ("r_elbow_1", [([0.01], 0.050798, 1)]),
   ("r_forearm", [([0.14, 0.02], 0.48774, transl 0 0 (-0.07))]),
   ("r_wrist_1", [([0.04, 0.01], 0.05, 1)]),
   ("r_hand", [([0.0345, 0.0325, 0.012], 0.19099, transl (-0.0345) 0 0)]),
   ("l_hip_1", [([0.013, 0.038], 0.32708, transl 0 0 0.0375)]),
   ("l_hip_2", [([0.075, 0.031], 1.5304, 1)]),
   ("l_thigh", [([0.224, 0.034], 1.5304, transl 0 0 (-0.112)), ([0.077, 0.0315], 0.79206, transl 0 0 (-0.224) * roty (π / 2))]),
   ("l_shank", [([0.213, 0.0315], 0.95262, transl 0 (-0.1065) 0 * rotx (π / 2))]),
   ("l_ankle_1", [([0.063, 0.0245], 0.14801, 1)]),
   ("l_foot", [([0.095, 0.027], 0.59285, transl 0 0 0.0125), ([0.002, 0.027, 0.065], 0.08185, transl (-0.039) 0 0.034)]),
   ("r_hip_1", [([0.013, 0.038], 0.32708, transl 0 0 (-0.0375))]),
   ("r_hip_2", [([0.075, 0.031], 1.5304, 1)]),
   ("r_thigh", [([0.224, 0.034], 1.5304, transl 0 0 0.112), ([0.077, 0.0315], 0.79206, transl 0 0 0.224 * roty (π / 2))]),
   ("r_shank", [([0.213, 0.0315], 0.95262, transl 0 (-0.1065) 0 * rotx (π / 2))]),
   ("r_ankle_1", [([0.063, 0.0245], 0.14801, 1)]),
   ("r_foot", [([0.095, 0.027], 0.59285, transl 0 0 (-0.0125)), ([0.002, 0.027, 0.065], 0.08185, transl (-0.039) 0 (-0.034))])]

/-- icub.py:234-247 `get_bodies_shapes_data`: the shapes of the bodies, without the masses, and the eyes (the table is made from
`get_bodies_data`) -/
def icubShapes : List (String × List (Dims × Mat4)) :=
  icubBodies.map fun x => (x.1, (x.2.map fun d => (d.1, d.2.2)) ++
    if x.1 = "head" then [([0.02], transl (-0.034) (-0.054) 0.0825), ([0.02], transl 0.034 (-0.054) 0.0825)] else [])

/-- icub.py:250-284 `get_contact_data`: name, body, dimensions, pose in the body -/
def icubContacts : List (String × String × Dims × Mat4) :=
  [("lh1", "l_hand", [0.012], transl 0.012 0.0205 0),
   ("lh2", "l_hand", [0.012], transl 0.012 (-0.0205) 0),
   ("lh3", "l_hand", [0.012], transl 0.057 0.0205 0),
   ("lh4", "l_hand", [0.012], transl 0.057 (-0.0205) 0),
   ("l_hand_tip", "l_hand", [0.012], transl 0.069 0 0),
   ("l_hand_palm", "l_hand", [0.012], transl 0.0345 0 0),
   ("rh1", "r_hand", [0.012], transl (-0.012) 0.0205 0),
   ("rh2", "r_hand", [0.012], transl (-0.012) (-0.0205) 0),
   ("rh3", "r_hand", [0.012], transl (-0.057) 0.0205 0),
   ("rh4", "r_hand", [0.012], transl (-0.057) (-0.0205) 0),
   ("r_hand_tip", "r_hand", [0.012], transl (-0.069) 0 0),
   ("r_hand_palm", "r_hand", [0.012], transl (-0.0345) 0 0),
   ("lf1", "l_foot", [0.002], transl (-0.039) (-0.027) (-0.031)),
   ("lf2", "l_foot", [0.002], transl (-0.039) 0.027 (-0.031)),
   ("lf3", "l_foot", [0.002], transl (-0.039) 0.027 0.099),
   ("lf4", "l_foot", [0.002], transl (-0.039) (-0.027) 0.099),
   ("l_sole", "l_foot", [], transl (-0.041) 0 0.034 * (roty (-π / 2) * rotx (-π / 2))),
   ("rf1", "r_foot", [0.002], transl (-0.039) (-0.027) 0.031),
   ("rf2", "r_foot", [0.002], transl (-0.039) 0.027 0.031),
   ("rf3", "r_foot", [0.002], transl (-0.039) 0.027 (-0.099)),
   ("rf4", "r_foot", [0.002], transl (-0.039) (-0.027) (-0.099)),
   ("r_sole", "r_foot", [], transl (-0.041) 0 (-0.034) * (roty (π / 2) * rotx (π / 2)))]

/-- icub.py:307-314: the mass matrix of a shape -/
def icubSolid (dims : Dims) (m : ℝ) : Except PyErr Mat6 :=
  match dims with
  | [x, y, z] => .ok (massBox x y z m)
  | [l, r] => .ok (massCylinder l r m)
  | [r] => .ok (massSphere r m)
  | _ => .error .valueError

/-- icub.py:304-315: the loop over the shapes of a body; `mass` is the sum so far -/
def icubMass (b : ℕ) (mass : Mat6) : List (Dims × ℝ × Mat4) → Prog Mat6
  | [] => pure mass
  | (dims, m, H) :: data => do
    let _ ← newSub b H none
    let M ← liftE (icubSolid dims m)
    let H' ← liftE (inv H)
    let M' ← liftE (transport M H')
    icubMass b (mass + M') data

/-- `body.mass = M`: an assignment, without any test -/
def setMass (b : ℕ) (M : Mat6) : Prog Unit := fun S => .ok ((), { S with mass := Function.update S.mass b M })

/-- icub.py:302-316: the body of the loop -/
def icubBody (x : String × List (Dims × ℝ × Mat4)) : Prog (String × ℕ) := do
  let b ← newBody (some x.1) none
  let mass ← icubMass b 0 x.2
  setMass b mass
  pure (x.1, b)

/-- icub.py:319-322: the base -/
def icubBase (is_fixed : Bool) (bodies : List (String × ℕ)) : Prog (List (String × ℕ)) :=
  if is_fixed then fun S => .ok (Urdf.dictSet bodies "waist" S.w.ground, S) else do
    let g ← ground
    let joint ← newJoint (.free 1 0) (some "root")
    let waist ← byName bodies "waist"
    link g joint (.body waist)
    pure bodies

/-- icub.py:325-329: the body of the loop -/
def icubJoint (bodies : List (String × ℕ)) (x : String × String × Mat4 × String) : Prog Unit := do
  let p ← byName bodies x.2.1
  let f ← newSub p x.2.2.1 none
  let joint ← newJoint (.zero .Rz) (some x.1)
  let c ← byName bodies x.2.2.2
  link (.sub f) joint (.body c)

/-- icub.py:337-344, 352-359: the class of a shape (`other` for any other number of dimensions) -/
def icubGeo (dims : Dims) (other : Except PyErr ShapeGeo) : Except PyErr ShapeGeo :=
  match dims with
  | [x, y, z] => .ok (.box ![x, y, z])
  | [l, r] => .ok (.cylinder l r)
  | [r] => .ok (.sphere r)
  | _ => other

/-- icub.py:335-345: the body of the inner loop -/
def icubShape (bodies : List (String × ℕ)) (name : String) (d : Dims × Mat4) : Prog Unit := do
  let b ← byName bodies name
  let sf ← newSub b d.2 none
  let g ← liftE (icubGeo d.1 (.error .valueError))
  let sh ← newShape (.sub sf) g (some (name ++ ".body_shape"))
  reg (.shape sh)

/-- icub.py:334-345: the body of the outer loop -/
def icubShapesOf (bodies : List (String × ℕ)) (x : String × List (Dims × Mat4)) : Prog Unit := do
  let _ ← each (icubShape bodies x.1) x.2
  pure ()

/-- icub.py:349-360: the body of the loop -/
def icubContact (bodies : List (String × ℕ)) (x : String × String × Dims × Mat4) : Prog Unit := do
  let b ← byName bodies x.2.1
  let sf ← newSub b x.2.2.2 (some x.1)
  let g ← liftE (icubGeo x.2.2.1 (.ok .point))
  let sh ← newShape (.sub sf) g (some x.1)
  reg (.shape sh)

/-- the items of the four dictionaries, in the order of their enumeration -/
structure IcubItems where
  bodies : List (String × List (Dims × ℝ × Mat4))
  joints : List (String × String × Mat4 × String)
  shapes : List (String × List (Dims × Mat4))
  contacts : List (String × String × Dims × Mat4)

/-- icub.py:287-362 `add` -/
def addIcub (lim : ℕ) (is_fixed create_shapes create_contacts : Bool) (D : IcubItems) : Prog Unit := do
  let bodies ← each icubBody D.bodies
  let bodies ← icubBase is_fixed bodies
  let _ ← each (icubJoint bodies) D.joints
  let _ ← each (icubShapesOf bodies) (if create_shapes then D.shapes else [])
  let _ ← each (icubContact bodies) (if create_contacts then D.contacts else [])
  init lim

end
end Arboris.Build
