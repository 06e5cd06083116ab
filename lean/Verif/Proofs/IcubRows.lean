import Verif.Props.Icub

/-!
# The tables of the iCub robot, seen in a mirror
-/

namespace Arboris
open Graph Spec Build Matrix

/-! ### specification -/

/-- In the frame of the body named `x`, the reflection that takes the body to its mirror image: the signs of the three axes.  For the waist, left and
right are exchanged: `y ↦ -y`. -/
def Spec.mirrorAxes (x : String) : Vec3 :=
  if x ∈ ["waist", "lap_belt_2", "neck_2"] then ![1, -1, 1]
  else if x ∈ ["chest", "head"] then ![-1, 1, 1]
  else if x ∈ ["l_shoulder_1", "l_elbow_1", "l_forearm", "l_wrist_1", "l_hand", "r_shoulder_1", "r_elbow_1", "r_forearm", "r_wrist_1", "r_hand"] then
    ![-1, -1, -1]
  else ![1, 1, -1]

/-- reflection, as a homogeneous matrix -/
noncomputable def Spec.mirrorH (d : Vec3) : Mat4 := mkH (diagonal d) 0

/-- the joints that turn the other way in the mirror: those whose axis is in the plane of symmetry, the rolls and yaws of the trunk and of the head -/
noncomputable def Spec.mirrorSign (x : String) : ℝ := if x ∈ ["torso_roll", "torso_yaw", "head_roll", "head_yaw"] then -1 else 1

/-! ### the tables -/

set_option linter.unusedSimpArgs false

lemma cos105 : Real.cos (105 * Real.pi / 180) = -Real.cos (75 * Real.pi / 180) := by
  rw [← Real.cos_pi_sub]; congr 1; ring
lemma sin105 : Real.sin (105 * Real.pi / 180) = Real.sin (75 * Real.pi / 180) := by
  rw [← Real.sin_pi_sub]; congr 1; ring

/-- Entries of a Denavit-Hartenberg matrix seen in the mirror. -/
lemma T_DH_mirror {p0 p1 p2 c0 c1 c2 d t r a d' t' r' a' : ℝ} {ct st ca sa : ℝ} (h1 : Real.cos t = ct) (h2 : Real.sin t = st) (h3 : Real.cos a = ca)
    (h4 : Real.sin a = sa) {ct' st' ca' sa' : ℝ} (h1' : Real.cos t' = ct') (h2' : Real.sin t' = st') (h3' : Real.cos a' = ca') (h4' : Real.sin a' = sa')
    (e00 : p0 * ct * c0 = ct') (e01 : p0 * (st * ca) * c1 = st' * ca') (e02 : p0 * (st * sa) * c2 = st' * sa') (e03 : p0 * (r * ct) = r' * ct')
    (e10 : p1 * st * c0 = st') (e11 : p1 * (ct * ca) * c1 = ct' * ca') (e12 : p1 * (ct * sa) * c2 = ct' * sa') (e13 : p1 * (r * st) = r' * st')
    (e21 : p2 * sa * c1 = sa') (e22 : p2 * ca * c2 = ca') (e23 : p2 * d = d') :
    mirrorH ![p0, p1, p2] * T_DH d t r a * mirrorH ![c0, c1, c2] = T_DH d' t' r' a' := by
  rw [T_DH, T_DH, h1, h2, h3, h4, h1', h2', h3', h4']
  ext i j
  fin_cases i <;> fin_cases j <;> simp [mirrorH, mkH, Matrix.mul_apply, Fin.sum_univ_four, Matrix.diagonal] <;> linarith

/-- the table of the joints, each row replaced by the row of the joint of the other side -/
noncomputable def icubMirrorJoints : List (String × String × Mat4 × String) :=
  [("torso_pitch", "waist", rotz (Real.pi / 2) * roty (-Real.pi / 2), "lap_belt_1"),
    ("torso_roll", "lap_belt_1", T_DH 0 0 0.032 (Real.pi / 2), "lap_belt_2"),
    ("torso_yaw", "lap_belt_2", T_DH 0 (-Real.pi / 2) 0 (Real.pi / 2), "chest"),
    ("head_pitch", "chest", T_DH (-0.1933) (-Real.pi / 2) 0.00231 (-Real.pi / 2), "neck_1"),
    ("head_roll", "neck_1", T_DH 0 (Real.pi / 2) 0.033 (Real.pi / 2), "neck_2"),
    ("head_yaw", "neck_2", T_DH 0.001 (-Real.pi / 2) 0 (-Real.pi / 2), "head"),
    ("r_shoulder_pitch", "chest", T_DH (-0.1433) (-105 * Real.pi / 180) (-0.0233647) (Real.pi / 2), "r_shoulder_1"),
    ("r_shoulder_roll", "r_shoulder_1", T_DH (-0.10774) (-Real.pi / 2) 0 (Real.pi / 2), "r_shoulder_2"),
    ("r_shoulder_yaw", "r_shoulder_2", T_DH 0 (-Real.pi / 2) 0 (-Real.pi / 2), "r_arm"),
    ("r_elbow_pitch", "r_arm", T_DH (-0.15228) (-105 * Real.pi / 180) 0 (-Real.pi / 2), "r_elbow_1"),
    ("r_elbow_yaw", "r_elbow_1", T_DH 0 0 0.015 (Real.pi / 2), "r_forearm"),
    ("r_wrist_roll", "r_forearm", T_DH (-0.1373) (-Real.pi / 2) 0 (Real.pi / 2), "r_wrist_1"),
    ("r_wrist_pitch", "r_wrist_1", T_DH 0 (Real.pi / 2) 0 (Real.pi / 2), "r_hand"),
    ("l_shoulder_pitch", "chest", T_DH (-0.1433) (105 * Real.pi / 180) 0.0233647 (-Real.pi / 2), "l_shoulder_1"),
    ("l_shoulder_roll", "l_shoulder_1", T_DH 0.10774 (Real.pi / 2) 0 (-Real.pi / 2), "l_shoulder_2"),
    ("l_shoulder_yaw", "l_shoulder_2", T_DH 0 (-Real.pi / 2) 0 (Real.pi / 2), "l_arm"),
    ("l_elbow_pitch", "l_arm", T_DH 0.15228 (75 * Real.pi / 180) 0 (-Real.pi / 2), "l_elbow_1"),
    ("l_elbow_yaw", "l_elbow_1", T_DH 0 0 (-0.015) (Real.pi / 2), "l_forearm"),
    ("l_wrist_roll", "l_forearm", T_DH 0.1373 (-Real.pi / 2) 0 (Real.pi / 2), "l_wrist_1"),
    ("l_wrist_pitch", "l_wrist_1", T_DH 0 (Real.pi / 2) 0 (Real.pi / 2), "l_hand"),
    ("r_hip_pitch", "waist", transl 0 0.0681 (-0.1199) * rotx (-Real.pi / 2), "r_hip_1"),
    ("r_hip_roll", "r_hip_1", T_DH 0 (Real.pi / 2) 0 (Real.pi / 2), "r_hip_2"),
    ("r_hip_yaw", "r_hip_2", T_DH 0 (Real.pi / 2) 0 (Real.pi / 2), "r_thigh"),
    ("r_knee", "r_thigh", T_DH 0.2236 (-Real.pi / 2) 0 (-Real.pi / 2), "r_shank"),
    ("r_ankle_pitch", "r_shank", T_DH 0 (Real.pi / 2) (-0.213) Real.pi, "r_ankle_1"),
    ("r_ankle_roll", "r_ankle_1", T_DH 0 0 0 (Real.pi / 2), "r_foot"),
    ("l_hip_pitch", "waist", transl 0 (-0.0681) (-0.1199) * rotx (-Real.pi / 2), "l_hip_1"),
    ("l_hip_roll", "l_hip_1", T_DH 0 (Real.pi / 2) 0 (-Real.pi / 2), "l_hip_2"),
    ("l_hip_yaw", "l_hip_2", T_DH 0 (Real.pi / 2) 0 (-Real.pi / 2), "l_thigh"),
    ("l_knee", "l_thigh", T_DH (-0.2236) (-Real.pi / 2) 0 (Real.pi / 2), "l_shank"),
    ("l_ankle_pitch", "l_shank", T_DH 0 (Real.pi / 2) (-0.213) Real.pi, "l_ankle_1"),
    ("l_ankle_roll", "l_ankle_1", T_DH 0 0 0 (-Real.pi / 2), "l_foot")]

/-- `y` is the row of the mirror image of the joint of the row `x` -/
def IsMirrorRow (x y : String × String × Mat4 × String) : Prop :=
  y.1 = mirrorName x.1 ∧ y.2.1 = mirrorName x.2.1 ∧ y.2.2.2 = mirrorName x.2.2.2 ∧
    y.2.2.1 = mirrorH (mirrorAxes x.2.1) * x.2.2.1 * mirrorH (mirrorAxes x.2.2.2) ∧
    mirrorSign x.1 = mirrorAxes x.2.2.2 0 * mirrorAxes x.2.2.2 1

set_option maxHeartbeats 4000000 in
lemma icub_mirrorRows_aux : List.Forall₂ IsMirrorRow icubJoints icubMirrorJoints := by
  unfold icubJoints
  refine .cons ⟨by simp [mirrorName], by simp [mirrorName], by simp [mirrorName], ?_, by simp [mirrorSign, mirrorAxes]⟩ ?_
  · rw [show mirrorAxes "waist" = ![1, -1, 1] by simp [mirrorAxes], show mirrorAxes "lap_belt_1" = ![1, 1, -1] by simp [mirrorAxes]]
    ext i j; fin_cases i <;> fin_cases j <;> simp [mirrorH, mkH, transl, rotx, roty, rotz, Matrix.mul_apply, Fin.sum_univ_four, Matrix.diagonal, neg_div]
  refine .cons ⟨by simp [mirrorName], by simp [mirrorName], by simp [mirrorName], ?_, by simp [mirrorSign, mirrorAxes]⟩ ?_
  · rw [show mirrorAxes "lap_belt_1" = ![1, 1, -1] by simp [mirrorAxes], show mirrorAxes "lap_belt_2" = ![1, -1, 1] by simp [mirrorAxes]]; symm
    refine T_DH_mirror rfl rfl rfl rfl rfl rfl rfl rfl ?_ ?_ ?_ ?_ ?_ ?_ ?_ ?_ ?_ ?_ ?_ <;> simp [neg_div, cos105, sin105]
  refine .cons ⟨by simp [mirrorName], by simp [mirrorName], by simp [mirrorName], ?_, by simp [mirrorSign, mirrorAxes]⟩ ?_
  · rw [show mirrorAxes "lap_belt_2" = ![1, -1, 1] by simp [mirrorAxes], show mirrorAxes "chest" = ![-1, 1, 1] by simp [mirrorAxes]]; symm
    refine T_DH_mirror rfl rfl rfl rfl rfl rfl rfl rfl ?_ ?_ ?_ ?_ ?_ ?_ ?_ ?_ ?_ ?_ ?_ <;> simp [neg_div, cos105, sin105]
  refine .cons ⟨by simp [mirrorName], by simp [mirrorName], by simp [mirrorName], ?_, by simp [mirrorSign, mirrorAxes]⟩ ?_
  · rw [show mirrorAxes "chest" = ![-1, 1, 1] by simp [mirrorAxes], show mirrorAxes "neck_1" = ![1, 1, -1] by simp [mirrorAxes]]; symm
    refine T_DH_mirror rfl rfl rfl rfl rfl rfl rfl rfl ?_ ?_ ?_ ?_ ?_ ?_ ?_ ?_ ?_ ?_ ?_ <;> simp [neg_div, cos105, sin105]
  refine .cons ⟨by simp [mirrorName], by simp [mirrorName], by simp [mirrorName], ?_, by simp [mirrorSign, mirrorAxes]⟩ ?_
  · rw [show mirrorAxes "neck_1" = ![1, 1, -1] by simp [mirrorAxes], show mirrorAxes "neck_2" = ![1, -1, 1] by simp [mirrorAxes]]; symm
    refine T_DH_mirror rfl rfl rfl rfl rfl rfl rfl rfl ?_ ?_ ?_ ?_ ?_ ?_ ?_ ?_ ?_ ?_ ?_ <;> simp [neg_div, cos105, sin105]
  refine .cons ⟨by simp [mirrorName], by simp [mirrorName], by simp [mirrorName], ?_, by simp [mirrorSign, mirrorAxes]⟩ ?_
  · rw [show mirrorAxes "neck_2" = ![1, -1, 1] by simp [mirrorAxes], show mirrorAxes "head" = ![-1, 1, 1] by simp [mirrorAxes]]; symm
    refine T_DH_mirror rfl rfl rfl rfl rfl rfl rfl rfl ?_ ?_ ?_ ?_ ?_ ?_ ?_ ?_ ?_ ?_ ?_ <;> simp [neg_div, cos105, sin105]
  refine .cons ⟨by simp [mirrorName], by simp [mirrorName], by simp [mirrorName], ?_, by simp [mirrorSign, mirrorAxes]⟩ ?_
  · rw [show mirrorAxes "chest" = ![-1, 1, 1] by simp [mirrorAxes], show mirrorAxes "l_shoulder_1" = ![-1, -1, -1] by simp [mirrorAxes]]; symm
    refine T_DH_mirror rfl rfl rfl rfl rfl rfl rfl rfl ?_ ?_ ?_ ?_ ?_ ?_ ?_ ?_ ?_ ?_ ?_ <;> simp [neg_div, cos105, sin105]
  refine .cons ⟨by simp [mirrorName], by simp [mirrorName], by simp [mirrorName], ?_, by simp [mirrorSign, mirrorAxes]⟩ ?_
  · rw [show mirrorAxes "l_shoulder_1" = ![-1, -1, -1] by simp [mirrorAxes], show mirrorAxes "l_shoulder_2" = ![1, 1, -1] by simp [mirrorAxes]]; symm
    refine T_DH_mirror rfl rfl rfl rfl rfl rfl rfl rfl ?_ ?_ ?_ ?_ ?_ ?_ ?_ ?_ ?_ ?_ ?_ <;> simp [neg_div, cos105, sin105]
  refine .cons ⟨by simp [mirrorName], by simp [mirrorName], by simp [mirrorName], ?_, by simp [mirrorSign, mirrorAxes]⟩ ?_
  · rw [show mirrorAxes "l_shoulder_2" = ![1, 1, -1] by simp [mirrorAxes], show mirrorAxes "l_arm" = ![1, 1, -1] by simp [mirrorAxes]]; symm
    refine T_DH_mirror rfl rfl rfl rfl rfl rfl rfl rfl ?_ ?_ ?_ ?_ ?_ ?_ ?_ ?_ ?_ ?_ ?_ <;> simp [neg_div, cos105, sin105]
  refine .cons ⟨by simp [mirrorName], by simp [mirrorName], by simp [mirrorName], ?_, by simp [mirrorSign, mirrorAxes]⟩ ?_
  · rw [show mirrorAxes "l_arm" = ![1, 1, -1] by simp [mirrorAxes], show mirrorAxes "l_elbow_1" = ![-1, -1, -1] by simp [mirrorAxes]]; symm
    refine T_DH_mirror rfl rfl rfl rfl rfl rfl rfl rfl ?_ ?_ ?_ ?_ ?_ ?_ ?_ ?_ ?_ ?_ ?_ <;> simp [neg_div, cos105, sin105]
  refine .cons ⟨by simp [mirrorName], by simp [mirrorName], by simp [mirrorName], ?_, by simp [mirrorSign, mirrorAxes]⟩ ?_
  · rw [show mirrorAxes "l_elbow_1" = ![-1, -1, -1] by simp [mirrorAxes], show mirrorAxes "l_forearm" = ![-1, -1, -1] by simp [mirrorAxes]]; symm
    refine T_DH_mirror rfl rfl rfl rfl rfl rfl rfl rfl ?_ ?_ ?_ ?_ ?_ ?_ ?_ ?_ ?_ ?_ ?_ <;> simp [neg_div, cos105, sin105]
  refine .cons ⟨by simp [mirrorName], by simp [mirrorName], by simp [mirrorName], ?_, by simp [mirrorSign, mirrorAxes]⟩ ?_
  · rw [show mirrorAxes "l_forearm" = ![-1, -1, -1] by simp [mirrorAxes], show mirrorAxes "l_wrist_1" = ![-1, -1, -1] by simp [mirrorAxes]]; symm
    refine T_DH_mirror rfl rfl rfl rfl rfl rfl rfl rfl ?_ ?_ ?_ ?_ ?_ ?_ ?_ ?_ ?_ ?_ ?_ <;> simp [neg_div, cos105, sin105]
  refine .cons ⟨by simp [mirrorName], by simp [mirrorName], by simp [mirrorName], ?_, by simp [mirrorSign, mirrorAxes]⟩ ?_
  · rw [show mirrorAxes "l_wrist_1" = ![-1, -1, -1] by simp [mirrorAxes], show mirrorAxes "l_hand" = ![-1, -1, -1] by simp [mirrorAxes]]; symm
    refine T_DH_mirror rfl rfl rfl rfl rfl rfl rfl rfl ?_ ?_ ?_ ?_ ?_ ?_ ?_ ?_ ?_ ?_ ?_ <;> simp [neg_div, cos105, sin105]
  refine .cons ⟨by simp [mirrorName], by simp [mirrorName], by simp [mirrorName], ?_, by simp [mirrorSign, mirrorAxes]⟩ ?_
  · rw [show mirrorAxes "chest" = ![-1, 1, 1] by simp [mirrorAxes], show mirrorAxes "r_shoulder_1" = ![-1, -1, -1] by simp [mirrorAxes]]; symm
    refine T_DH_mirror rfl rfl rfl rfl rfl rfl rfl rfl ?_ ?_ ?_ ?_ ?_ ?_ ?_ ?_ ?_ ?_ ?_ <;> simp [neg_div, cos105, sin105]
  refine .cons ⟨by simp [mirrorName], by simp [mirrorName], by simp [mirrorName], ?_, by simp [mirrorSign, mirrorAxes]⟩ ?_
  · rw [show mirrorAxes "r_shoulder_1" = ![-1, -1, -1] by simp [mirrorAxes], show mirrorAxes "r_shoulder_2" = ![1, 1, -1] by simp [mirrorAxes]]; symm
    refine T_DH_mirror rfl rfl rfl rfl rfl rfl rfl rfl ?_ ?_ ?_ ?_ ?_ ?_ ?_ ?_ ?_ ?_ ?_ <;> simp [neg_div, cos105, sin105]
  refine .cons ⟨by simp [mirrorName], by simp [mirrorName], by simp [mirrorName], ?_, by simp [mirrorSign, mirrorAxes]⟩ ?_
  · rw [show mirrorAxes "r_shoulder_2" = ![1, 1, -1] by simp [mirrorAxes], show mirrorAxes "r_arm" = ![1, 1, -1] by simp [mirrorAxes]]; symm
    refine T_DH_mirror rfl rfl rfl rfl rfl rfl rfl rfl ?_ ?_ ?_ ?_ ?_ ?_ ?_ ?_ ?_ ?_ ?_ <;> simp [neg_div, cos105, sin105]
  refine .cons ⟨by simp [mirrorName], by simp [mirrorName], by simp [mirrorName], ?_, by simp [mirrorSign, mirrorAxes]⟩ ?_
  · rw [show mirrorAxes "r_arm" = ![1, 1, -1] by simp [mirrorAxes], show mirrorAxes "r_elbow_1" = ![-1, -1, -1] by simp [mirrorAxes]]; symm
    refine T_DH_mirror rfl rfl rfl rfl rfl rfl rfl rfl ?_ ?_ ?_ ?_ ?_ ?_ ?_ ?_ ?_ ?_ ?_ <;> simp [neg_div, cos105, sin105]
  refine .cons ⟨by simp [mirrorName], by simp [mirrorName], by simp [mirrorName], ?_, by simp [mirrorSign, mirrorAxes]⟩ ?_
  · rw [show mirrorAxes "r_elbow_1" = ![-1, -1, -1] by simp [mirrorAxes], show mirrorAxes "r_forearm" = ![-1, -1, -1] by simp [mirrorAxes]]; symm
    refine T_DH_mirror rfl rfl rfl rfl rfl rfl rfl rfl ?_ ?_ ?_ ?_ ?_ ?_ ?_ ?_ ?_ ?_ ?_ <;> simp [neg_div, cos105, sin105]
  refine .cons ⟨by simp [mirrorName], by simp [mirrorName], by simp [mirrorName], ?_, by simp [mirrorSign, mirrorAxes]⟩ ?_
  · rw [show mirrorAxes "r_forearm" = ![-1, -1, -1] by simp [mirrorAxes], show mirrorAxes "r_wrist_1" = ![-1, -1, -1] by simp [mirrorAxes]]; symm
    refine T_DH_mirror rfl rfl rfl rfl rfl rfl rfl rfl ?_ ?_ ?_ ?_ ?_ ?_ ?_ ?_ ?_ ?_ ?_ <;> simp [neg_div, cos105, sin105]
  refine .cons ⟨by simp [mirrorName], by simp [mirrorName], by simp [mirrorName], ?_, by simp [mirrorSign, mirrorAxes]⟩ ?_
  · rw [show mirrorAxes "r_wrist_1" = ![-1, -1, -1] by simp [mirrorAxes], show mirrorAxes "r_hand" = ![-1, -1, -1] by simp [mirrorAxes]]; symm
    refine T_DH_mirror rfl rfl rfl rfl rfl rfl rfl rfl ?_ ?_ ?_ ?_ ?_ ?_ ?_ ?_ ?_ ?_ ?_ <;> simp [neg_div, cos105, sin105]
  refine .cons ⟨by simp [mirrorName], by simp [mirrorName], by simp [mirrorName], ?_, by simp [mirrorSign, mirrorAxes]⟩ ?_
  · rw [show mirrorAxes "waist" = ![1, -1, 1] by simp [mirrorAxes], show mirrorAxes "l_hip_1" = ![1, 1, -1] by simp [mirrorAxes]]
    ext i j; fin_cases i <;> fin_cases j <;> simp [mirrorH, mkH, transl, rotx, roty, rotz, Matrix.mul_apply, Fin.sum_univ_four, Matrix.diagonal, neg_div]
  refine .cons ⟨by simp [mirrorName], by simp [mirrorName], by simp [mirrorName], ?_, by simp [mirrorSign, mirrorAxes]⟩ ?_
  · rw [show mirrorAxes "l_hip_1" = ![1, 1, -1] by simp [mirrorAxes], show mirrorAxes "l_hip_2" = ![1, 1, -1] by simp [mirrorAxes]]; symm
    refine T_DH_mirror rfl rfl rfl rfl rfl rfl rfl rfl ?_ ?_ ?_ ?_ ?_ ?_ ?_ ?_ ?_ ?_ ?_ <;> simp [neg_div, cos105, sin105]
  refine .cons ⟨by simp [mirrorName], by simp [mirrorName], by simp [mirrorName], ?_, by simp [mirrorSign, mirrorAxes]⟩ ?_
  · rw [show mirrorAxes "l_hip_2" = ![1, 1, -1] by simp [mirrorAxes], show mirrorAxes "l_thigh" = ![1, 1, -1] by simp [mirrorAxes]]; symm
    refine T_DH_mirror rfl rfl rfl rfl rfl rfl rfl rfl ?_ ?_ ?_ ?_ ?_ ?_ ?_ ?_ ?_ ?_ ?_ <;> simp [neg_div, cos105, sin105]
  refine .cons ⟨by simp [mirrorName], by simp [mirrorName], by simp [mirrorName], ?_, by simp [mirrorSign, mirrorAxes]⟩ ?_
  · rw [show mirrorAxes "l_thigh" = ![1, 1, -1] by simp [mirrorAxes], show mirrorAxes "l_shank" = ![1, 1, -1] by simp [mirrorAxes]]; symm
    refine T_DH_mirror rfl rfl rfl rfl rfl rfl rfl rfl ?_ ?_ ?_ ?_ ?_ ?_ ?_ ?_ ?_ ?_ ?_ <;> simp [neg_div, cos105, sin105]
  refine .cons ⟨by simp [mirrorName], by simp [mirrorName], by simp [mirrorName], ?_, by simp [mirrorSign, mirrorAxes]⟩ ?_
  · rw [show mirrorAxes "l_shank" = ![1, 1, -1] by simp [mirrorAxes], show mirrorAxes "l_ankle_1" = ![1, 1, -1] by simp [mirrorAxes]]; symm
    refine T_DH_mirror rfl rfl rfl rfl rfl rfl rfl rfl ?_ ?_ ?_ ?_ ?_ ?_ ?_ ?_ ?_ ?_ ?_ <;> simp [neg_div, cos105, sin105]
  refine .cons ⟨by simp [mirrorName], by simp [mirrorName], by simp [mirrorName], ?_, by simp [mirrorSign, mirrorAxes]⟩ ?_
  · rw [show mirrorAxes "l_ankle_1" = ![1, 1, -1] by simp [mirrorAxes], show mirrorAxes "l_foot" = ![1, 1, -1] by simp [mirrorAxes]]; symm
    refine T_DH_mirror rfl rfl rfl rfl rfl rfl rfl rfl ?_ ?_ ?_ ?_ ?_ ?_ ?_ ?_ ?_ ?_ ?_ <;> simp [neg_div, cos105, sin105]
  refine .cons ⟨by simp [mirrorName], by simp [mirrorName], by simp [mirrorName], ?_, by simp [mirrorSign, mirrorAxes]⟩ ?_
  · rw [show mirrorAxes "waist" = ![1, -1, 1] by simp [mirrorAxes], show mirrorAxes "r_hip_1" = ![1, 1, -1] by simp [mirrorAxes]]
    ext i j; fin_cases i <;> fin_cases j <;> simp [mirrorH, mkH, transl, rotx, roty, rotz, Matrix.mul_apply, Fin.sum_univ_four, Matrix.diagonal, neg_div]
  refine .cons ⟨by simp [mirrorName], by simp [mirrorName], by simp [mirrorName], ?_, by simp [mirrorSign, mirrorAxes]⟩ ?_
  · rw [show mirrorAxes "r_hip_1" = ![1, 1, -1] by simp [mirrorAxes], show mirrorAxes "r_hip_2" = ![1, 1, -1] by simp [mirrorAxes]]; symm
    refine T_DH_mirror rfl rfl rfl rfl rfl rfl rfl rfl ?_ ?_ ?_ ?_ ?_ ?_ ?_ ?_ ?_ ?_ ?_ <;> simp [neg_div, cos105, sin105]
  refine .cons ⟨by simp [mirrorName], by simp [mirrorName], by simp [mirrorName], ?_, by simp [mirrorSign, mirrorAxes]⟩ ?_
  · rw [show mirrorAxes "r_hip_2" = ![1, 1, -1] by simp [mirrorAxes], show mirrorAxes "r_thigh" = ![1, 1, -1] by simp [mirrorAxes]]; symm
    refine T_DH_mirror rfl rfl rfl rfl rfl rfl rfl rfl ?_ ?_ ?_ ?_ ?_ ?_ ?_ ?_ ?_ ?_ ?_ <;> simp [neg_div, cos105, sin105]
  refine .cons ⟨by simp [mirrorName], by simp [mirrorName], by simp [mirrorName], ?_, by simp [mirrorSign, mirrorAxes]⟩ ?_
  · rw [show mirrorAxes "r_thigh" = ![1, 1, -1] by simp [mirrorAxes], show mirrorAxes "r_shank" = ![1, 1, -1] by simp [mirrorAxes]]; symm
    refine T_DH_mirror rfl rfl rfl rfl rfl rfl rfl rfl ?_ ?_ ?_ ?_ ?_ ?_ ?_ ?_ ?_ ?_ ?_ <;> simp [neg_div, cos105, sin105]
  refine .cons ⟨by simp [mirrorName], by simp [mirrorName], by simp [mirrorName], ?_, by simp [mirrorSign, mirrorAxes]⟩ ?_
  · rw [show mirrorAxes "r_shank" = ![1, 1, -1] by simp [mirrorAxes], show mirrorAxes "r_ankle_1" = ![1, 1, -1] by simp [mirrorAxes]]; symm
    refine T_DH_mirror rfl rfl rfl rfl rfl rfl rfl rfl ?_ ?_ ?_ ?_ ?_ ?_ ?_ ?_ ?_ ?_ ?_ <;> simp [neg_div, cos105, sin105]
  refine .cons ⟨by simp [mirrorName], by simp [mirrorName], by simp [mirrorName], ?_, by simp [mirrorSign, mirrorAxes]⟩ ?_
  · rw [show mirrorAxes "r_ankle_1" = ![1, 1, -1] by simp [mirrorAxes], show mirrorAxes "r_foot" = ![1, 1, -1] by simp [mirrorAxes]]; symm
    refine T_DH_mirror rfl rfl rfl rfl rfl rfl rfl rfl ?_ ?_ ?_ ?_ ?_ ?_ ?_ ?_ ?_ ?_ ?_ <;> simp [neg_div, cos105, sin105]
  exact .nil

lemma icub_mirrorMem : ∀ y ∈ icubMirrorJoints, y ∈ icubJoints := by
  unfold icubMirrorJoints
  refine List.forall_mem_cons.mpr ⟨List.getElem_mem (l := icubJoints) (n := 0) (by simp [icubJoints]), ?_⟩
  refine List.forall_mem_cons.mpr ⟨List.getElem_mem (l := icubJoints) (n := 1) (by simp [icubJoints]), ?_⟩
  refine List.forall_mem_cons.mpr ⟨List.getElem_mem (l := icubJoints) (n := 2) (by simp [icubJoints]), ?_⟩
  refine List.forall_mem_cons.mpr ⟨List.getElem_mem (l := icubJoints) (n := 3) (by simp [icubJoints]), ?_⟩
  refine List.forall_mem_cons.mpr ⟨List.getElem_mem (l := icubJoints) (n := 4) (by simp [icubJoints]), ?_⟩
  refine List.forall_mem_cons.mpr ⟨List.getElem_mem (l := icubJoints) (n := 5) (by simp [icubJoints]), ?_⟩
  refine List.forall_mem_cons.mpr ⟨List.getElem_mem (l := icubJoints) (n := 13) (by simp [icubJoints]), ?_⟩
  refine List.forall_mem_cons.mpr ⟨List.getElem_mem (l := icubJoints) (n := 14) (by simp [icubJoints]), ?_⟩
  refine List.forall_mem_cons.mpr ⟨List.getElem_mem (l := icubJoints) (n := 15) (by simp [icubJoints]), ?_⟩
  refine List.forall_mem_cons.mpr ⟨List.getElem_mem (l := icubJoints) (n := 16) (by simp [icubJoints]), ?_⟩
  refine List.forall_mem_cons.mpr ⟨List.getElem_mem (l := icubJoints) (n := 17) (by simp [icubJoints]), ?_⟩
  refine List.forall_mem_cons.mpr ⟨List.getElem_mem (l := icubJoints) (n := 18) (by simp [icubJoints]), ?_⟩
  refine List.forall_mem_cons.mpr ⟨List.getElem_mem (l := icubJoints) (n := 19) (by simp [icubJoints]), ?_⟩
  refine List.forall_mem_cons.mpr ⟨List.getElem_mem (l := icubJoints) (n := 6) (by simp [icubJoints]), ?_⟩
  refine List.forall_mem_cons.mpr ⟨List.getElem_mem (l := icubJoints) (n := 7) (by simp [icubJoints]), ?_⟩
  refine List.forall_mem_cons.mpr ⟨List.getElem_mem (l := icubJoints) (n := 8) (by simp [icubJoints]), ?_⟩
  refine List.forall_mem_cons.mpr ⟨List.getElem_mem (l := icubJoints) (n := 9) (by simp [icubJoints]), ?_⟩
  refine List.forall_mem_cons.mpr ⟨List.getElem_mem (l := icubJoints) (n := 10) (by simp [icubJoints]), ?_⟩
  refine List.forall_mem_cons.mpr ⟨List.getElem_mem (l := icubJoints) (n := 11) (by simp [icubJoints]), ?_⟩
  refine List.forall_mem_cons.mpr ⟨List.getElem_mem (l := icubJoints) (n := 12) (by simp [icubJoints]), ?_⟩
  refine List.forall_mem_cons.mpr ⟨List.getElem_mem (l := icubJoints) (n := 26) (by simp [icubJoints]), ?_⟩
  refine List.forall_mem_cons.mpr ⟨List.getElem_mem (l := icubJoints) (n := 27) (by simp [icubJoints]), ?_⟩
  refine List.forall_mem_cons.mpr ⟨List.getElem_mem (l := icubJoints) (n := 28) (by simp [icubJoints]), ?_⟩
  refine List.forall_mem_cons.mpr ⟨List.getElem_mem (l := icubJoints) (n := 29) (by simp [icubJoints]), ?_⟩
  refine List.forall_mem_cons.mpr ⟨List.getElem_mem (l := icubJoints) (n := 30) (by simp [icubJoints]), ?_⟩
  refine List.forall_mem_cons.mpr ⟨List.getElem_mem (l := icubJoints) (n := 31) (by simp [icubJoints]), ?_⟩
  refine List.forall_mem_cons.mpr ⟨List.getElem_mem (l := icubJoints) (n := 20) (by simp [icubJoints]), ?_⟩
  refine List.forall_mem_cons.mpr ⟨List.getElem_mem (l := icubJoints) (n := 21) (by simp [icubJoints]), ?_⟩
  refine List.forall_mem_cons.mpr ⟨List.getElem_mem (l := icubJoints) (n := 22) (by simp [icubJoints]), ?_⟩
  refine List.forall_mem_cons.mpr ⟨List.getElem_mem (l := icubJoints) (n := 23) (by simp [icubJoints]), ?_⟩
  refine List.forall_mem_cons.mpr ⟨List.getElem_mem (l := icubJoints) (n := 24) (by simp [icubJoints]), ?_⟩
  refine List.forall_mem_cons.mpr ⟨List.getElem_mem (l := icubJoints) (n := 25) (by simp [icubJoints]), ?_⟩
  exact fun x hx => absurd hx (by simp)

lemma icub_mirrorRows : ∀ x ∈ icubJoints, ∃ y ∈ icubJoints, IsMirrorRow x y := by
  intro x hx
  obtain ⟨y, hy, h⟩ := forall₂_left icub_mirrorRows_aux x hx
  exact ⟨y, icub_mirrorMem y hy, h⟩

end Arboris
