import Verif.Props.IcubMirror

/-!
# C97: the masses and the contact shapes of the iCub robot, seen in a mirror
-/

namespace Arboris
open Graph Spec Build Matrix

/-- what the reflection of signs `d` does to a twist or a wrench: linear velocities are reflected; angular velocities, which are axial vectors, are
reflected and reversed (for a reflection the product of the signs is `-1`) -/
noncomputable def Spec.mirror6 (d : Vec3) : Mat6 := blk ((d 0 * d 1 * d 2) • diagonal d) 0 0 (diagonal d)

/-- a part and its mirror image -/
structure PartMirror (d : Vec3) (p p' : Dims × ℝ × Mat4) : Prop where
  mass : p'.2.1 = p.2.1
  pos : pos p'.2.2 = diagonal d *ᵥ pos p.2.2
  inertia : rot p'.2.2 * solidInertia p'.1 p'.2.1 * (rot p'.2.2)ᵀ = diagonal d * (rot p.2.2 * solidInertia p.1 p.2.1 * (rot p.2.2)ᵀ) * diagonal d

lemma diag_self {d : Vec3} (h : Signs d) : (diagonal d : Mat3) * diagonal d = 1 := by
  rw [Matrix.diagonal_mul_diagonal, show (fun i => d i * d i) = fun _ => 1 from funext h, Matrix.diagonal_one]

lemma skew_mirror {d : Vec3} (h : Signs d) (c : Vec3) : skew (diagonal d *ᵥ c) = (d 0 * d 1 * d 2) • (diagonal d * skew c * diagonal d) := by
  have h0 := h 0
  have h1 := h 1
  have h2 := h 2
  ext i j; fin_cases i <;> fin_cases j <;>
    simp [skew, Matrix.mul_apply, Fin.sum_univ_three, Matrix.diagonal, Matrix.mulVec, dotProduct] <;> grind

lemma signs_det {d : Vec3} (h : Signs d) : (d 0 * d 1 * d 2) * (d 0 * d 1 * d 2) = 1 := by
  have h0 := h 0
  have h1 := h 1
  have h2 := h 2
  grind

lemma skew_mirror_sq {d : Vec3} (h : Signs d) (c : Vec3) :
    skew (diagonal d *ᵥ c) * skew (diagonal d *ᵥ c) = diagonal d * (skew c * skew c) * diagonal d := by
  rw [skew_mirror h, Matrix.smul_mul, Matrix.mul_smul, smul_smul, signs_det h, one_smul]
  calc _ = diagonal d * skew c * (diagonal d * diagonal d) * skew c * diagonal d := by simp only [Matrix.mul_assoc]
    _ = _ := by rw [diag_self h]; simp only [Matrix.mul_one, Matrix.mul_assoc]

lemma assembly_eq {M : Mat6} {parts : List (Dims × ℝ × Mat4)} (h : IsAssembly M parts) :
    M = blk (partsInertia parts) (skew (partsMoment parts)) (-skew (partsMoment parts)) (partsMass parts • 1) := by
  obtain ⟨c, hc, e⟩ := h
  rw [hc.eq, ← e]
  have : skew (partsMass parts • c) = partsMass parts • skew c := by
    ext i j; fin_cases i <;> fin_cases j <;> simp [skew]
  rw [this]

lemma parts_mirror {d : Vec3} (hd : Signs d) {l l' : List (Dims × ℝ × Mat4)} (h : List.Forall₂ (PartMirror d) l l') :
    partsMass l' = partsMass l ∧ partsMoment l' = diagonal d *ᵥ partsMoment l ∧ partsInertia l' = diagonal d * partsInertia l * diagonal d := by
  induction h with
  | nil => simp [partsMass, partsMoment, partsInertia]
  | @cons p p' l l' hp hl ih =>
    obtain ⟨i1, i2, i3⟩ := ih
    simp only [partsMass, partsMoment, partsInertia, List.map_cons, List.sum_cons] at i1 i2 i3 ⊢
    refine ⟨by rw [i1, hp.mass], by rw [i2, hp.mass, hp.pos, Matrix.mulVec_add, Matrix.mulVec_smul], ?_⟩
    rw [i3, hp.inertia, hp.pos, skew_mirror_sq hd, hp.mass, Matrix.mul_add, Matrix.add_mul, Matrix.mul_sub, Matrix.sub_mul]
    simp only [Matrix.mul_smul, Matrix.smul_mul]

lemma parts_perm {l l' : List (Dims × ℝ × Mat4)} (h : l.Perm l') :
    partsMass l = partsMass l' ∧ partsMoment l = partsMoment l' ∧ partsInertia l = partsInertia l' :=
  ⟨(h.map _).sum_eq, (h.map _).sum_eq, (h.map _).sum_eq⟩

lemma assembly_mirror {d : Vec3} (hd : Signs d) {l l' l'' : List (Dims × ℝ × Mat4)} (h : List.Forall₂ (PartMirror d) l l'') (hp : l''.Perm l')
    {M M' : Mat6} (hM : IsAssembly M l) (hM' : IsAssembly M' l') : M' = mirror6 d * M * mirror6 d := by
  obtain ⟨e1, e2, e3⟩ := parts_mirror hd h
  obtain ⟨f1, f2, f3⟩ := parts_perm hp
  rw [assembly_eq hM, assembly_eq hM', ← f1, ← f2, ← f3, e1, e2, e3, mirror6, blk_mul, blk_mul, skew_mirror hd]
  congr 1
  · simp [smul_smul, signs_det hd]
  · simp [Matrix.mul_assoc]
  · simp [Matrix.mul_assoc]
  · simp [diag_self hd]

lemma solid_diag (dims : Dims) (m : ℝ) : ∃ v, solidInertia dims m = diagonal v := by
  rcases dims with _ | ⟨x, _ | ⟨y, _ | ⟨z, _ | ⟨t, l⟩⟩⟩⟩
  all_goals first | exact ⟨_, rfl⟩ | exact ⟨0, by simp [solidInertia]⟩

lemma part_mkH {d : Vec3} (hd : Signs d) (dims : Dims) (m : ℝ) {R R' : Mat3} {p p' : Vec3} (hp : ∀ i, p' i = d i * p i)
    (hR : R' = diagonal d * R * diagonal d) : PartMirror d (dims, m, mkH R p) (dims, m, mkH R' p') := by
  obtain ⟨v, hv⟩ := solid_diag dims m
  have hD : diagonal d * solidInertia dims m * diagonal d = solidInertia dims m := by
    rw [hv, Matrix.diagonal_mul_diagonal, Matrix.diagonal_mul_diagonal]
    congr 1; funext i; have := hd i; grind
  refine ⟨rfl, ?_, ?_⟩
  · simp only [pos_mkH]
    ext i; rw [hp, Matrix.mulVec_diagonal]
  simp only [rot_mkH, hR, Matrix.transpose_mul, Matrix.diagonal_transpose]
  calc _ = diagonal d * R * (diagonal d * solidInertia dims m * diagonal d) * Rᵀ * diagonal d := by simp only [Matrix.mul_assoc]
    _ = _ := by rw [hD]; simp only [Matrix.mul_assoc]

lemma part_one {d : Vec3} (hd : Signs d) (dims : Dims) (m : ℝ) : PartMirror d (dims, m, 1) (dims, m, 1) := by
  have := part_mkH hd dims m (R := 1) (R' := 1) (p := 0) (p' := 0) (by simp) (by simp [diag_self hd])
  rwa [mkH_one] at this

lemma part_transl {s0 s1 s2 : ℝ} (hd : Signs ![s0, s1, s2]) (dims : Dims) (m : ℝ) {a b c a' b' c' : ℝ} (h0 : a' = s0 * a) (h1 : b' = s1 * b) (h2 : c' = s2 * c) :
    PartMirror ![s0, s1, s2] (dims, m, transl a b c) (dims, m, transl a' b' c') := by
  rw [transl_eq, transl_eq]
  exact part_mkH hd dims m (by intro i; fin_cases i <;> assumption) (by simp [diag_self hd])

lemma part_rotz {s0 s1 s2 : ℝ} (hd : Signs ![s0, s1, s2]) (dims : Dims) (m : ℝ) {a b c a' b' c' t t' : ℝ} (h0 : a' = s0 * a) (h1 : b' = s1 * b) (h2 : c' = s2 * c)
    (ht : t' = s0 * s1 * t) : PartMirror ![s0, s1, s2] (dims, m, transl a b c * rotz t) (dims, m, transl a' b' c' * rotz t') := by
  have e := mirrorH_rotz hd t
  simp only [Matrix.cons_val_zero, Matrix.cons_val_one] at e
  rw [← ht, rotz_eq, rotz_eq, mirrorH, mkH_mul, mkH_mul] at e
  have e' := congrArg rot e
  rw [rot_mkH, rot_mkH] at e'
  rw [transl_eq, transl_eq, rotz_eq, rotz_eq, mkH_mul, mkH_mul]
  refine part_mkH hd dims m ?_ ?_
  · intro i; fin_cases i <;> simpa
  · rw [Matrix.one_mul, Matrix.one_mul, Matrix.mul_assoc, ← e', ← Matrix.mul_assoc, diag_self hd, Matrix.one_mul]

/-- a cylinder across the axis `z` -/
lemma part_across (l r m : ℝ) {a b c c' : ℝ} (h : c' = -c) (K : Mat4) (hK : K = roty (Real.pi / 2) ∨ K = rotx (Real.pi / 2)) :
    PartMirror ![1, 1, -1] ([l, r], m, transl a b c * K) ([l, r], m, transl a b c' * K) := by
  subst h
  obtain ⟨R, rfl, hR⟩ : ∃ R, K = mkH R 0 ∧ (R = Ry (Real.pi / 2) ∨ R = Rx (Real.pi / 2)) := by
    rcases hK with rfl | rfl
    · exact ⟨_, roty_eq _, .inl rfl⟩
    · exact ⟨_, rotx_eq _, .inr rfl⟩
  rw [transl_eq, transl_eq, mkH_mul, mkH_mul]
  refine ⟨rfl, ?_, ?_⟩
  · simp only [pos_mkH, Matrix.mulVec_zero, zero_add]
    ext i; fin_cases i <;> simp [Matrix.mulVec, dotProduct, Matrix.diagonal, Fin.sum_univ_three]
  · simp only [rot_mkH, Matrix.one_mul, solidInertia]
    have hd : ∀ a b c : ℝ, (diagonal ![a, b, c] : Mat3) = !![a, 0, 0; 0, b, 0; 0, 0, c] := by
      intro a b c; ext i j; fin_cases i <;> fin_cases j <;> simp [Matrix.diagonal]
    have ht : ∀ a b c d e f g h i : ℝ, (!![a, b, c; d, e, f; g, h, i] : Mat3)ᵀ = !![a, d, g; b, e, h; c, f, i] := by
      intro a b c d e f g h i; ext i j; fin_cases i <;> fin_cases j <;> simp
    rcases hR with rfl | rfl <;> simp only [hd, Rx, Ry, Real.cos_pi_div_two, Real.sin_pi_div_two, ht] <;> ext i j <;> fin_cases i <;> fin_cases j <;>
      simp [Matrix.mul_apply, Fin.sum_univ_three]

lemma signs_of {a b c : ℝ} (h0 : a * a = 1) (h1 : b * b = 1) (h2 : c * c = 1) : Signs ![a, b, c] := by
  intro i; fin_cases i <;> assumption

/-- the parts of a row -/
macro "mirror_parts" : tactic => `(tactic| (
  with_reducible repeat' first
    | exact List.Forall₂.nil
    | refine List.Forall₂.cons ?_ ?_
    | exact part_one (signs_of (by norm_num) (by norm_num) (by norm_num)) _ _
    | refine part_transl (signs_of (by norm_num) (by norm_num) (by norm_num)) _ _ (by norm_num) (by norm_num) (by norm_num)
    | refine part_rotz (signs_of (by norm_num) (by norm_num) (by norm_num)) _ _ (by norm_num) (by norm_num) (by norm_num) (by norm_num [neg_div])
    | exact part_across _ _ _ (by norm_num) _ (.inl rfl)
    | exact part_across _ _ _ (by norm_num) _ (.inr rfl)))

/-- the table of the bodies, each row replaced by the row of the body of the other side (the two halves of the chest exchanged) -/
noncomputable def icubMirrorBodies : List (String × List (Dims × ℝ × Mat4)) :=
  [("waist", [([0.032, 0.0235, 0.057215], 0.20297, transl 0.006 0 (-0.1))]),
   ("lap_belt_1", [([0.0315, 0.0635, 0.088], 3.623, transl (-0.0383) (-0.0173) 0 * rotz (-Real.pi / 4))]),
   ("lap_belt_2", [([0.097, 0.031], 0.91179, transl 0 0 0.008)]),
   ("chest", [([0.0274, 0.04], 0.45165, transl 0 0 (-0.0447)), ([0.036, 0.0545, 0.059], 1.8388, transl 0.03 0 (-0.1174) * rotz (-Real.pi / 12)), ([0.036, 0.0545, 0.059], 1.8388, transl (-0.03) 0 (-0.1174) * rotz (Real.pi / 12))]),
   ("neck_1", [([0.077, 0.015], 0.28252, 1)]),
   ("neck_2", [([0.033, 0.015], 0.1, 1)]),
   ("head", [([0.08], 0.78, transl 0 0 0.0825)]),
   ("r_shoulder_1", [([0.011, 0.031], 0.48278, transl 0 0 (-0.07224))]),
   ("r_shoulder_2", [([0.059, 0.03], 0.20779, 1)]),
   ("r_arm", [([0.156, 0.026], 1.1584, transl 0 0 (-0.078))]),
   ("r_elbow_1", [([0.01], 0.050798, 1)]),
   ("r_forearm", [([0.14, 0.02], 0.48774, transl 0 0 (-0.07))]),
   ("r_wrist_1", [([0.04, 0.01], 0.05, 1)]),
   ("r_hand", [([0.0345, 0.0325, 0.012], 0.19099, transl (-0.0345) 0 0)]),
   ("l_shoulder_1", [([0.011, 0.031], 0.48278, transl 0 0 0.07224)]),
   ("l_shoulder_2", [([0.059, 0.03], 0.20779, 1)]),
   ("l_arm", [([0.156, 0.026], 1.1584, transl 0 0 0.078)]),
   ("l_elbow_1", [([0.01], 0.050798, 1)]),
   ("l_forearm", [([0.14, 0.02], 0.48774, transl 0 0 0.07)]),
   ("l_wrist_1", [([0.04, 0.01], 0.05, 1)]),
   ("l_hand", [([0.0345, 0.0325, 0.012], 0.19099, transl 0.0345 0 0)]),
   ("r_hip_1", [([0.013, 0.038], 0.32708, transl 0 0 (-0.0375))]),
   ("r_hip_2", [([0.075, 0.031], 1.5304, 1)]),
   ("r_thigh", [([0.224, 0.034], 1.5304, transl 0 0 0.112), ([0.077, 0.0315], 0.79206, transl 0 0 0.224 * roty (Real.pi / 2))]),
   ("r_shank", [([0.213, 0.0315], 0.95262, transl 0 (-0.1065) 0 * rotx (Real.pi / 2))]),
   ("r_ankle_1", [([0.063, 0.0245], 0.14801, 1)]),
   ("r_foot", [([0.095, 0.027], 0.59285, transl 0 0 (-0.0125)), ([0.002, 0.027, 0.065], 0.08185, transl (-0.039) 0 (-0.034))]),
   ("l_hip_1", [([0.013, 0.038], 0.32708, transl 0 0 0.0375)]),
   ("l_hip_2", [([0.075, 0.031], 1.5304, 1)]),
   ("l_thigh", [([0.224, 0.034], 1.5304, transl 0 0 (-0.112)), ([0.077, 0.0315], 0.79206, transl 0 0 (-0.224) * roty (Real.pi / 2))]),
   ("l_shank", [([0.213, 0.0315], 0.95262, transl 0 (-0.1065) 0 * rotx (Real.pi / 2))]),
   ("l_ankle_1", [([0.063, 0.0245], 0.14801, 1)]),
   ("l_foot", [([0.095, 0.027], 0.59285, transl 0 0 0.0125), ([0.002, 0.027, 0.065], 0.08185, transl (-0.039) 0 0.034)])]

/-- `y` is the row of the mirror image of the body of the row `x` -/
def IsMirrorBody (x y : String × List (Dims × ℝ × Mat4)) : Prop := y.1 = mirrorName x.1 ∧ List.Forall₂ (PartMirror (mirrorAxes x.1)) x.2 y.2

set_option maxHeartbeats 4000000 in
lemma icub_mirrorBodies_aux : List.Forall₂ IsMirrorBody icubBodies icubMirrorBodies := by
  unfold icubBodies icubMirrorBodies
  refine .cons ⟨by simp [mirrorName], ?_⟩ ?_
  · rw [show mirrorAxes "waist" = ![1, -1, 1] by simp [mirrorAxes]]
    mirror_parts
  refine .cons ⟨by simp [mirrorName], ?_⟩ ?_
  · rw [show mirrorAxes "lap_belt_1" = ![1, 1, -1] by simp [mirrorAxes]]
    mirror_parts
  refine .cons ⟨by simp [mirrorName], ?_⟩ ?_
  · rw [show mirrorAxes "lap_belt_2" = ![1, -1, 1] by simp [mirrorAxes]]
    mirror_parts
  refine .cons ⟨by simp [mirrorName], ?_⟩ ?_
  · rw [show mirrorAxes "chest" = ![-1, 1, 1] by simp [mirrorAxes]]
    mirror_parts
  refine .cons ⟨by simp [mirrorName], ?_⟩ ?_
  · rw [show mirrorAxes "neck_1" = ![1, 1, -1] by simp [mirrorAxes]]
    mirror_parts
  refine .cons ⟨by simp [mirrorName], ?_⟩ ?_
  · rw [show mirrorAxes "neck_2" = ![1, -1, 1] by simp [mirrorAxes]]
    mirror_parts
  refine .cons ⟨by simp [mirrorName], ?_⟩ ?_
  · rw [show mirrorAxes "head" = ![-1, 1, 1] by simp [mirrorAxes]]
    mirror_parts
  refine .cons ⟨by simp [mirrorName], ?_⟩ ?_
  · rw [show mirrorAxes "l_shoulder_1" = ![-1, -1, -1] by simp [mirrorAxes]]
    mirror_parts
  refine .cons ⟨by simp [mirrorName], ?_⟩ ?_
  · rw [show mirrorAxes "l_shoulder_2" = ![1, 1, -1] by simp [mirrorAxes]]
    mirror_parts
  refine .cons ⟨by simp [mirrorName], ?_⟩ ?_
  · rw [show mirrorAxes "l_arm" = ![1, 1, -1] by simp [mirrorAxes]]
    mirror_parts
  refine .cons ⟨by simp [mirrorName], ?_⟩ ?_
  · rw [show mirrorAxes "l_elbow_1" = ![-1, -1, -1] by simp [mirrorAxes]]
    mirror_parts
  refine .cons ⟨by simp [mirrorName], ?_⟩ ?_
  · rw [show mirrorAxes "l_forearm" = ![-1, -1, -1] by simp [mirrorAxes]]
    mirror_parts
  refine .cons ⟨by simp [mirrorName], ?_⟩ ?_
  · rw [show mirrorAxes "l_wrist_1" = ![-1, -1, -1] by simp [mirrorAxes]]
    mirror_parts
  refine .cons ⟨by simp [mirrorName], ?_⟩ ?_
  · rw [show mirrorAxes "l_hand" = ![-1, -1, -1] by simp [mirrorAxes]]
    mirror_parts
  refine .cons ⟨by simp [mirrorName], ?_⟩ ?_
  · rw [show mirrorAxes "r_shoulder_1" = ![-1, -1, -1] by simp [mirrorAxes]]
    mirror_parts
  refine .cons ⟨by simp [mirrorName], ?_⟩ ?_
  · rw [show mirrorAxes "r_shoulder_2" = ![1, 1, -1] by simp [mirrorAxes]]
    mirror_parts
  refine .cons ⟨by simp [mirrorName], ?_⟩ ?_
  · rw [show mirrorAxes "r_arm" = ![1, 1, -1] by simp [mirrorAxes]]
    mirror_parts
  refine .cons ⟨by simp [mirrorName], ?_⟩ ?_
  · rw [show mirrorAxes "r_elbow_1" = ![-1, -1, -1] by simp [mirrorAxes]]
    mirror_parts
  refine .cons ⟨by simp [mirrorName], ?_⟩ ?_
  · rw [show mirrorAxes "r_forearm" = ![-1, -1, -1] by simp [mirrorAxes]]
    mirror_parts
  refine .cons ⟨by simp [mirrorName], ?_⟩ ?_
  · rw [show mirrorAxes "r_wrist_1" = ![-1, -1, -1] by simp [mirrorAxes]]
    mirror_parts
  refine .cons ⟨by simp [mirrorName], ?_⟩ ?_
  · rw [show mirrorAxes "r_hand" = ![-1, -1, -1] by simp [mirrorAxes]]
    mirror_parts
  refine .cons ⟨by simp [mirrorName], ?_⟩ ?_
  · rw [show mirrorAxes "l_hip_1" = ![1, 1, -1] by simp [mirrorAxes]]
    mirror_parts
  refine .cons ⟨by simp [mirrorName], ?_⟩ ?_
  · rw [show mirrorAxes "l_hip_2" = ![1, 1, -1] by simp [mirrorAxes]]
    mirror_parts
  refine .cons ⟨by simp [mirrorName], ?_⟩ ?_
  · rw [show mirrorAxes "l_thigh" = ![1, 1, -1] by simp [mirrorAxes]]
    mirror_parts
  refine .cons ⟨by simp [mirrorName], ?_⟩ ?_
  · rw [show mirrorAxes "l_shank" = ![1, 1, -1] by simp [mirrorAxes]]
    mirror_parts
  refine .cons ⟨by simp [mirrorName], ?_⟩ ?_
  · rw [show mirrorAxes "l_ankle_1" = ![1, 1, -1] by simp [mirrorAxes]]
    mirror_parts
  refine .cons ⟨by simp [mirrorName], ?_⟩ ?_
  · rw [show mirrorAxes "l_foot" = ![1, 1, -1] by simp [mirrorAxes]]
    mirror_parts
  refine .cons ⟨by simp [mirrorName], ?_⟩ ?_
  · rw [show mirrorAxes "r_hip_1" = ![1, 1, -1] by simp [mirrorAxes]]
    mirror_parts
  refine .cons ⟨by simp [mirrorName], ?_⟩ ?_
  · rw [show mirrorAxes "r_hip_2" = ![1, 1, -1] by simp [mirrorAxes]]
    mirror_parts
  refine .cons ⟨by simp [mirrorName], ?_⟩ ?_
  · rw [show mirrorAxes "r_thigh" = ![1, 1, -1] by simp [mirrorAxes]]
    mirror_parts
  refine .cons ⟨by simp [mirrorName], ?_⟩ ?_
  · rw [show mirrorAxes "r_shank" = ![1, 1, -1] by simp [mirrorAxes]]
    mirror_parts
  refine .cons ⟨by simp [mirrorName], ?_⟩ ?_
  · rw [show mirrorAxes "r_ankle_1" = ![1, 1, -1] by simp [mirrorAxes]]
    mirror_parts
  refine .cons ⟨by simp [mirrorName], ?_⟩ ?_
  · rw [show mirrorAxes "r_foot" = ![1, 1, -1] by simp [mirrorAxes]]
    mirror_parts
  exact .nil

/-- each row is a row of the table, up to the order of its parts -/
lemma icub_mirrorBody : ∀ y ∈ icubMirrorBodies, ∃ p', (y.1, p') ∈ icubBodies ∧ y.2.Perm p' := by
  unfold icubMirrorBodies
  refine List.forall_mem_cons.mpr ⟨⟨_, List.getElem_mem (l := icubBodies) (n := 0) (by simp [icubBodies]), by exact (.refl _)⟩, ?_⟩
  refine List.forall_mem_cons.mpr ⟨⟨_, List.getElem_mem (l := icubBodies) (n := 1) (by simp [icubBodies]), by exact (.refl _)⟩, ?_⟩
  refine List.forall_mem_cons.mpr ⟨⟨_, List.getElem_mem (l := icubBodies) (n := 2) (by simp [icubBodies]), by exact (.refl _)⟩, ?_⟩
  refine List.forall_mem_cons.mpr ⟨⟨_, List.getElem_mem (l := icubBodies) (n := 3) (by simp [icubBodies]), by exact (.cons _ (.swap _ _ _))⟩, ?_⟩
  refine List.forall_mem_cons.mpr ⟨⟨_, List.getElem_mem (l := icubBodies) (n := 4) (by simp [icubBodies]), by exact (.refl _)⟩, ?_⟩
  refine List.forall_mem_cons.mpr ⟨⟨_, List.getElem_mem (l := icubBodies) (n := 5) (by simp [icubBodies]), by exact (.refl _)⟩, ?_⟩
  refine List.forall_mem_cons.mpr ⟨⟨_, List.getElem_mem (l := icubBodies) (n := 6) (by simp [icubBodies]), by exact (.refl _)⟩, ?_⟩
  refine List.forall_mem_cons.mpr ⟨⟨_, List.getElem_mem (l := icubBodies) (n := 14) (by simp [icubBodies]), by exact (.refl _)⟩, ?_⟩
  refine List.forall_mem_cons.mpr ⟨⟨_, List.getElem_mem (l := icubBodies) (n := 15) (by simp [icubBodies]), by exact (.refl _)⟩, ?_⟩
  refine List.forall_mem_cons.mpr ⟨⟨_, List.getElem_mem (l := icubBodies) (n := 16) (by simp [icubBodies]), by exact (.refl _)⟩, ?_⟩
  refine List.forall_mem_cons.mpr ⟨⟨_, List.getElem_mem (l := icubBodies) (n := 17) (by simp [icubBodies]), by exact (.refl _)⟩, ?_⟩
  refine List.forall_mem_cons.mpr ⟨⟨_, List.getElem_mem (l := icubBodies) (n := 18) (by simp [icubBodies]), by exact (.refl _)⟩, ?_⟩
  refine List.forall_mem_cons.mpr ⟨⟨_, List.getElem_mem (l := icubBodies) (n := 19) (by simp [icubBodies]), by exact (.refl _)⟩, ?_⟩
  refine List.forall_mem_cons.mpr ⟨⟨_, List.getElem_mem (l := icubBodies) (n := 20) (by simp [icubBodies]), by exact (.refl _)⟩, ?_⟩
  refine List.forall_mem_cons.mpr ⟨⟨_, List.getElem_mem (l := icubBodies) (n := 7) (by simp [icubBodies]), by exact (.refl _)⟩, ?_⟩
  refine List.forall_mem_cons.mpr ⟨⟨_, List.getElem_mem (l := icubBodies) (n := 8) (by simp [icubBodies]), by exact (.refl _)⟩, ?_⟩
  refine List.forall_mem_cons.mpr ⟨⟨_, List.getElem_mem (l := icubBodies) (n := 9) (by simp [icubBodies]), by exact (.refl _)⟩, ?_⟩
  refine List.forall_mem_cons.mpr ⟨⟨_, List.getElem_mem (l := icubBodies) (n := 10) (by simp [icubBodies]), by exact (.refl _)⟩, ?_⟩
  refine List.forall_mem_cons.mpr ⟨⟨_, List.getElem_mem (l := icubBodies) (n := 11) (by simp [icubBodies]), by exact (.refl _)⟩, ?_⟩
  refine List.forall_mem_cons.mpr ⟨⟨_, List.getElem_mem (l := icubBodies) (n := 12) (by simp [icubBodies]), by exact (.refl _)⟩, ?_⟩
  refine List.forall_mem_cons.mpr ⟨⟨_, List.getElem_mem (l := icubBodies) (n := 13) (by simp [icubBodies]), by exact (.refl _)⟩, ?_⟩
  refine List.forall_mem_cons.mpr ⟨⟨_, List.getElem_mem (l := icubBodies) (n := 27) (by simp [icubBodies]), by exact (.refl _)⟩, ?_⟩
  refine List.forall_mem_cons.mpr ⟨⟨_, List.getElem_mem (l := icubBodies) (n := 28) (by simp [icubBodies]), by exact (.refl _)⟩, ?_⟩
  refine List.forall_mem_cons.mpr ⟨⟨_, List.getElem_mem (l := icubBodies) (n := 29) (by simp [icubBodies]), by exact (.refl _)⟩, ?_⟩
  refine List.forall_mem_cons.mpr ⟨⟨_, List.getElem_mem (l := icubBodies) (n := 30) (by simp [icubBodies]), by exact (.refl _)⟩, ?_⟩
  refine List.forall_mem_cons.mpr ⟨⟨_, List.getElem_mem (l := icubBodies) (n := 31) (by simp [icubBodies]), by exact (.refl _)⟩, ?_⟩
  refine List.forall_mem_cons.mpr ⟨⟨_, List.getElem_mem (l := icubBodies) (n := 32) (by simp [icubBodies]), by exact (.refl _)⟩, ?_⟩
  refine List.forall_mem_cons.mpr ⟨⟨_, List.getElem_mem (l := icubBodies) (n := 21) (by simp [icubBodies]), by exact (.refl _)⟩, ?_⟩
  refine List.forall_mem_cons.mpr ⟨⟨_, List.getElem_mem (l := icubBodies) (n := 22) (by simp [icubBodies]), by exact (.refl _)⟩, ?_⟩
  refine List.forall_mem_cons.mpr ⟨⟨_, List.getElem_mem (l := icubBodies) (n := 23) (by simp [icubBodies]), by exact (.refl _)⟩, ?_⟩
  refine List.forall_mem_cons.mpr ⟨⟨_, List.getElem_mem (l := icubBodies) (n := 24) (by simp [icubBodies]), by exact (.refl _)⟩, ?_⟩
  refine List.forall_mem_cons.mpr ⟨⟨_, List.getElem_mem (l := icubBodies) (n := 25) (by simp [icubBodies]), by exact (.refl _)⟩, ?_⟩
  refine List.forall_mem_cons.mpr ⟨⟨_, List.getElem_mem (l := icubBodies) (n := 26) (by simp [icubBodies]), by exact (.refl _)⟩, ?_⟩
  exact fun x hx => absurd hx (by simp)

/-- the row of the other side, up to the order of its parts -/
lemma icub_mirrorBodies : ∀ x ∈ icubBodies, ∃ p' p'', (mirrorName x.1, p') ∈ icubBodies ∧ List.Forall₂ (PartMirror (mirrorAxes x.1)) x.2 p'' ∧ p''.Perm p' := by
  intro x hx
  obtain ⟨y, hy, h1, h2⟩ := forall₂_left icub_mirrorBodies_aux x hx
  obtain ⟨p', hp', e⟩ := icub_mirrorBody y hy
  rw [h1] at hp'
  exact ⟨p', y.2, hp', h2, e⟩

/-- the contact shapes of the left side and those of the right side that mirror them: in the hands the numbers differ -/
def Spec.contactPairs : List (String × String) :=
  [("lh1", "rh2"), ("lh2", "rh1"), ("lh3", "rh4"), ("lh4", "rh3"), ("l_hand_tip", "r_hand_tip"), ("l_hand_palm", "r_hand_palm"), ("lf1", "rf1"), ("lf2", "rf2"), ("lf3", "rf3"), ("lf4", "rf4"), ("l_sole", "r_sole")]

lemma conj_transl {s0 s1 s2 : ℝ} (hd : Signs ![s0, s1, s2]) {a b c a' b' c' : ℝ} (h0 : a' = s0 * a) (h1 : b' = s1 * b) (h2 : c' = s2 * c) :
    transl a' b' c' = mirrorH ![s0, s1, s2] * transl a b c * mirrorH ![s0, s1, s2] := by
  rw [transl_eq, transl_eq, mirrorH, mkH_mul, mkH_mul, Matrix.mul_one, diag_self hd, h0, h1, h2]
  congr 1
  ext i
  rw [Matrix.mulVec_zero, zero_add, Pi.add_apply, Matrix.mulVec_diagonal]
  fin_cases i <;> simp

set_option maxHeartbeats 1000000 in
lemma icub_contactPairs : ∀ x ∈ contactPairs, ∃ y ∈ icubContacts, ∃ y' ∈ icubContacts, y.1 = x.1 ∧ y'.1 = x.2 ∧ y'.2.1 = mirrorName y.2.1 ∧ y'.2.2.1 = y.2.2.1 ∧
    y'.2.2.2 = mirrorH (mirrorAxes y.2.1) * y.2.2.2 * mirrorH (mirrorAxes y.2.1) := by
  unfold contactPairs
  refine List.forall_mem_cons.mpr ⟨⟨_, List.getElem_mem (l := icubContacts) (n := 0) (by simp [icubContacts]), _,
    List.getElem_mem (l := icubContacts) (n := 7) (by simp [icubContacts]), by simp [icubContacts], by simp [icubContacts], by simp [mirrorName, icubContacts], by simp [icubContacts], ?_⟩, ?_⟩
  · simp only [icubContacts, List.getElem_cons_succ, List.getElem_cons_zero]
    rw [show mirrorAxes "l_hand" = ![-1, -1, -1] by simp [mirrorAxes]]
    exact conj_transl (signs_of (by norm_num) (by norm_num) (by norm_num)) (by norm_num) (by norm_num) (by norm_num)
  refine List.forall_mem_cons.mpr ⟨⟨_, List.getElem_mem (l := icubContacts) (n := 1) (by simp [icubContacts]), _,
    List.getElem_mem (l := icubContacts) (n := 6) (by simp [icubContacts]), by simp [icubContacts], by simp [icubContacts], by simp [mirrorName, icubContacts], by simp [icubContacts], ?_⟩, ?_⟩
  · simp only [icubContacts, List.getElem_cons_succ, List.getElem_cons_zero]
    rw [show mirrorAxes "l_hand" = ![-1, -1, -1] by simp [mirrorAxes]]
    exact conj_transl (signs_of (by norm_num) (by norm_num) (by norm_num)) (by norm_num) (by norm_num) (by norm_num)
  refine List.forall_mem_cons.mpr ⟨⟨_, List.getElem_mem (l := icubContacts) (n := 2) (by simp [icubContacts]), _,
    List.getElem_mem (l := icubContacts) (n := 9) (by simp [icubContacts]), by simp [icubContacts], by simp [icubContacts], by simp [mirrorName, icubContacts], by simp [icubContacts], ?_⟩, ?_⟩
  · simp only [icubContacts, List.getElem_cons_succ, List.getElem_cons_zero]
    rw [show mirrorAxes "l_hand" = ![-1, -1, -1] by simp [mirrorAxes]]
    exact conj_transl (signs_of (by norm_num) (by norm_num) (by norm_num)) (by norm_num) (by norm_num) (by norm_num)
  refine List.forall_mem_cons.mpr ⟨⟨_, List.getElem_mem (l := icubContacts) (n := 3) (by simp [icubContacts]), _,
    List.getElem_mem (l := icubContacts) (n := 8) (by simp [icubContacts]), by simp [icubContacts], by simp [icubContacts], by simp [mirrorName, icubContacts], by simp [icubContacts], ?_⟩, ?_⟩
  · simp only [icubContacts, List.getElem_cons_succ, List.getElem_cons_zero]
    rw [show mirrorAxes "l_hand" = ![-1, -1, -1] by simp [mirrorAxes]]
    exact conj_transl (signs_of (by norm_num) (by norm_num) (by norm_num)) (by norm_num) (by norm_num) (by norm_num)
  refine List.forall_mem_cons.mpr ⟨⟨_, List.getElem_mem (l := icubContacts) (n := 4) (by simp [icubContacts]), _,
    List.getElem_mem (l := icubContacts) (n := 10) (by simp [icubContacts]), by simp [icubContacts], by simp [icubContacts], by simp [mirrorName, icubContacts], by simp [icubContacts], ?_⟩, ?_⟩
  · simp only [icubContacts, List.getElem_cons_succ, List.getElem_cons_zero]
    rw [show mirrorAxes "l_hand" = ![-1, -1, -1] by simp [mirrorAxes]]
    exact conj_transl (signs_of (by norm_num) (by norm_num) (by norm_num)) (by norm_num) (by norm_num) (by norm_num)
  refine List.forall_mem_cons.mpr ⟨⟨_, List.getElem_mem (l := icubContacts) (n := 5) (by simp [icubContacts]), _,
    List.getElem_mem (l := icubContacts) (n := 11) (by simp [icubContacts]), by simp [icubContacts], by simp [icubContacts], by simp [mirrorName, icubContacts], by simp [icubContacts], ?_⟩, ?_⟩
  · simp only [icubContacts, List.getElem_cons_succ, List.getElem_cons_zero]
    rw [show mirrorAxes "l_hand" = ![-1, -1, -1] by simp [mirrorAxes]]
    exact conj_transl (signs_of (by norm_num) (by norm_num) (by norm_num)) (by norm_num) (by norm_num) (by norm_num)
  refine List.forall_mem_cons.mpr ⟨⟨_, List.getElem_mem (l := icubContacts) (n := 12) (by simp [icubContacts]), _,
    List.getElem_mem (l := icubContacts) (n := 17) (by simp [icubContacts]), by simp [icubContacts], by simp [icubContacts], by simp [mirrorName, icubContacts], by simp [icubContacts], ?_⟩, ?_⟩
  · simp only [icubContacts, List.getElem_cons_succ, List.getElem_cons_zero]
    rw [show mirrorAxes "l_foot" = ![1, 1, -1] by simp [mirrorAxes]]
    exact conj_transl (signs_of (by norm_num) (by norm_num) (by norm_num)) (by norm_num) (by norm_num) (by norm_num)
  refine List.forall_mem_cons.mpr ⟨⟨_, List.getElem_mem (l := icubContacts) (n := 13) (by simp [icubContacts]), _,
    List.getElem_mem (l := icubContacts) (n := 18) (by simp [icubContacts]), by simp [icubContacts], by simp [icubContacts], by simp [mirrorName, icubContacts], by simp [icubContacts], ?_⟩, ?_⟩
  · simp only [icubContacts, List.getElem_cons_succ, List.getElem_cons_zero]
    rw [show mirrorAxes "l_foot" = ![1, 1, -1] by simp [mirrorAxes]]
    exact conj_transl (signs_of (by norm_num) (by norm_num) (by norm_num)) (by norm_num) (by norm_num) (by norm_num)
  refine List.forall_mem_cons.mpr ⟨⟨_, List.getElem_mem (l := icubContacts) (n := 14) (by simp [icubContacts]), _,
    List.getElem_mem (l := icubContacts) (n := 19) (by simp [icubContacts]), by simp [icubContacts], by simp [icubContacts], by simp [mirrorName, icubContacts], by simp [icubContacts], ?_⟩, ?_⟩
  · simp only [icubContacts, List.getElem_cons_succ, List.getElem_cons_zero]
    rw [show mirrorAxes "l_foot" = ![1, 1, -1] by simp [mirrorAxes]]
    exact conj_transl (signs_of (by norm_num) (by norm_num) (by norm_num)) (by norm_num) (by norm_num) (by norm_num)
  refine List.forall_mem_cons.mpr ⟨⟨_, List.getElem_mem (l := icubContacts) (n := 15) (by simp [icubContacts]), _,
    List.getElem_mem (l := icubContacts) (n := 20) (by simp [icubContacts]), by simp [icubContacts], by simp [icubContacts], by simp [mirrorName, icubContacts], by simp [icubContacts], ?_⟩, ?_⟩
  · simp only [icubContacts, List.getElem_cons_succ, List.getElem_cons_zero]
    rw [show mirrorAxes "l_foot" = ![1, 1, -1] by simp [mirrorAxes]]
    exact conj_transl (signs_of (by norm_num) (by norm_num) (by norm_num)) (by norm_num) (by norm_num) (by norm_num)
  refine List.forall_mem_cons.mpr ⟨⟨_, List.getElem_mem (l := icubContacts) (n := 16) (by simp [icubContacts]), _,
    List.getElem_mem (l := icubContacts) (n := 21) (by simp [icubContacts]), by simp [icubContacts], by simp [icubContacts], by simp [mirrorName, icubContacts], by simp [icubContacts], ?_⟩, ?_⟩
  · simp only [icubContacts, List.getElem_cons_succ, List.getElem_cons_zero]
    rw [show mirrorAxes "l_foot" = ![1, 1, -1] by simp [mirrorAxes]]
    ext i j; fin_cases i <;> fin_cases j <;> simp [mirrorH, mkH, transl, rotx, roty, Matrix.mul_apply, Fin.sum_univ_four, Matrix.diagonal, neg_div]
  exact fun x hx => absurd hx (by simp)

section
variable {fixed shapes contacts : Bool} {S S' : RS} {F G : Forest (FrameRef × ℕ × FrameRef) ℕ} {num : String → ℕ}

lemma mirror_waist : ∀ x ∈ icubNames, mirrorName x = "waist" → x = "waist" := by
  unfold icubNames
  iterate 33 refine List.forall_mem_cons.mpr ⟨by simp [mirrorName], ?_⟩
  exact fun x hx => absurd hx (by simp)

/-- C97: the mass matrices of a body and of its counterpart of the other side are mirror images of each other. -/
theorem C97_mass (H : IsRobot icubItems fixed shapes contacts S F S' G num) : ∀ x ∈ icubNames, ¬ (fixed = true ∧ x = "waist") →
    S'.mass (num (mirrorName x)) = mirror6 (mirrorAxes x) * S'.mass (num x) * mirror6 (mirrorAxes x) := by
  intro x hx hw
  obtain ⟨parts, hp⟩ := icub_row hx
  obtain ⟨p', p'', hp', hf, hperm⟩ := icub_mirrorBodies _ hp
  rcases H.new _ hp with h | ⟨_, _, h⟩
  · exact absurd h hw
  rcases H.new _ hp' with h' | ⟨_, _, h'⟩
  · exact absurd ⟨h'.1, mirror_waist x hx h'.2⟩ hw
  exact assembly_mirror (signs_axes x) hf hperm h.mass h'.mass

lemma icub_contactNames : ∀ x ∈ icubContacts, x.2.1 ∈ icubNames := icub_contactBodies

/-- C97: with the shapes, the robot has two eyes: spheres of 2 cm fixed to the head, 68 mm apart, which are mirror images of each other. -/
theorem C97_eyes (H : IsRobot icubItems fixed true contacts S F S' G num) :
    ∃ s ∈ S'.w.shapes, ∃ s' ∈ S'.w.shapes, S'.geo s = .sphere 0.02 ∧ S'.geo s' = .sphere 0.02 ∧
      S'.o.bodyOf (S'.o.shapeFrame s) = num "head" ∧ S'.o.bodyOf (S'.o.shapeFrame s') = num "head" ∧
      pos (S'.bposeOf (S'.o.shapeFrame s')) - pos (S'.bposeOf (S'.o.shapeFrame s)) = ![0.068, 0, 0] ∧
      S'.bposeOf (S'.o.shapeFrame s') = mirrorH (mirrorAxes "head") * S'.bposeOf (S'.o.shapeFrame s) * mirrorH (mirrorAxes "head") := by
  obtain ⟨ids, _, h2⟩ := H.shapes
  simp only [if_true] at h2
  have row : ∀ d, d ∈ [([0.02], transl (-0.034) (-0.054) 0.0825), (([0.02] : Dims), transl 0.034 (-0.054) 0.0825)] →
      ∃ s, HasSolid S' num (none, "head.body_shape", "head", geoOfDims d.1, d.2) s := by
    intro d hd
    obtain ⟨s, _, hs⟩ := forall₂_left h2 (none, "head.body_shape", "head", geoOfDims d.1, d.2) (List.mem_append_left _ (by
      obtain ⟨parts, hp⟩ := icub_row (x := "head") (by decide)
      refine List.mem_flatMap.mpr ⟨_, List.mem_map_of_mem hp, ?_⟩
      simp only [if_true, List.map_append]
      exact List.mem_append_right _ (List.mem_map_of_mem (f := fun d : Dims × Mat4 => (none, "head.body_shape", "head", geoOfDims d.1, d.2)) hd)))
    exact ⟨s, hs⟩
  obtain ⟨s, hs⟩ := row _ List.mem_cons_self
  obtain ⟨s', hs'⟩ := row _ (List.mem_cons_of_mem _ List.mem_cons_self)
  obtain ⟨f, _, _, f1, _, f2, f3⟩ := hs.frame
  obtain ⟨f', _, _, f1', _, f2', f3'⟩ := hs'.frame
  refine ⟨s, hs.registered, s', hs'.registered, hs.geo, hs'.geo, by rw [f1]; exact f2, by rw [f1']; exact f2', ?_, ?_⟩
  · rw [f1, f1']; simp only [RS.bposeOf, f3, f3', transl_eq, pos_mkH]
    ext i; fin_cases i <;> norm_num
  · rw [f1, f1']; simp only [RS.bposeOf, f3, f3']
    rw [show mirrorAxes "head" = ![-1, 1, 1] by simp [mirrorAxes]]
    refine conj_transl ?_ ?_ ?_ ?_
    · intro i; fin_cases i <;> simp
    all_goals norm_num

/-- C97: in two postures that are mirror images of each other, as in `C97_mirror`, the contact shapes of the left side are mirrored by those of the
right side: same size, frames at mirrored places. -/
theorem C97_contacts (H : IsRobot icubItems fixed shapes true S F S' G num) {att att' : ℕ → JAttr} {W W' : Mat4} {q q' : String → ℝ}
    (hq : IsPosture fixed S' G att W q) (hq' : IsPosture fixed S' G att' W' q') (hW : W' = mirrorH ![1, -1, 1] * W * mirrorH ![1, -1, 1])
    (hm : ∀ x ∈ icubJoints, q' (mirrorName x.1) = mirrorSign x.1 * q x.1) :
    ∀ x ∈ contactPairs, ∃ s ∈ S'.w.shapes, ∃ s' ∈ S'.w.shapes, S'.shname s = some x.1 ∧ S'.shname s' = some x.2 ∧ S'.geo s' = S'.geo s ∧
      ∃ P P' d, (S'.o.bodyOf (S'.o.shapeFrame s), P) ∈ posesIn S' (F.append G) att ∧ (S'.o.bodyOf (S'.o.shapeFrame s'), P') ∈ posesIn S' (F.append G) att' ∧
        (d = ![1, 1, -1] ∨ d = ![-1, -1, -1]) ∧
        P' * S'.bposeOf (S'.o.shapeFrame s') = mirrorH ![1, -1, 1] * (P * S'.bposeOf (S'.o.shapeFrame s)) * mirrorH d := by
  intro x hx
  obtain ⟨y, hy, y', hy', e1, e2, e3, e4, e5⟩ := icub_contactPairs x hx
  obtain ⟨ids, _, h2⟩ := H.shapes
  have row : ∀ y ∈ icubContacts, ∃ s, HasSolid S' num (some y.1, y.1, y.2.1, geoOfDims y.2.2.1, y.2.2.2) s := by
    intro y hy
    obtain ⟨s, _, hs⟩ := forall₂_left h2 _ (List.mem_append_right _ (by
      simp only [if_true]
      exact List.mem_map_of_mem (f := fun x : String × String × Dims × Mat4 => (some x.1, x.1, x.2.1, geoOfDims x.2.2.1, x.2.2.2)) hy))
    exact ⟨s, hs⟩
  obtain ⟨s, hs⟩ := row y hy
  obtain ⟨s', hs'⟩ := row y' hy'
  obtain ⟨f, _, _, f1, _, f2, f3⟩ := hs.frame
  obtain ⟨f', _, _, f1', _, f2', f3'⟩ := hs'.frame
  obtain ⟨P, m1, m2⟩ := C97_mirror H hq hq' hW hm y.2.1 (icub_contactNames y hy)
  refine ⟨s, hs.registered, s', hs'.registered, by rw [hs.name, e1], by rw [hs'.name, e2], ?_, P, mirrorH ![1, -1, 1] * P * mirrorH (mirrorAxes y.2.1), mirrorAxes y.2.1, ?_, ?_, ?_, ?_⟩
  · rw [hs.geo, hs'.geo]; simp only [e4]
  · rw [f1]; simp only [Objs.bodyOf, f2]; exact m1
  · rw [f1']; simp only [Objs.bodyOf, f2']; rw [e3]; exact m2
  · have key : ∀ z ∈ (icubContacts.map fun x => x.2.1), mirrorAxes z = ![1, 1, -1] ∨ mirrorAxes z = ![-1, -1, -1] := by
      rw [show (icubContacts.map fun x => x.2.1) = ["l_hand", "l_hand", "l_hand", "l_hand", "l_hand", "l_hand",
        "r_hand", "r_hand", "r_hand", "r_hand", "r_hand", "r_hand", "l_foot", "l_foot", "l_foot", "l_foot", "l_foot",
        "r_foot", "r_foot", "r_foot", "r_foot", "r_foot"] from rfl]
      simp [mirrorAxes]
    exact key _ (List.mem_map_of_mem (f := fun x : String × String × Dims × Mat4 => x.2.1) hy)
  · rw [f1, f1']; simp only [RS.bposeOf, f3, f3', e5]
    simp only [Matrix.mul_assoc]
    rw [← Matrix.mul_assoc (mirrorH (mirrorAxes y.2.1)) (mirrorH (mirrorAxes y.2.1)), mirrorH_self (signs_axes _), Matrix.one_mul]

/-- C97, an irregularity: in the feet the shapes that mirror each other have the same number, in the hands they do not. -/
theorem C97_hand_numbers : ∀ H H', ("lh1", "l_hand", [0.012], H) ∈ icubContacts → ("rh1", "r_hand", [0.012], H') ∈ icubContacts →
    H' ≠ mirrorH (mirrorAxes "l_hand") * H * mirrorH (mirrorAxes "l_hand") := by
  intro H H' h h'
  simp [icubContacts] at h h'
  rw [h, h', show mirrorAxes "l_hand" = ![-1, -1, -1] by simp [mirrorAxes]]
  intro e
  have := congrFun (congrFun e 1) 3
  simp [transl, mirrorH, mkH, Matrix.mul_apply, Fin.sum_univ_four, Matrix.diagonal] at this
  norm_num at this

end

end Arboris
