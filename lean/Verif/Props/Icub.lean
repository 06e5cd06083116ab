import Verif.Proofs.Icub
import Verif.Props.Names

/-!
# C95: the iCub robot
-/

namespace Arboris
open Graph Spec Build Matrix

/-! ### the tables describe a robot -/

/-- the names of the bodies -/
def Spec.icubNames : List String := ["waist", "lap_belt_1", "lap_belt_2", "chest", "neck_1", "neck_2", "head",
  "l_shoulder_1", "l_shoulder_2", "l_arm", "l_elbow_1", "l_forearm", "l_wrist_1", "l_hand",
  "r_shoulder_1", "r_shoulder_2", "r_arm", "r_elbow_1", "r_forearm", "r_wrist_1", "r_hand",
  "l_hip_1", "l_hip_2", "l_thigh", "l_shank", "l_ankle_1", "l_foot",
  "r_hip_1", "r_hip_2", "r_thigh", "r_shank", "r_ankle_1", "r_foot"]

lemma icub_names : (icubBodies.map fun x => x.1) = icubNames := rfl

set_option maxRecDepth 4000 in
lemma icubNames_nodup : icubNames.Nodup := by
  unfold icubNames; decide

/-- the names of the joints, with the names of the bodies they link -/
def Spec.icubJointNames : List (String × String × String) := [("torso_pitch", "waist", "lap_belt_1"), ("torso_roll", "lap_belt_1", "lap_belt_2"), ("torso_yaw", "lap_belt_2", "chest"),
  ("head_pitch", "chest", "neck_1"), ("head_roll", "neck_1", "neck_2"), ("head_yaw", "neck_2", "head"),
  ("l_shoulder_pitch", "chest", "l_shoulder_1"), ("l_shoulder_roll", "l_shoulder_1", "l_shoulder_2"), ("l_shoulder_yaw", "l_shoulder_2", "l_arm"),
  ("l_elbow_pitch", "l_arm", "l_elbow_1"), ("l_elbow_yaw", "l_elbow_1", "l_forearm"), ("l_wrist_roll", "l_forearm", "l_wrist_1"),
  ("l_wrist_pitch", "l_wrist_1", "l_hand"), ("r_shoulder_pitch", "chest", "r_shoulder_1"), ("r_shoulder_roll", "r_shoulder_1", "r_shoulder_2"),
  ("r_shoulder_yaw", "r_shoulder_2", "r_arm"), ("r_elbow_pitch", "r_arm", "r_elbow_1"), ("r_elbow_yaw", "r_elbow_1", "r_forearm"),
  ("r_wrist_roll", "r_forearm", "r_wrist_1"), ("r_wrist_pitch", "r_wrist_1", "r_hand"), ("l_hip_pitch", "waist", "l_hip_1"),
  ("l_hip_roll", "l_hip_1", "l_hip_2"), ("l_hip_yaw", "l_hip_2", "l_thigh"), ("l_knee", "l_thigh", "l_shank"),
  ("l_ankle_pitch", "l_shank", "l_ankle_1"), ("l_ankle_roll", "l_ankle_1", "l_foot"), ("r_hip_pitch", "waist", "r_hip_1"),
  ("r_hip_roll", "r_hip_1", "r_hip_2"), ("r_hip_yaw", "r_hip_2", "r_thigh"), ("r_knee", "r_thigh", "r_shank"),
  ("r_ankle_pitch", "r_shank", "r_ankle_1"), ("r_ankle_roll", "r_ankle_1", "r_foot")]

lemma icub_jointNames : (icubJoints.map fun x => (x.1, x.2.1, x.2.2.2)) = icubJointNames := rfl

lemma icub_mem {x : String × String × Mat4 × String} (h : x ∈ icubJoints) : (x.1, x.2.1, x.2.2.2) ∈ icubJointNames := by
  rw [← icub_jointNames]; exact List.mem_map_of_mem (f := fun x : String × String × Mat4 × String => (x.1, x.2.1, x.2.2.2)) h

lemma icub_of_mem {y : String × String × String} (h : y ∈ icubJointNames) : ∃ x ∈ icubJoints, (x.1, x.2.1, x.2.2.2) = y := by
  rw [← icub_jointNames] at h
  exact List.mem_map.mp h

lemma icub_nodup : (icubBodies.map fun x => x.1).Nodup := icubNames_nodup

set_option maxRecDepth 4000 in
lemma icub_once : (icubJoints.map fun x => x.2.2.2).Nodup := by
  have : (icubJoints.map fun x => x.2.2.2) = icubJointNames.map fun x => x.2.2 := by rw [← icub_jointNames, List.map_map]; rfl
  rw [this]; decide

set_option maxRecDepth 4000 in
lemma icubNames_rank : ∀ x ∈ icubJointNames, icubNames.idxOf x.2.1 < icubNames.idxOf x.2.2 := by
  decide

lemma icub_rank : ∀ x ∈ icubJoints, icubNames.idxOf x.2.1 < icubNames.idxOf x.2.2.2 := fun x hx => icubNames_rank _ (icub_mem hx)

set_option maxRecDepth 4000 in
lemma icubNames_ends : ∀ x ∈ icubJointNames, x.2.1 ∈ icubNames ∧ x.2.2 ∈ icubNames ∧ x.2.2 ≠ "waist" := by
  decide

lemma icub_ends : ∀ x ∈ icubJoints, x.2.1 ∈ icubNames ∧ x.2.2.2 ∈ icubNames ∧ x.2.2.2 ≠ "waist" := fun x hx => icubNames_ends _ (icub_mem hx)

set_option maxRecDepth 4000 in
lemma icubNames_all : ∀ x ∈ icubNames, x ≠ "waist" → ∃ y ∈ icubJointNames, y.2.2 = x := by
  decide

lemma icub_all : ∀ x ∈ icubNames, x ≠ "waist" → ∃ j ∈ icubJoints, j.2.2.2 = x := by
  intro x hx hw
  obtain ⟨y, hy, e⟩ := icubNames_all x hx hw
  obtain ⟨j, hj, e'⟩ := icub_of_mem hy
  exact ⟨j, hj, by rw [← e, ← e']⟩

/-- products of elementary displacements -/
macro "rigid" : tactic => `(tactic| (with_reducible repeat' (first | exact isRigid_one | exact C01_transl _ _ _ | exact C01_rotx _ | exact C01_roty _ | exact C01_rotz _ | exact C01_T_DH _ _ _ _ | apply C01_mul)))

set_option maxHeartbeats 2000000 in
lemma icub_jointPoses : ∀ x ∈ icubJoints, IsRigid x.2.2.1 := by
  unfold icubJoints
  iterate 32 refine List.forall_mem_cons.mpr ⟨by rigid, ?_⟩
  exact fun x hx => absurd hx (by simp)

set_option maxHeartbeats 2000000 in
lemma icub_parts : ∀ x ∈ icubBodies, PartsOK x := by
  have one : ∀ {n d m H}, DimsOK d → 0 < m → IsRigid H → PartsOK (n, [(d, m, H)]) := fun h1 h2 h3 =>
    ⟨by simp, by simp only [List.forall_mem_cons]; exact ⟨⟨h1, h2, h3⟩, by simp⟩⟩
  have two : ∀ {n d m H d' m' H'}, DimsOK d → 0 < m → IsRigid H → DimsOK d' → 0 < m' → IsRigid H' → PartsOK (n, [(d, m, H), (d', m', H')]) :=
    fun h1 h2 h3 h4 h5 h6 => ⟨by simp, by simp only [List.forall_mem_cons]; exact ⟨⟨h1, h2, h3⟩, ⟨h4, h5, h6⟩, by simp⟩⟩
  have three : ∀ {n d m H d' m' H' d'' m'' H''}, DimsOK d → 0 < m → IsRigid H → DimsOK d' → 0 < m' → IsRigid H' → DimsOK d'' → 0 < m'' →
      IsRigid H'' → PartsOK (n, [(d, m, H), (d', m', H'), (d'', m'', H'')]) :=
    fun h1 h2 h3 h4 h5 h6 h7 h8 h9 => ⟨by simp, by simp only [List.forall_mem_cons]; exact ⟨⟨h1, h2, h3⟩, ⟨h4, h5, h6⟩, ⟨h7, h8, h9⟩, by simp⟩⟩
  have d1 : ∀ {a : ℝ}, 0 < a → DimsOK [a] := fun h => ⟨by simp, by simpa using h⟩
  have d2 : ∀ {a b : ℝ}, 0 < a → 0 < b → DimsOK [a, b] := fun h h' => ⟨by simp, by simpa using ⟨h, h'⟩⟩
  have d3 : ∀ {a b c : ℝ}, 0 < a → 0 < b → 0 < c → DimsOK [a, b, c] := fun h h' h'' => ⟨by simp, by simpa using ⟨h, h', h''⟩⟩
  unfold icubBodies
  iterate 33 refine List.forall_mem_cons.mpr ⟨by
    with_reducible first | apply one | apply two | apply three
    all_goals with_reducible first | apply d3 | apply d2 | apply d1 | (rigid; done) | skip
    all_goals norm_num, ?_⟩
  exact fun x hx => absurd hx (by simp)

lemma icub_shapes : ∀ x ∈ icubShapes, x.1 ∈ icubNames ∧ ∀ d ∈ x.2, DimsOK d.1 ∧ IsRigid d.2 := by
  intro x hx
  obtain ⟨y, hy, rfl⟩ := List.mem_map.mp hx
  refine ⟨by rw [← icub_names]; exact List.mem_map_of_mem (f := fun x : String × List (Dims × ℝ × Mat4) => x.1) hy, ?_⟩
  intro d hd
  rcases List.mem_append.mp hd with hd | hd
  · obtain ⟨d', hd', rfl⟩ := List.mem_map.mp hd
    obtain ⟨h1, _, h3⟩ := (icub_parts y hy).2 d' hd'
    exact ⟨h1, h3⟩
  · split at hd
    · simp only [List.mem_cons, List.not_mem_nil, or_false] at hd
      rcases hd with rfl | rfl
      · exact ⟨⟨by simp, by norm_num⟩, C01_transl _ _ _⟩
      · exact ⟨⟨by simp, by norm_num⟩, C01_transl _ _ _⟩
    · simp at hd

lemma icub_contactBodies : ∀ x ∈ icubContacts, x.2.1 ∈ icubNames := by
  have : ∀ y ∈ (icubContacts.map fun x => x.2.1), y ∈ icubNames := by
    rw [show (icubContacts.map fun x => x.2.1) = ["l_hand", "l_hand", "l_hand", "l_hand", "l_hand", "l_hand",
      "r_hand", "r_hand", "r_hand", "r_hand", "r_hand", "r_hand", "l_foot", "l_foot", "l_foot", "l_foot", "l_foot",
      "r_foot", "r_foot", "r_foot", "r_foot", "r_foot"] from rfl]
    decide
  exact fun x hx => this _ (List.mem_map_of_mem (f := fun x : String × String × Dims × Mat4 => x.2.1) hx)

lemma icub_contacts : ∀ x ∈ icubContacts, (x.2.2.1 = [] ∨ DimsOK x.2.2.1) ∧ IsRigid x.2.2.2 := by
  unfold icubContacts
  iterate 22 refine List.forall_mem_cons.mpr ⟨⟨by first | exact .inl rfl | exact .inr ⟨by simp, by norm_num⟩, by rigid⟩, ?_⟩
  exact fun x hx => absurd hx (by simp)

lemma icub_tableOK : TableOK icubItems := by
  refine ⟨icubNames_nodup, ?_, icub_parts, ?_, icub_once, ?_, ⟨fun x => icubNames.idxOf x, icub_rank⟩, icub_shapes, ?_⟩
  · change "waist" ∈ icubNames; simp [icubNames]
  · intro x hx
    obtain ⟨h1, h2, h3⟩ := icub_ends x hx
    exact ⟨h1, h2, h3, icub_jointPoses x hx⟩
  · intro x hx hw
    have : x.1 ∈ icubNames := by rw [← icub_names]; exact List.mem_map_of_mem (f := fun x : String × List (Dims × ℝ × Mat4) => x.1) hx
    exact icub_all _ this hw
  · intro x hx
    exact ⟨icub_contactBodies x hx, icub_contacts x hx⟩

/-! ### C95: construction -/

/-- C95: `icub.add` succeeds in any world, whatever the order in which Python enumerates its tables, if the recursion limit is above the
depth of the world and above 33; it adds the tree, the bodies, the joints and the shapes described by the tables. -/
theorem C95_build {D : IcubItems} (hD : Enumerates D) {S : RS} {F : Forest (FrameRef × ℕ × FrameRef) ℕ} (hg : Good S F) {lim : ℕ}
    (hl : depth F < lim) (hl' : 33 < lim) (is_fixed create_shapes create_contacts : Bool) :
    ∃ S' G num, Runs (addIcub lim is_fixed create_shapes create_contacts D) S () S' ∧
      IsRobot icubItems is_fixed create_shapes create_contacts S F S' G num ∧ S'.nb = S.nb + 33 ∧
      S'.w.ndof = ((joints F).map S.o.ndof).sum + (if is_fixed then 32 else 38) ∧
      S'.nsh = S.nsh + (if create_shapes then 41 else 0) + if create_contacts then 22 else 0 := by
  have hlen : D.bodies.length = 33 := by rw [hD.bodies.length_eq]; rfl
  obtain ⟨S', G, num, hr, h⟩ := addIcub_runs (icub_tableOK.perm (D' := D) hD.bodies.symm hD.joints.symm hD.shapes.symm hD.contacts.symm) hg hl
    (by omega) is_fixed create_shapes create_contacts
  have h' := h.perm (D' := icubItems) hD.bodies hD.joints hD.shapes hD.contacts
  refine ⟨S', G, num, hr, h', h'.count, ?_, ?_⟩
  · have := h'.ndof
    rw [show icubItems.joints.length = 32 from rfl] at this
    rw [this]; cases is_fixed <;> simp [add_assoc]
  · obtain ⟨ids, h1, h2⟩ := h'.shapes
    have e1 := h1.length_eq
    have e2 := h2.length_eq
    have e3 : (bodyRows icubItems.shapes).length = 41 := by
      simp [bodyRows, icubItems, icubShapes, icubBodies]
    have e4 : (contactRows icubItems.contacts).length = 22 := rfl
    have := h'.keeps.nsh
    rw [List.length_range'] at e1
    cases create_shapes <;> cases create_contacts <;> simp [e3, e4] at e2 ⊢ <;> omega

/-- The tables, in the order of the source, are one of the orders of `C95_build`; the empty world is one of its worlds. -/
example : ∃ S' G num, Runs (addIcub 1000 false true true icubItems) RS.new () S' ∧ IsRobot icubItems false true true RS.new .nil S' G num ∧
    S'.nb = 34 ∧ S'.w.ndof = 38 := by
  obtain ⟨S', G, num, h1, h2, h3, h4, _⟩ := C95_build (D := icubItems) ⟨.refl _, .refl _, .refl _, .refl _⟩ (S := RS.new) (F := .nil)
    ⟨⟨.nil _, rfl, by simp [Forest.bodies], by simp [joints, Forest.links]⟩, by decide, by simp [Forest.bodies], by simp [Forest.links],
      by simp [joints, Forest.links], by simp [joints, Forest.links]⟩ (lim := 1000) (by decide) (by decide) false true true
  exact ⟨S', G, num, h1, h2, h3, by simpa [joints, Forest.links] using h4⟩

section
variable {fixed shapes contacts : Bool} {S S' : RS} {F G : Forest (FrameRef × ℕ × FrameRef) ℕ} {num : String → ℕ}

lemma icub_row {x : String} (hx : x ∈ icubNames) : ∃ parts, (x, parts) ∈ icubBodies := by
  rw [← icub_names] at hx
  obtain ⟨y, hy, rfl⟩ := List.mem_map.mp hx
  exact ⟨y.2, hy⟩

/-- the bodies of the robot, in the order of the table -/
lemma Spec.IsRobot.bodies (H : IsRobot icubItems fixed shapes contacts S F S' G num) :
    G.bodies.Perm ((icubBodies.filter fun x => ¬ (fixed = true ∧ x.1 = "waist")).map fun x => num x.1) := by
  classical
  refine (List.perm_ext_iff_of_nodup ?_ ?_).mpr ?_
  · have := (List.nodup_cons.mp H.tree.tree.bodies_nodup).2
    rw [Forest.bodies_append] at this
    exact (List.nodup_append.mp this).2.1
  · refine List.Nodup.map_on ?_ ((List.Nodup.of_map (fun x : String × List (Dims × ℝ × Mat4) => x.1) icub_nodup).filter _)
    intro x hx y hy e
    have hx' := (List.mem_filter.mp hx).1
    have hy' := (List.mem_filter.mp hy).1
    exact List.inj_on_of_nodup_map icub_nodup hx' hy' (H.distinct x hx' y hy' e)
  · intro b
    rw [H.all b]
    simp only [List.mem_map, List.mem_filter, decide_eq_true_eq]
    constructor
    · rintro ⟨x, h1, h2, h3⟩; exact ⟨x, ⟨h1, h2⟩, h3⟩
    · rintro ⟨x, ⟨h1, h2⟩, h3⟩; exact ⟨x, h1, h2, h3⟩

/-- C95: the mass of the robot is `27.197066` kg, or `26.994096` kg without the waist when it is fixed. -/
theorem C95_mass (H : IsRobot icubItems fixed shapes contacts S F S' G num) :
    (G.bodies.map fun b => S'.mass b 5 5).sum = if fixed then 26.994096 else 27.197066 := by
  have h1 : ∀ x ∈ icubBodies.filter (fun x => ¬ (fixed = true ∧ x.1 = "waist")), S'.mass (num x.1) 5 5 = partsMass x.2 := by
    intro x hx
    obtain ⟨hx1, hx2⟩ := List.mem_filter.mp hx
    rcases H.new x hx1 with h | ⟨_, _, h⟩
    · simp [h] at hx2
    · obtain ⟨c, hc, _⟩ := h.mass
      rw [hc.eq]; simp [blk, e6, finSumFinEquiv, Fin.addCases]
  rw [(H.bodies.map _).sum_eq, List.map_map, List.map_congr_left (g := fun x => partsMass x.2) h1]
  cases fixed <;> simp [icubBodies, partsMass, List.filter] <;> norm_num

/-- what `world.getshapes()` returns -/
def Spec.shapeItems (S : RS) : List Names.Item := S.w.shapes.map fun s => .named s (S.shname s)

lemma namedPairs_dup {f : ℕ → Option String} {n : String} {s1 s2 : ℕ} (h1 : f s1 = some n) (h2 : f s2 = some n) (hne : s1 ≠ s2) :
    ∀ l : List ℕ, s1 ∈ l → s2 ∈ l → ¬ ((namedPairs (l.map fun s => Names.Item.named s (f s))).map Prod.fst).Nodup := by
  have hmem : ∀ (l : List ℕ) s, s ∈ l → f s = some n → n ∈ (namedPairs (l.map fun s => Names.Item.named s (f s))).map Prod.fst := by
    intro l
    induction l with
    | nil => simp
    | cons x l ih =>
      intro s hs e
      rcases List.mem_cons.mp hs with rfl | hs
      · simp [namedPairs, e]
      · have := ih s hs e
        cases hx : f x with
        | none => simpa [namedPairs, hx] using this
        | some k =>
          simp only [List.map_cons, hx, namedPairs]
          exact List.mem_cons_of_mem _ this
  intro l
  induction l with
  | nil => simp
  | cons x l ih =>
    intro m1 m2 hn
    have hl : ((namedPairs (l.map fun s => Names.Item.named s (f s))).map Prod.fst).Nodup := by
      cases hx : f x with
      | none => simpa [namedPairs, hx] using hn
      | some k =>
        simp only [List.map_cons, hx, namedPairs, List.nodup_cons] at hn
        exact hn.2
    rcases List.mem_cons.mp m1 with e1 | k1 <;> rcases List.mem_cons.mp m2 with e2 | k2
    · exact hne (e1.trans e2.symm)
    · subst e1
      simp only [List.map_cons, h1, namedPairs, List.nodup_cons] at hn
      exact hn.1 (hmem l s2 k2 h2)
    · subst e2
      simp only [List.map_cons, h2, namedPairs, List.nodup_cons] at hn
      exact hn.1 (hmem l s1 k1 h1)
    · exact ih k1 k2 hl

/-- C95, a defect: the body shapes of one body share one name, so that with them `world.getshapes().as_dict()` raises, in every world and whatever
was there before. -/
theorem C95_shape_names (H : IsRobot icubItems fixed true contacts S F S' G num) : Names.asDict (shapeItems S') = .error .typeError := by
  rw [(C61_partial _).1]
  obtain ⟨ids, h1, h2⟩ := H.shapes
  have hnd : ids.Nodup := h1.nodup_iff.mpr List.nodup_range'
  simp only [if_true] at h2
  obtain ⟨a, b, c, d, tl, htl⟩ : ∃ a b c d tl, bodyRows icubItems.shapes ++ (if contacts then contactRows icubItems.contacts else []) =
      a :: b :: c :: (none, "chest.body_shape", "chest", .cylinder 0.0274 0.04, transl 0 0 (-0.0447)) ::
        (none, "chest.body_shape", "chest", .box ![0.036, 0.0545, 0.059], d) :: tl :=
    ⟨_, _, _, _, _, by simp only [bodyRows, icubItems, icubShapes, icubBodies, List.map_cons, List.flatMap_cons]; rfl⟩
  rw [htl] at h2
  obtain _ | ⟨_, h2⟩ := h2
  obtain _ | ⟨_, h2⟩ := h2
  obtain _ | ⟨_, h2⟩ := h2
  obtain _ | ⟨q1, h2⟩ := h2
  obtain _ | ⟨q2, h2⟩ := h2
  refine namedPairs_dup q1.name q2.name ?_ _ q1.registered q2.registered
  intro e; subst e
  simp at hnd

end

/-! ### C96: limits -/

/-- the joint of the other side (the joints and bodies of the trunk and of the head have no side) -/
def Spec.mirrorName (x : String) : String :=
  match x.toList with
  | 'l' :: '_' :: r => String.ofList ('r' :: '_' :: r)
  | 'r' :: '_' :: r => String.ofList ('l' :: '_' :: r)
  | _ => x

/-- the keys of the tables of limits -/
lemma icub_limitKeys : (icubLimitsDeg.map fun x => x.1) = icubJointNames.map fun x => x.1 := rfl

/-- C96: the limits and the torques are given for every joint of the robot and for no other, in degrees as in radians. -/
theorem C96_keys (in_radian : Bool) :
    ((icubLimits in_radian).map fun x => x.1) = icubJoints.map (fun x => x.1) ∧ (icubTorques.map fun x => x.1) = icubJoints.map fun x => x.1 := by
  refine ⟨?_, rfl⟩
  cases in_radian
  · rfl
  · simp only [icubLimits, if_true, List.map_map]; rfl

/-- C96: with `in_radian` the limits are those in degrees, in radians. -/
theorem C96_radian {x : String} {lo hi : ℝ} (h : (x, lo, hi) ∈ icubLimits true) :
    ∃ a b, (x, a, b) ∈ icubLimits false ∧ lo = a / 180 * Real.pi ∧ hi = b / 180 * Real.pi := by
  simp only [icubLimits, if_true] at h
  obtain ⟨y, hy, e⟩ := List.mem_map.mp h
  simp only [Prod.mk.injEq] at e
  obtain ⟨rfl, rfl, rfl⟩ := e
  refine ⟨y.2.1, y.2.2, by simpa [icubLimits] using hy, by ring, by ring⟩

lemma icub_limitsDeg : ∀ x ∈ icubLimitsDeg, -180 < x.2.1 ∧ x.2.1 < x.2.2 ∧ x.2.2 < 180 := by
  unfold icubLimitsDeg
  iterate 32 refine List.forall_mem_cons.mpr ⟨by norm_num, ?_⟩
  exact fun x hx => absurd hx (by simp)

/-- C96: each joint can move: its lower limit is below its upper limit; both are within half a turn; its torque limit is positive. -/
theorem C96_range : (∀ x ∈ icubLimits true, -Real.pi < x.2.1 ∧ x.2.1 < x.2.2 ∧ x.2.2 < Real.pi) ∧ ∀ x ∈ icubTorques, 0 < x.2 := by
  constructor
  · intro x hx
    obtain ⟨a, b, h, e1, e2⟩ := C96_radian (x := x.1) (lo := x.2.1) (hi := x.2.2) hx
    have := icub_limitsDeg _ (by simpa [icubLimits] using h)
    simp only at this
    have hpi := Real.pi_pos
    rw [e1, e2]
    refine ⟨?_, ?_, ?_⟩ <;> nlinarith
  · unfold icubTorques
    iterate 32 refine List.forall_mem_cons.mpr ⟨by norm_num, ?_⟩
    exact fun x hx => absurd hx (by simp)

/-- C96: left and right joints have the same limits. -/
theorem C96_sides : (∀ x ∈ icubLimits false, (mirrorName x.1, x.2) ∈ icubLimits false) ∧ ∀ x ∈ icubTorques, (mirrorName x.1, x.2) ∈ icubTorques := by
  constructor
  · simp only [icubLimits, Bool.false_eq_true, if_false]
    unfold icubLimitsDeg
    iterate 32 refine List.forall_mem_cons.mpr ⟨by simp [mirrorName], ?_⟩
    exact fun x hx => absurd hx (by simp)
  · unfold icubTorques
    iterate 32 refine List.forall_mem_cons.mpr ⟨by simp [mirrorName], ?_⟩
    exact fun x hx => absurd hx (by simp)

/-- C96, a defect: the posture in which `add` leaves the robot (all angles zero) is outside the limits of both elbows, and within all the others. -/
theorem C96_zero_posture : ∀ x ∈ icubLimits true, (x.2.1 ≤ 0 ∧ 0 ≤ x.2.2) ↔ x.1 ≠ "l_elbow_pitch" ∧ x.1 ≠ "r_elbow_pitch" := by
  have key : ∀ x ∈ icubLimitsDeg, (x.2.1 ≤ 0 ∧ 0 ≤ x.2.2) ↔ x.1 ≠ "l_elbow_pitch" ∧ x.1 ≠ "r_elbow_pitch" := by
    unfold icubLimitsDeg
    iterate 32 refine List.forall_mem_cons.mpr ⟨by norm_num <;> decide, ?_⟩
    exact fun x hx => absurd hx (by simp)
  intro x hx
  obtain ⟨a, b, h, e1, e2⟩ := C96_radian (x := x.1) (lo := x.2.1) (hi := x.2.2) hx
  have hk := key (x.1, a, b) (by simpa [icubLimits] using h)
  rw [show x.1 = (x.1, a, b).1 from rfl, ← hk, e1, e2]
  have hpi := Real.pi_pos
  constructor
  · rintro ⟨h1, h2⟩
    constructor <;> simp only <;> by_contra hc <;> push Not at hc <;> nlinarith
  · rintro ⟨h1, h2⟩
    simp only at h1 h2
    constructor <;> nlinarith

end Arboris
