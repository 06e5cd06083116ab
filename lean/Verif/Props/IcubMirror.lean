import Verif.Proofs.IcubRows

/-!
# C97: the iCub robot is its own mirror image
-/

namespace Arboris
open Graph Spec Build Matrix

/-! ### reflections -/

lemma mirrorH_mul (d e : Vec3) : mirrorH d * mirrorH e = mirrorH (d * e) := by
  ext i j; fin_cases i <;> fin_cases j <;> simp [mirrorH, mkH, Matrix.mul_apply, Fin.sum_univ_four, Matrix.diagonal]

/-- a reflection of axes -/
def Signs (d : Vec3) : Prop := ∀ i, d i * d i = 1

lemma signs_axes (x : String) : Signs (mirrorAxes x) := by
  intro i
  unfold mirrorAxes
  split_ifs <;> fin_cases i <;> simp

lemma mirrorH_self {d : Vec3} (h : Signs d) : mirrorH d * mirrorH d = 1 := by
  rw [mirrorH_mul, show d * d = 1 from funext h]
  ext i j; fin_cases i <;> fin_cases j <;> simp [mirrorH, mkH, Matrix.diagonal]

lemma mirrorH_rotz {d : Vec3} (h : Signs d) (q : ℝ) : mirrorH d * rotz (d 0 * d 1 * q) = rotz q * mirrorH d := by
  have h0 := h 0
  have h1 := h 1
  have hs : d 0 * d 1 = 1 ∨ d 0 * d 1 = -1 := by
    have : (d 0 * d 1) * (d 0 * d 1) = 1 := by nlinarith
    exact mul_self_eq_one_iff.mp this
  have e : (d 0 * d 1 = 1 ∧ d 1 = d 0) ∨ (d 0 * d 1 = -1 ∧ d 1 = - d 0) := by
    rcases hs with k | k
    · exact .inl ⟨k, by linear_combination (d 0) * k - d 1 * h0⟩
    · exact .inr ⟨k, by linear_combination (d 0) * k - d 1 * h0⟩
  rcases e with ⟨e1, e2⟩ | ⟨e1, e2⟩
  · rw [e1]
    ext i j; fin_cases i <;> fin_cases j <;> simp [mirrorH, mkH, rotz, Matrix.mul_apply, Fin.sum_univ_four, Matrix.diagonal, e2, mul_comm]
  · rw [e1]
    ext i j; fin_cases i <;> fin_cases j <;> simp [mirrorH, mkH, rotz, Matrix.mul_apply, Fin.sum_univ_four, Matrix.diagonal, e2, mul_comm]

/-! ### poses along the links -/

lemma geo_step {o : Objs} {w : Graph.World} (f : FrameRef × ℕ × FrameRef → Link) {b : ℕ} {js : List ℕ} {F : Forest (FrameRef × ℕ × FrameRef) ℕ}
    (hF : Unfolds o w b js F) (P0 : Mat4) : ∀ l ∈ F.links, ∃ P, (o.bodyOf l.1, P) ∈ (b, P0) :: updateGeometric P0 (F.map f id) ∧
      (o.bodyOf l.2.2, geoStep P (f l)) ∈ updateGeometric P0 (F.map f id) := by
  induction hF generalizing P0 with
  | nil b => intro l hl; simp [Forest.links] at hl
  | @cons b j js f0 f1 ch sib h0 h1 hb hp hch hsib ih1 ih2 =>
    intro l hl
    simp only [Forest.links, List.cons_append, List.mem_cons, List.mem_append] at hl
    simp only [Forest.map, updateGeometric, id]
    rcases hl with rfl | hl | hl
    · exact ⟨P0, by simp [hb], by simp⟩
    · obtain ⟨P, m1, m2⟩ := ih1 (geoStep P0 (f (f0, j, f1))) l hl
      refine ⟨P, ?_, List.mem_cons_of_mem _ (List.mem_append_left _ m2)⟩
      rcases List.mem_cons.mp m1 with e | m1
      · rw [e]; simp
      · exact List.mem_cons_of_mem _ (List.mem_cons_of_mem _ (List.mem_append_left _ m1))
    · obtain ⟨P, m1, m2⟩ := ih2 P0 l hl
      refine ⟨P, ?_, List.mem_cons_of_mem _ (List.mem_append_right _ m2)⟩
      rcases List.mem_cons.mp m1 with e | m1
      · rw [e]; simp
      · exact List.mem_cons_of_mem _ (List.mem_cons_of_mem _ (List.mem_append_right _ m1))

lemma geo_keys {L B : Type} (f : L → Link) (F : Forest L B) (P0 : Mat4) : (updateGeometric P0 (F.map f id)).map Prod.fst = F.bodies := by
  induction F generalizing P0 with
  | nil => rfl
  | cons l b ch sib ih1 ih2 => simp [Forest.map, updateGeometric, Forest.bodies, ih1, ih2]

lemma keyed_unique {α β : Type} {l : List (α × β)} (h : (l.map Prod.fst).Nodup) {a : α} {b b' : β} (m : (a, b) ∈ l) (m' : (a, b') ∈ l) : b = b' := by
  have := List.inj_on_of_nodup_map h m m' rfl
  simpa using this

/-! ### C97: postures -/

section
variable {fixed shapes contacts : Bool} {S S' : RS} {F G : Forest (FrameRef × ℕ × FrameRef) ℕ} {num : String → ℕ}

/-- In the states `att` of the joints, the base of the robot is at `W` (it is at the origin if it is fixed) and the joint named `x` is at the angle `q x`. -/
structure Spec.IsPosture (fixed : Bool) (S : RS) (G : Forest (FrameRef × ℕ × FrameRef) ℕ) (att : ℕ → JAttr) (W : Mat4) (q : String → ℝ) : Prop where
  base : if fixed then W = 1 else ∀ l ∈ G.links, S.jname l.2.1 = some "root" → ∃ T, att l.2.1 = .free W T
  hinge : ∀ l ∈ G.links, ∀ x, S.jname l.2.1 = some x → x ≠ "root" → ∃ dq, att l.2.1 = .lin .Rz (fun _ => q x) dq

/-- the states of the joints in which the base is at `W` and the joint named `x` at the angle `q x` -/
noncomputable def Spec.posture (S : RS) (W : Mat4) (q : String → ℝ) (j : ℕ) : JAttr :=
  if S.jname j = some "root" then .free W 0 else .lin .Rz (fun _ => q ((S.jname j).getD "")) 0

/-- These states make the posture. -/
lemma posture_ok (S : RS) (G : Forest (FrameRef × ℕ × FrameRef) ℕ) (W : Mat4) (q : String → ℝ) : IsPosture false S G (posture S W q) W q :=
  ⟨by simp only [Bool.false_eq_true, if_false]; exact fun l _ h => ⟨0, by rw [posture, if_pos h]⟩,
    fun l _ x h hx => ⟨0, by rw [posture, h, if_neg (by simpa using hx)]; rfl⟩⟩

/-- the poses of the bodies of the world, ground included, when the joints are in the states `att` -/
noncomputable def Spec.posesIn (S : RS) (F : Forest (FrameRef × ℕ × FrameRef) ℕ) (att : ℕ → JAttr) : List (ℕ × Mat4) :=
  (S.w.ground, 1) :: worldGeometric (F.map (S.linkWith att) id)

lemma Spec.IsRobot.link_of (H : IsRobot icubItems fixed shapes contacts S F S' G num) : ∀ x ∈ icubJoints, ∃ l ∈ G.links, HasHinge S' num x l := by
  obtain ⟨root, Ls, h1, h2, _⟩ := H.links
  intro x hx
  obtain ⟨l, hl, h⟩ := forall₂_left h2 x hx
  exact ⟨l, h1.mem_iff.mpr (List.mem_append_right _ hl), h⟩

lemma icub_notRoot : ∀ x ∈ icubJoints, x.1 ≠ "root" := by
  have : ∀ y ∈ icubJointNames, y.1 ≠ "root" := by decide
  exact fun x hx => this _ (icub_mem hx)

/-- a step along a joint of the robot -/
lemma Spec.IsRobot.pose_step (H : IsRobot icubItems fixed shapes contacts S F S' G num) {att : ℕ → JAttr} {W : Mat4} {q : String → ℝ}
    (hq : IsPosture fixed S' G att W q) : ∀ x ∈ icubJoints, ∀ P, (num x.2.1, P) ∈ posesIn S' (F.append G) att →
      (num x.2.2.2, P * x.2.2.1 * rotz (q x.1)) ∈ posesIn S' (F.append G) att := by
  intro x hx P hP
  obtain ⟨l, hl, h⟩ := H.link_of x hx
  have hl' : l ∈ (F.append G).links := by rw [Forest.links_append]; exact List.mem_append_right _ hl
  obtain ⟨P', m1, m2⟩ := geo_step (S'.linkWith att) H.tree.tree.unfolds 1 l hl'
  have hnd : ((posesIn S' (F.append G) att).map Prod.fst).Nodup := by
    simp only [posesIn, worldGeometric, List.map_cons, geo_keys]
    exact H.tree.tree.bodies_nodup
  rw [h.parent] at m1
  have e := keyed_unique hnd m1 hP
  subst e
  obtain ⟨dq, ha⟩ := hq.hinge l hl x.1 h.name (icub_notRoot x hx)
  have e2 : geoStep P' (S'.linkWith att l) = P' * x.2.2.1 * rotz (q x.1) := by
    have hb1 : S'.bposeOf l.2.2 = 1 := by rw [h.child]; rfl
    simp only [geoStep, relPose, RS.linkWith, h.pose, hb1, invBody_one, Matrix.mul_one, Matrix.mul_assoc]
    rw [ha]; rfl
  rw [e2, h.child] at m2
  exact List.mem_cons_of_mem _ m2

lemma Spec.IsRobot.pose_base (H : IsRobot icubItems fixed shapes contacts S F S' G num) {att : ℕ → JAttr} {W : Mat4} {q : String → ℝ}
    (hq : IsPosture fixed S' G att W q) : (num "waist", W) ∈ posesIn S' (F.append G) att := by
  obtain ⟨root, Ls, h1, h2, h3⟩ := H.links
  rcases h3 with ⟨hf, _⟩ | ⟨hf, j, hr, hj, hn⟩
  · have := hq.base
    rw [if_pos hf] at this
    rw [this, H.waist hf, ← H.keeps.ground]
    exact List.mem_cons_self
  · subst hf
    have hl : (FrameRef.body S.w.ground, j, FrameRef.body (num "waist")) ∈ G.links := h1.mem_iff.mpr (by simp [hr])
    have hl' : (FrameRef.body S.w.ground, j, FrameRef.body (num "waist")) ∈ (F.append G).links := by
      rw [Forest.links_append]; exact List.mem_append_right _ hl
    obtain ⟨P', m1, m2⟩ := geo_step (S'.linkWith att) H.tree.tree.unfolds 1 _ hl'
    have hnd : ((posesIn S' (F.append G) att).map Prod.fst).Nodup := by
      simp only [posesIn, worldGeometric, List.map_cons, geo_keys]
      exact H.tree.tree.bodies_nodup
    have e := keyed_unique hnd m1 (b' := 1) (by rw [← H.keeps.ground]; exact List.mem_cons_self)
    subst e
    have hb := hq.base
    simp only [Bool.false_eq_true, if_false] at hb
    obtain ⟨T, ha⟩ := hb _ hl hn
    have e2 : geoStep 1 (S'.linkWith att (FrameRef.body S.w.ground, j, FrameRef.body (num "waist"))) = W := by
      simp only [geoStep, relPose, RS.linkWith, RS.bposeOf, invBody_one, Matrix.mul_one, Matrix.one_mul]
      simp only at ha
      rw [ha]; rfl
    rw [e2] at m2
    exact List.mem_cons_of_mem _ m2

/-- C97: put the iCub in two postures that are mirror images of each other, that is with the bases symmetric with respect to the plane `y = 0`, the
angles of the left and right limbs exchanged, and the rolls and yaws of the trunk and of the head opposite.  Then each body is, in the one, where its
counterpart of the other side is in the other, seen in a mirror: the positions, and the directions of the axes of the frames of the bodies, are those
reflected in the plane, with the directions of the axes of `mirrorAxes` reversed. -/
theorem C97_mirror (H : IsRobot icubItems fixed shapes contacts S F S' G num) {att att' : ℕ → JAttr} {W W' : Mat4} {q q' : String → ℝ}
    (hq : IsPosture fixed S' G att W q) (hq' : IsPosture fixed S' G att' W' q') (hW : W' = mirrorH ![1, -1, 1] * W * mirrorH ![1, -1, 1])
    (hm : ∀ x ∈ icubJoints, q' (mirrorName x.1) = mirrorSign x.1 * q x.1) :
    ∀ x ∈ icubNames, ∃ P, (num x, P) ∈ posesIn S' (F.append G) att ∧
      (num (mirrorName x), mirrorH ![1, -1, 1] * P * mirrorH (mirrorAxes x)) ∈ posesIn S' (F.append G) att' := by
  have key : ∀ n, ∀ x ∈ icubNames, icubNames.idxOf x < n → ∃ P, (num x, P) ∈ posesIn S' (F.append G) att ∧
      (num (mirrorName x), mirrorH ![1, -1, 1] * P * mirrorH (mirrorAxes x)) ∈ posesIn S' (F.append G) att' := by
    intro n
    induction n with
    | zero => intro x _ h; omega
    | succ n ih =>
      intro x hx hn
      by_cases hw : x = "waist"
      · subst hw
        refine ⟨W, H.pose_base hq, ?_⟩
        rw [show mirrorName "waist" = "waist" by simp [mirrorName], show mirrorAxes "waist" = ![1, -1, 1] by simp [mirrorAxes], ← hW]
        exact H.pose_base hq'
      · obtain ⟨j, hj, rfl⟩ := icub_all x hx hw
        have hr := icub_rank j hj
        obtain ⟨P, m1, m2⟩ := ih j.2.1 (icub_ends j hj).1 (by omega)
        obtain ⟨y, hy, e1, e2, e3, e4, e5⟩ := icub_mirrorRows j hj
        refine ⟨_, H.pose_step hq j hj P m1, ?_⟩
        rw [← e2] at m2
        have := H.pose_step hq' y hy _ m2
        rw [← e3]
        convert this using 2
        rw [e1, hm j hj, e4, e5]
        simp only [Matrix.mul_assoc]
        rw [mirrorH_rotz (signs_axes _), ← Matrix.mul_assoc (mirrorH (mirrorAxes j.2.1)), mirrorH_self (signs_axes _), Matrix.one_mul]
  intro x hx
  exact key _ x hx (Nat.lt_succ_self _)

end

end Arboris
