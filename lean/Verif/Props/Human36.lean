import Verif.Proofs.Loops
import Verif.Props.Joints

/-!
# C72: the human model
-/

namespace Arboris
open Graph Spec Build Matrix

/-! ### lengths, masses -/

/-- C72: `height_from_anat_lengths` raises `ValueError` exactly when the legs differ, and otherwise sums foot, shank, thigh, both parts
of the trunk and head. -/
theorem C72_legs (L : AnatLengths) :
    (L.yfootL + L.ytibiaL + L.yfemurL ≠ L.yfootR + L.ytibiaR + L.yfemurR → heightFromLengths L = .error .valueError) ∧
    (L.yfootL + L.ytibiaL + L.yfemurL = L.yfootR + L.ytibiaR + L.yfemurR →
      heightFromLengths L = .ok (L.yfootL + L.ytibiaL + L.yfemurL + L.yvT10 + L.yvC7 + L.yhead)) := by
  constructor
  · intro h; simp [heightFromLengths, h]
  · intro h; simp [heightFromLengths, h]

/-- C72: the height computed from the lengths made from a height is this height. -/
theorem C72_height (h : ℝ) : heightFromLengths (anatLengths h) = .ok h := by
  rw [(C72_legs _).2 (by simp [anatLengths])]
  congr 1
  simp only [anatLengths]
  ring

/-- all the anatomical lengths but those of the sternoclavicular joints and shoulders along `z` -/
def scaled (L : AnatLengths) : List ℝ :=
  [L.yvT10, L.xvT10, L.zhip, L.yfootR, L.ytibiaR, L.yfemurR, L.ysternoclavR, L.xsternoclavR, L.yshoulderR, L.xshoulderR, L.yhumerusR, L.yfootL, L.ytibiaL, L.yfemurL, L.ysternoclavL, L.xsternoclavL, L.yshoulderL, L.xshoulderL, L.yhumerusL, L.yforearmR, L.yforearmL, L.yvC7, L.yhandR, L.yhandL, L.yhead, L.xfootR, L.xfootL, L.xheelR, L.xheelL]

/-- C72: every length made from a height is a fixed positive fraction of it, but for the half inch of the sternoclavicular
joints, taken off the width of the shoulders; left and right are equal. -/
theorem C72_scaling (a h : ℝ) :
    scaled (anatLengths (a * h)) = (scaled (anatLengths h)).map (a * ·) ∧ (0 < h → ∀ l ∈ scaled (anatLengths h), 0 < l) ∧
    (anatLengths h).zsternoclavR = 0.0127 ∧ (anatLengths h).zsternoclavL = 0.0127 ∧
    (anatLengths (a * h)).zshoulderR + (anatLengths (a * h)).zsternoclavR = a * ((anatLengths h).zshoulderR + (anatLengths h).zsternoclavR) ∧
    (anatLengths h).yfootL = (anatLengths h).yfootR ∧
    (anatLengths h).ytibiaL = (anatLengths h).ytibiaR ∧
    (anatLengths h).yfemurL = (anatLengths h).yfemurR ∧
    (anatLengths h).ysternoclavL = (anatLengths h).ysternoclavR ∧
    (anatLengths h).xsternoclavL = (anatLengths h).xsternoclavR ∧
    (anatLengths h).yshoulderL = (anatLengths h).yshoulderR ∧
    (anatLengths h).xshoulderL = (anatLengths h).xshoulderR ∧
    (anatLengths h).yhumerusL = (anatLengths h).yhumerusR ∧
    (anatLengths h).yforearmL = (anatLengths h).yforearmR ∧
    (anatLengths h).yhandL = (anatLengths h).yhandR ∧
    (anatLengths h).xfootL = (anatLengths h).xfootR ∧
    (anatLengths h).xheelL = (anatLengths h).xheelR ∧
    (anatLengths h).zsternoclavL = (anatLengths h).zsternoclavR ∧
    (anatLengths h).zshoulderL = (anatLengths h).zshoulderR := by
  refine ⟨?_, ?_, ?_, ?_, ?_, rfl, rfl, rfl, rfl, rfl, rfl, rfl, rfl, rfl, rfl, rfl, rfl, rfl, rfl⟩
  · simp only [scaled, anatLengths, List.map_cons, List.map_nil, List.cons.injEq, and_true]
    refine ⟨by ring, by ring, by ring, by ring, by ring, by ring, by ring, by ring, by ring, by ring, by ring, by ring, by ring, by ring, by ring, by ring, by ring, by ring, by ring, by ring, by ring, by ring, by ring, by ring, by ring, by ring, by ring, by ring, by ring⟩
  · intro hh l hl
    simp only [scaled, anatLengths, List.mem_cons, List.not_mem_nil, or_false] at hl
    have : ∀ c : ℝ, 0 < c → 0 < c * h := fun c hc => mul_pos hc hh
    rcases hl with rfl | rfl | rfl | rfl | rfl | rfl | rfl | rfl | rfl | rfl | rfl | rfl | rfl | rfl | rfl | rfl | rfl | rfl | rfl | rfl | rfl | rfl | rfl | rfl | rfl | rfl | rfl | rfl | rfl <;> exact this _ (by norm_num)
  · simp only [anatLengths]; norm_num
  · simp only [anatLengths]; norm_num
  · simp only [anatLengths]; ring

/-- C72: the masses of the 17 segments sum to the requested mass. -/
theorem C72_mass (L : AnatLengths) (m : ℝ) : ((humanBodies L m).map fun r => r.2.1).sum = m := by
  simp [humanBodies]
  ring

/-! ### the tree -/

/-- body `k` hung by joint `k` from frame `k` -/
def Spec.hnode (nb nj ns k : ℕ) (ch sib : Forest (FrameRef × ℕ × FrameRef) ℕ) : Forest (FrameRef × ℕ × FrameRef) ℕ :=
  .cons (.sub (ns + k), nj + k, .body (nb + k)) (nb + k) ch sib

/-- The skeleton: the lower trunk `0` carries the right leg `1-2-3`, the left leg `4-5-6` and the upper trunk `7`; the upper trunk
carries the right arm `8-9-10-11`, the left arm `12-13-14-15` and the head `16`. -/
def Spec.skeleton (nb nj ns : ℕ) : Forest (FrameRef × ℕ × FrameRef) ℕ :=
  let n := hnode nb nj ns
  n 0
    (n 1 (n 2 (n 3 .nil .nil) .nil)
    (n 4 (n 5 (n 6 .nil .nil) .nil)
    (n 7
      (n 8 (n 9 (n 10 (n 11 .nil .nil) .nil) .nil)
      (n 12 (n 13 (n 14 (n 15 .nil .nil) .nil) .nil)
      (n 16 .nil .nil)))
      .nil)))
    .nil

/-- parents and children, in the order of the links -/
def humanPC (g nb : ℕ) : List (ℕ × ℕ) :=
  [(g, nb + 0), (nb + 0, nb + 1), (nb + 1, nb + 2), (nb + 2, nb + 3), (nb + 0, nb + 4), (nb + 4, nb + 5), (nb + 5, nb + 6), (nb + 0, nb + 7),
   (nb + 7, nb + 8), (nb + 8, nb + 9), (nb + 9, nb + 10), (nb + 10, nb + 11), (nb + 7, nb + 12), (nb + 12, nb + 13), (nb + 13, nb + 14),
   (nb + 14, nb + 15), (nb + 7, nb + 16)]

lemma put_append {root : ℕ} {F T : Forest (FrameRef × ℕ × FrameRef) ℕ} {p : ℕ} (h : p = root ∨ p ∉ F.bodies) (l : FrameRef × ℕ × FrameRef) (c : ℕ) :
    put root (F.append T) p l c = F.append (put root T p l c) := by
  unfold put
  split
  · rw [Forest.snoc_eq, Forest.snoc_eq, Forest.append_assoc]
  · rw [Forest.hang_append, Forest.hang_notMem (h.resolve_left (by assumption))]

lemma putAll_append {root : ℕ} {F : Forest (FrameRef × ℕ × FrameRef) ℕ} (pc : List (ℕ × ℕ)) : ∀ {T : Forest (FrameRef × ℕ × FrameRef) ℕ} {nj ns : ℕ},
    (∀ x ∈ pc, x.1 = root ∨ x.1 ∉ F.bodies) → putAll root (F.append T) nj ns pc = F.append (putAll root T nj ns pc) := by
  induction pc with
  | nil => intros; rfl
  | cons x pc ih =>
    intro T nj ns h
    simp only [putAll]
    rw [put_append (h x List.mem_cons_self), ih fun y hy => h y (List.mem_cons_of_mem _ hy)]

lemma putAll_skeleton {g nb : ℕ} (hg : g < nb) (nj ns : ℕ) : putAll g .nil nj ns (humanPC g nb) = skeleton nb nj ns := by
  have h : ∀ i, nb + i ≠ g := fun i => by omega
  have h0 : nb ≠ g := by omega
  simp [humanPC, putAll, put, h, h0, Forest.snoc, Forest.hang, skeleton, hnode, Nat.add_assoc]

lemma lookup_pre (pre : String) (names : List String) (n : String) : ∀ nb,
    (numbered nb (names.map (pre ++ ·))).lookup (pre ++ n) = (numbered nb names).lookup n := by
  induction names with
  | nil => intro nb; rfl
  | cons a l ih =>
    intro nb
    have e : (pre ++ n == pre ++ a) = (n == a) := by
      rw [Bool.eq_iff_iff]; simp [String.append_right_inj]
    simp only [List.map_cons, numbered, List.lookup, e, ih]

/-! ### building -/

/-- the names of the 17 segments -/
def Spec.segmentNames : List String :=
  ["LPT", "ThighR", "ShankR", "FootR", "ThighL", "ShankL", "FootL", "UPT", "ScapulaR", "ArmR", "ForearmR", "HandR", "ScapulaL", "ArmL",
   "ForearmL", "HandL", "Head"]

/-- the numbers of degrees of freedom of the 17 joints -/
def Spec.segmentDofs : List ℕ := [6, 3, 1, 2, 3, 1, 2, 3, 2, 3, 2, 2, 2, 3, 2, 2, 3]

lemma humanLinks_rows {L : AnatLengths} {m : ℝ} {pre : String} {g nb : ℕ} :
    List.Forall₂ (fun r x => (match r.1 with
        | none => x.1 = g
        | some n => (numbered nb ((humanBodies L m).map fun r => pre ++ r.1)).lookup (pre ++ n) = some x.1) ∧
      (numbered nb ((humanBodies L m).map fun r => pre ++ r.1)).lookup (pre ++ r.2.2.2.2) = some x.2) (humanLinks L) (humanPC g nb) := by
  have e : ((humanBodies L m).map fun r => pre ++ r.1) = segmentNames.map (pre ++ ·) := rfl
  rw [e]
  simp only [lookup_pre]
  simp only [humanLinks, humanPC, segmentNames, numbered]
  repeat' constructor

lemma ready_human {S : RS} {nb : ℕ} (hg : S.w.ground < nb) (h : ∀ k < 17, FreshBody S.w (nb + k) ∧ nb + k < S.nb) :
    Ready S [S.w.ground] (humanPC S.w.ground nb) := by
  have f : ∀ k < 17, FreshBody S.w (nb + k) := fun k hk => (h k hk).1
  have l : ∀ k < 17, nb + k < S.nb := fun k hk => (h k hk).2
  simp only [humanPC, Ready]
  iterate 17 refine ⟨by simp, f _ (by norm_num), l _ (by norm_num), by simp, ?_⟩
  trivial

lemma tags_rows {L : AnatLengths} {m h : ℝ} {pre : String} {nb : ℕ} :
    List.Forall₂ (fun r b => (numbered nb ((humanBodies L m).map fun r => pre ++ r.1)).lookup (pre ++ r.2.1) = some b) (humanTags L h)
      ([3, 3, 3, 3, 2, 1, 1, 0, 6, 6, 6, 6, 5, 4, 4, 0, 7, 7, 8, 9, 10, 11, 12, 13, 14, 15, 7, 16].map (nb + ·)) := by
  have e : ((humanBodies L m).map fun r => pre ++ r.1) = segmentNames.map (pre ++ ·) := rfl
  rw [e]
  simp only [lookup_pre]
  simp only [humanTags, segmentNames, numbered, List.map_cons, List.map_nil]
  repeat' constructor

lemma points_rows {L : AnatLengths} {h : ℝ} {pre : String} {ns : ℕ} :
    List.Forall₂ (fun r b => (numbered ns ((humanTags L h).map fun r => pre ++ r.1)).lookup (pre ++ r) = some b) humanPoints
      ([0, 1, 2, 3, 8, 9, 10, 11].map (ns + ·)) := by
  have e : ((humanTags L h).map fun r => pre ++ r.1) = ((humanTags L h).map fun r => r.1).map (pre ++ ·) := by rw [List.map_map]; rfl
  rw [e]
  simp only [lookup_pre]
  simp only [humanTags, humanPoints, numbered, List.map_cons, List.map_nil]
  repeat' constructor

lemma joints_skeleton (nb nj ns : ℕ) : joints (skeleton nb nj ns) = (List.range 17).map (nj + ·) := rfl

lemma depth_skeleton (nb nj ns : ℕ) : depth (skeleton nb nj ns) = 6 := rfl

/-- the segments the 28 tags are on -/
def Spec.tagBodies : List ℕ := [3, 3, 3, 3, 2, 1, 1, 0, 6, 6, 6, 6, 5, 4, 4, 0, 7, 7, 8, 9, 10, 11, 12, 13, 14, 15, 7, 16]

/-- what `add_human36` adds to a world: bodies numbered from `nb`, joints from `nj`, subframes from `ns` (17 for the links, then 28 tags),
8 contact points from `nsh`; `n0` is the number of dofs of the world before. -/
structure Spec.IsHuman (S' : RS) (nb nj ns nsh n0 g : ℕ) (pre : String) (L : AnatLengths) (mass h : ℝ) : Prop where
  ndof : S'.w.ndof = n0 + 42
  dofs : ∀ k < 17, (S'.w.joint (nj + k)).dof = some (n0 + (segmentDofs.take k).sum, n0 + (segmentDofs.take (k + 1)).sum)
  bodies : ∀ k (hk : k < (humanBodies L mass).length), HasBody S' (nb + k) (pre ++ (humanBodies L mass)[k].1) (humanBodies L mass)[k].2.1
    (humanBodies L mass)[k].2.2.1 (humanBodies L mass)[k].2.2.2
  links : ∀ k (hk : k < (humanLinks L).length) (hk' : k < (humanPC g nb).length), HasLink S' (nj + k) (ns + k) (humanPC g nb)[k].1
    (humanLinks L)[k].2.2.1 (some (pre ++ (humanLinks L)[k].2.2.2.1))
    (transl ((humanLinks L)[k].2.1 0) ((humanLinks L)[k].2.1 1) ((humanLinks L)[k].2.1 2))
  tags : ∀ k (hk : k < (humanTags L h).length) (hk' : k < tagBodies.length), HasTag S' (ns + 17 + k) (nb + tagBodies[k])
    (pre ++ (humanTags L h)[k].1) (transl ((humanTags L h)[k].2.2 0) ((humanTags L h)[k].2.2 1) ((humanTags L h)[k].2.2 2))
  points : ∀ k (hk : k < 8), nsh + k ∈ S'.w.shapes ∧ S'.o.shapeFrame (nsh + k) = .sub (ns + 17 + [0, 1, 2, 3, 8, 9, 10, 11][k]) ∧
    S'.geo (nsh + k) = .point

/-- C72: in every world, `add_human36` with legs of equal lengths and a nonnegative mass hangs the skeleton below the ground, after what was
there, and changes nothing else. -/
theorem C72_build {S : RS} {F : Forest (FrameRef × ℕ × FrameRef) ℕ} (hg : Good S F) {lim : ℕ} (hl : depth F < lim) (h6 : 6 < lim)
    (height : ℝ) {mass : ℝ} (hm : 0 ≤ mass) (anat : Option AnatLengths) (pre : String) {L : AnatLengths} (hL : L = anat.getD (anatLengths height))
    (hlegs : L.yfootL + L.ytibiaL + L.yfemurL = L.yfootR + L.ytibiaR + L.yfemurR) :
    ∃ S', Runs (addHuman36 lim height mass anat pre) S () S' ∧ Good S' (F.append (skeleton S.nb S.nj S.ns)) ∧ Keeps S S' ∧
      IsHuman S' S.nb S.nj S.ns S.nsh (ndofSum S.o (joints F)) S.w.ground pre L mass
        (L.yfootL + L.ytibiaL + L.yfemurL + L.yvT10 + L.yvC7 + L.yhead) := by
  have hh := (C72_legs L).2 hlegs
  generalize L.yfootL + L.ytibiaL + L.yfemurL + L.yvT10 + L.yvC7 + L.yhead = h at hh
  obtain ⟨S1, r1, g1, k1, f1, b1, j1, s1, sh1, facts1⟩ := bodies_runs pre (humanBodies L mass) hg (by
    intro r hr
    simp only [humanBodies, List.mem_cons, List.not_mem_nil, or_false] at hr
    rcases hr with rfl | rfl | rfl | rfl | rfl | rfl | rfl | rfl | rfl | rfl | rfl | rfl | rfl | rfl | rfl | rfl | rfl <;>
      simp only <;> positivity)
  have l17 : (humanBodies L mass).length = 17 := rfl
  obtain ⟨S2, v2, r2, g2, k2, b2, j2, s2, sh2, facts2⟩ := links_runs pre _ (humanLinks L) (B := [S1.w.ground]) g1 (by simp)
    (humanLinks_rows (L := L) (m := mass) (pre := pre) (g := S1.w.ground) (nb := S.nb))
    (ready_human (by rw [k1.ground]; exact hg.ground) fun k hk => ⟨(facts1 k hk).1, by rw [b1, l17]; omega⟩)
  obtain ⟨S3, r3, g3, k3, b3, j3, s3, sh3, facts3⟩ := tags_runs pre _ (humanTags L h) g2 (tags_rows (m := mass) (nb := S.nb))
  obtain ⟨S4, v4, r4, g4, k4, b4, j4, s4, sh4, facts4⟩ := points_runs pre _ humanPoints g3 (points_rows (L := L) (h := h))
  rw [k1.ground, ← Forest.append_nil F, putAll_append _ (by
    intro x hx
    have hx' : x.1 = S.w.ground ∨ ∃ k, x.1 = S.nb + k := by
      simp only [humanPC, List.mem_cons, List.not_mem_nil, or_false] at hx
      rcases hx with rfl | rfl | rfl | rfl | rfl | rfl | rfl | rfl | rfl | rfl | rfl | rfl | rfl | rfl | rfl | rfl | rfl <;>
        first | exact .inl rfl | exact .inr ⟨_, rfl⟩
    rcases hx' with h | ⟨k, h⟩
    · exact .inl h
    · refine .inr fun hb => ?_
      have := hg.bodies _ hb
      omega), putAll_skeleton hg.ground, j1, s1] at g4
  obtain ⟨w5, r5, g5, k5, f5, n5, d5⟩ := init_runs g4 (lim := lim) (by rw [depth_append, depth_skeleton]; omega)
  refine ⟨_, ?_, g5, (((k1.trans k2).trans k3).trans k4).trans k5, ?_⟩
  · unfold addHuman36
    rw [← hL]
    exact (Runs.liftE hh S).bind (r1.bind (r2.bind (r3.bind (r4.bind r5))))
  · have hnd : ∀ k < 17, S4.o.ndof (S.nj + k) = segmentDofs.getD k 0 := by
      intro k hk
      have h1 := facts2 k hk hk
      have h2 := (HasLink.keep (k3.trans k4) (by rw [j2, show (humanLinks L).length = 17 from rfl]; omega)
        (by rw [s2, show (humanLinks L).length = 17 from rfl]; omega) h1).ndof
      rw [j1] at h2
      rw [h2]
      interval_cases k <;> rfl
    have hF : ndofSum S4.o (joints F) = ndofSum S.o (joints F) := ndofSum_keeps (((k1.trans k2).trans k3).trans k4) hg.joints
    have hsum : ∀ k ≤ 17, ndofSum S4.o ((List.range k).map (S.nj + ·)) = (segmentDofs.take k).sum := by
      intro k hk
      rw [ndofSum, List.map_map, List.map_congr_left (g := fun i => segmentDofs.getD i 0) (by
        intro i hi
        exact hnd i (by have := List.mem_range.mp hi; omega))]
      interval_cases k <;> rfl
    have hJ : joints (F.append (skeleton S.nb S.nj S.ns)) = joints F ++ (List.range 17).map (S.nj + ·) := by
      rw [joints_append, joints_skeleton]
    have e17 : (humanLinks L).length = 17 := rfl
    have e28 : (humanTags L h).length = 28 := rfl
    refine ⟨?_, ?_, ?_, ?_, ?_, ?_⟩
    · change w5.ndof = _
      rw [n5, hJ, ndofSum_append, hF, hsum 17 le_rfl]
      rfl
    · intro k hk
      have := d5 (joints F ++ (List.range k).map (S.nj + ·)) (S.nj + k) ((List.range (17 - k - 1)).map (fun i => S.nj + (k + 1 + i)))
        (by rw [hJ, range_split hk]; simp only [List.append_assoc])
      change (w5.joint _).dof = _
      rw [this, ndofSum_append, hF, hsum k hk.le, hnd k hk]
      congr 2
      interval_cases k <;> rfl
    · intro k hk
      exact HasBody.keep (((k2.trans k3).trans k4).trans k5) (by omega) (facts1 k hk).2
    · intro k hk hk'
      have := HasLink.keep ((k3.trans k4).trans k5) (by omega) (by omega) (facts2 k hk hk')
      rw [j1, s1, ] at this
      simp only [k1.ground] at this
      exact this
    · intro k hk hk'
      have := HasTag.keep (k4.trans k5) (by omega) (facts3 k hk hk')
      rw [s2, s1, e17] at this
      rw [e28] at hk
      have e : S.nb + tagBodies[k] = ([3, 3, 3, 3, 2, 1, 1, 0, 6, 6, 6, 6, 5, 4, 4, 0, 7, 7, 8, 9, 10, 11, 12, 13, 14, 15, 7, 16].map (S.nb + ·))[k]'(by simpa using hk) := by
        rw [List.getElem_map]; rfl
      rw [e]
      exact this
    · intro k hk
      obtain ⟨p1, p2, p3, _⟩ := facts4 k hk hk
      rw [sh3, sh2, sh1] at p1 p2 p3
      refine ⟨k5.shapes _ p1, ?_, p3⟩
      change S4.o.shapeFrame _ = _
      rw [p2, s2, s1, e17]
      interval_cases k <;> rfl

/-- C72: the masses of the 17 bodies built sum to the requested mass. -/
theorem C72_total_mass {S' : RS} {nb nj ns nsh n0 g : ℕ} {pre : String} {L : AnatLengths} {mass h : ℝ}
    (H : IsHuman S' nb nj ns nsh n0 g pre L mass h) :
    ∃ m : ℕ → ℝ, (∀ k < 17, 0 ≤ mass → 0 ≤ m k) ∧ (∀ k < 17, ∃ c I, IsRigidMass (S'.mass (nb + k)) (m k) c I) ∧ ∑ k ∈ Finset.range 17, m k = mass := by
  refine ⟨fun k => (((humanBodies L mass).map fun r => r.2.1)).getD k 0, ?_, ?_, ?_⟩
  · intro k hk h0
    interval_cases k <;> simp only [humanBodies, List.map_cons, List.getD_cons_zero, List.getD_cons_succ] <;> positivity
  · intro k hk
    have := (H.bodies k hk).mass
    have e : (humanBodies L mass)[k].2.1 = (((humanBodies L mass).map fun r => r.2.1)).getD k 0 := by
      interval_cases k <;> rfl
    rw [e] at this
    exact ⟨_, _, this⟩
  · simp [Finset.sum_range_succ, humanBodies]
    ring

/-- where the segments are when the model is built: the lower trunk at the height of the hips, the legs straight below the hips, the upper
trunk above, the arms straight below the shoulders, the head above -/
noncomputable def Spec.standing (L : AnatLengths) : List Vec3 :=
  let leg := L.yfootL + L.ytibiaL + L.yfemurL
  [![0, leg, 0],
   ![0, leg, L.zhip / 2], ![0, L.yfootR + L.ytibiaR, L.zhip / 2], ![0, L.yfootR, L.zhip / 2],
   ![0, leg, -(L.zhip / 2)], ![0, L.yfootL + L.ytibiaL, -(L.zhip / 2)], ![0, L.yfootL, -(L.zhip / 2)],
   ![-L.xvT10, leg + L.yvT10, 0],
   ![L.xsternoclavR - L.xvT10, leg + L.yvT10 + L.ysternoclavR, L.zsternoclavR],
   ![L.xsternoclavR - L.xvT10 - L.xshoulderR, leg + L.yvT10 + L.ysternoclavR + L.yshoulderR, L.zsternoclavR + L.zshoulderR],
   ![L.xsternoclavR - L.xvT10 - L.xshoulderR, leg + L.yvT10 + L.ysternoclavR + L.yshoulderR - L.yhumerusR, L.zsternoclavR + L.zshoulderR],
   ![L.xsternoclavR - L.xvT10 - L.xshoulderR, leg + L.yvT10 + L.ysternoclavR + L.yshoulderR - L.yhumerusR - L.yforearmR, L.zsternoclavR + L.zshoulderR],
   ![L.xsternoclavL - L.xvT10, leg + L.yvT10 + L.ysternoclavL, -L.zsternoclavL],
   ![L.xsternoclavL - L.xvT10 - L.xshoulderL, leg + L.yvT10 + L.ysternoclavL + L.yshoulderL, -(L.zsternoclavL + L.zshoulderL)],
   ![L.xsternoclavL - L.xvT10 - L.xshoulderL, leg + L.yvT10 + L.ysternoclavL + L.yshoulderL - L.yhumerusL, -(L.zsternoclavL + L.zshoulderL)],
   ![L.xsternoclavL - L.xvT10 - L.xshoulderL, leg + L.yvT10 + L.ysternoclavL + L.yshoulderL - L.yhumerusL - L.yforearmL, -(L.zsternoclavL + L.zshoulderL)],
   ![0, leg + L.yvT10 + L.yvC7, 0]]

lemma transl_mul (a b c x y z : ℝ) : transl a b c * transl x y z = transl (a + x) (b + y) (c + z) := by
  rw [transl_eq, transl_eq, transl_eq, mkH_mul]
  congr 1
  · simp
  · ext i; fin_cases i <;> simp [add_comm]

lemma geoStep_link {S' : RS} {j f p b : ℕ} {a : JAttr} {name : Option String} {H : Mat4} (h : HasLink S' j f p a name H) (ha : a.val.pose = 1) (P : Mat4) :
    geoStep P (S'.linkWith S'.jattr (.sub f, j, .body b)) = P * H := by
  obtain ⟨h1, _, _, h2, _⟩ := h
  subst h1 h2
  simp only [geoStep, relPose, RS.linkWith, RS.bposeOf, invBody_one, ha, Matrix.mul_one]

lemma zero_pose (k : LinKind) : (JAttr.zero k).val.pose = 1 := C16_zero k

lemma pose_cons {k k' : ℕ} {a b c a' b' c' : ℝ} {l l' : List (ℕ × Mat4)} (h0 : k = k') (h1 : a = a') (h2 : b = b') (h3 : c = c') (h : l = l') :
    (k, transl a b c) :: l = (k', transl a' b' c') :: l' := by subst_vars; rfl

/-- C72: as built, the 17 segments stand at these places, all with the orientation of the ground. -/
theorem C72_standing {S' : RS} {nb nj ns nsh n0 g : ℕ} {pre : String} {L : AnatLengths} {mass h : ℝ}
    (H : IsHuman S' nb nj ns nsh n0 g pre L mass h) (hlegs : L.yfootL + L.ytibiaL + L.yfemurL = L.yfootR + L.ytibiaR + L.yfemurR) :
    worldGeometric ((skeleton nb nj ns).map (S'.linkWith S'.jattr) id) =
      List.zipWith (fun k v => (nb + k, transl (v 0) (v 1) (v 2))) (List.range 17) (standing L) := by
  have hk : ∀ k (hk : k < 17) P, geoStep P (S'.linkWith S'.jattr (.sub (ns + k), nj + k, .body (nb + k))) =
      P * transl ((humanLinks L)[k].2.1 0) ((humanLinks L)[k].2.1 1) ((humanLinks L)[k].2.1 2) := by
    intro k hk P
    refine geoStep_link (H.links k hk hk) ?_ P
    interval_cases k <;> first | rfl | exact zero_pose .RzRyRx | exact zero_pose .Rz | exact zero_pose .RzRx | exact zero_pose .RyRx | exact zero_pose .RzRy
  have e1 : L.yfootL + L.ytibiaL + L.yfemurL - L.yfemurR = L.yfootR + L.ytibiaR := by linarith
  simp only [worldGeometric, skeleton, hnode, Forest.map, updateGeometric]
  simp only [hk 0 (by norm_num), hk 1 (by norm_num), hk 2 (by norm_num), hk 3 (by norm_num), hk 4 (by norm_num), hk 5 (by norm_num),
    hk 6 (by norm_num), hk 7 (by norm_num), hk 8 (by norm_num), hk 9 (by norm_num), hk 10 (by norm_num), hk 11 (by norm_num),
    hk 12 (by norm_num), hk 13 (by norm_num), hk 14 (by norm_num), hk 15 (by norm_num), hk 16 (by norm_num), Matrix.one_mul]
  simp only [humanLinks, List.getElem_cons_zero, List.getElem_cons_succ, List.nil_append, List.append_nil, List.cons_append, id]
  simp only [transl_mul, standing, List.range_succ_eq_map, List.range_zero, List.map_cons, List.map_nil, List.zipWith_cons_cons, List.zipWith_nil_left]
  simp only [Matrix.cons_val_zero, Matrix.cons_val_one, Matrix.cons_val, add_zero, zero_add]
  iterate 17 refine pose_cons rfl (by linarith) (by linarith) (by linarith) ?_
  rfl

/-- C72: as built, the feet (toe tips, heels, first and fifth phalanges: the 8 contact points) are at height `0` and the top of the head is
on the vertical axis at the height computed from the lengths. -/
theorem C72_vertex_feet {S' : RS} {nb nj ns nsh n0 g : ℕ} {pre : String} {L : AnatLengths} {mass h : ℝ}
    (H : IsHuman S' nb nj ns nsh n0 g pre L mass h) (hh : heightFromLengths L = .ok h) :
    let poses := worldGeometric ((skeleton nb nj ns).map (S'.linkWith S'.jattr) id)
    (∃ t P, S'.fname t = some (pre ++ "Vertex") ∧ (S'.o.subBody t, P) ∈ poses ∧ P * S'.bpose t = transl 0 h 0) ∧
    ∀ k < 8, ∃ t P x z, S'.o.shapeFrame (nsh + k) = .sub t ∧ (S'.o.subBody t, P) ∈ poses ∧ P * S'.bpose t = transl x 0 z := by
  have hlegs : L.yfootL + L.ytibiaL + L.yfemurL = L.yfootR + L.ytibiaR + L.yfemurR := by
    by_contra e
    rw [(C72_legs L).1 e] at hh
    cases hh
  have e1 : L.yfootL + L.ytibiaL + L.yfemurL + L.yvT10 + L.yvC7 + L.yhead = h := by
    rw [(C72_legs L).2 hlegs] at hh
    exact Except.ok.inj hh
  have hpos : ∀ i (hi : i < 17), (nb + i, transl ((standing L)[i] 0) ((standing L)[i] 1) ((standing L)[i] 2)) ∈
      worldGeometric ((skeleton nb nj ns).map (S'.linkWith S'.jattr) id) := by
    intro i hi
    rw [C72_standing H hlegs, List.mem_iff_getElem]
    exact ⟨i, by rw [List.length_zipWith]; exact hi, by rw [List.getElem_zipWith, List.getElem_range]; rfl⟩
  have tag := fun k h1 => H.tags k h1 h1
  constructor
  · have t := tag 27 (by norm_num [humanTags])
    refine ⟨_, _, t.name, by rw [t.onBody]; exact hpos 16 (by norm_num), ?_⟩
    rw [t.pose, transl_mul]
    simp [standing, humanTags, ← e1]
  · intro k hk
    obtain ⟨_, p2, _⟩ := H.points k hk
    have key : ∀ q (hq : q < 28) b (hb : b < 17), tagBodies[q] = b → S'.o.shapeFrame (nsh + k) = .sub (ns + 17 + q) →
        (standing L)[b] 1 + (humanTags L h)[q].2.2 1 = 0 →
        ∃ t P x z, S'.o.shapeFrame (nsh + k) = .sub t ∧
          (S'.o.subBody t, P) ∈ worldGeometric ((skeleton nb nj ns).map (S'.linkWith S'.jattr) id) ∧ P * S'.bpose t = transl x 0 z := by
      intro q hq b hb e1 e2 e3
      have t := tag q hq
      refine ⟨_, _, (standing L)[b] 0 + (humanTags L h)[q].2.2 0, (standing L)[b] 2 + (humanTags L h)[q].2.2 2, e2, by rw [t.onBody, e1]; exact hpos b hb, ?_⟩
      rw [t.pose, transl_mul, e3]
    interval_cases k
    · exact key 0 (by norm_num) 3 (by norm_num) rfl p2 (by simp [standing, humanTags])
    · exact key 1 (by norm_num) 3 (by norm_num) rfl p2 (by simp [standing, humanTags])
    · exact key 2 (by norm_num) 3 (by norm_num) rfl p2 (by simp [standing, humanTags])
    · exact key 3 (by norm_num) 3 (by norm_num) rfl p2 (by simp [standing, humanTags])
    · exact key 8 (by norm_num) 6 (by norm_num) rfl p2 (by simp [standing, humanTags])
    · exact key 9 (by norm_num) 6 (by norm_num) rfl p2 (by simp [standing, humanTags])
    · exact key 10 (by norm_num) 6 (by norm_num) rfl p2 (by simp [standing, humanTags])
    · exact key 11 (by norm_num) 6 (by norm_num) rfl p2 (by simp [standing, humanTags])

/-- C72: legs of different lengths are a `ValueError` and a negative mass an `AssertionError`, before anything is added to the world. -/
theorem C72_errors (S : RS) (lim : ℕ) (height mass : ℝ) (anat : Option AnatLengths) (pre : String) {L : AnatLengths}
    (hL : L = anat.getD (anatLengths height)) :
    (L.yfootL + L.ytibiaL + L.yfemurL ≠ L.yfootR + L.ytibiaR + L.yfemurR → addHuman36 lim height mass anat pre S = .error .valueError) ∧
    (L.yfootL + L.ytibiaL + L.yfemurL = L.yfootR + L.ytibiaR + L.yfemurR → mass < 0 →
      addHuman36 lim height mass anat pre S = .error .assertion) := by
  constructor
  · intro h
    unfold addHuman36
    rw [← hL]
    apply bind_error
    rw [(C72_legs L).1 h]
    rfl
  · intro h hm
    unfold addHuman36
    rw [← hL]
    refine Spec.Runs.bind_error (Runs.liftE ((C72_legs L).2 h) S) (bind_error ?_)
    change each (humanAddBody pre) (_ :: _) S = _
    refine bind_error ?_
    obtain ⟨H, h1, h2, _, hM⟩ := gyrRigid (0.275 * mass) ![0, 0.5108*L.yvT10, 0] (L.yvT10 • ![0.2722, 0.2628, 0.226])
    refine Spec.Runs.bind_error (Runs.liftE h1 S) (Spec.Runs.bind_error (Runs.liftE h2 S) (bind_error ?_))
    refine if_neg ?_
    rintro (e | e)
    · cases e
    · have h5 := e.2.2 (0.275 * mass) ⟨tw 0 ![0, 1, 0], ?_, ?_⟩
      · simp only [if_true] at h5; linarith
      · intro e; have := congrFun e 4; simp [tw] at this
      · simp only [Option.getD_some]
        rw [hM.eq, blk_mulVec]
        ext i; fin_cases i <;> simp [tw, skew, Matrix.mulVec, dotProduct, Fin.sum_univ_three]

/-- A concrete human: 1.74 m, 73 kg, in an empty world. -/
example : ∃ S', Runs (addHuman36 1000 1.74 73 none "") RS.new () S' ∧ S'.w.ndof = 42 := by
  obtain ⟨S', r, _, _, H⟩ := C72_build good_new (lim := 1000) (by simp [depth]) (by norm_num) 1.74 (mass := 73) (by norm_num) none "" rfl
    (by simp [anatLengths])
  exact ⟨S', r, by rw [H.ndof]; rfl⟩

/-! ### C82: symmetry -/

/-- the matrix of the reflection `z ↦ -z` -/
def Spec.mirrorZ : Mat3 := Matrix.diagonal ![1, 1, -1]

/-- `M'` is the mass matrix of the mirror image of a body of mass matrix `M`: same mass, mirrored centre of mass, mirrored inertia -/
def Spec.Mirrored (M M' : Mat6) : Prop :=
  ∃ m c I, IsRigidMass M m c I ∧ IsRigidMass M' m (mirrorZ *ᵥ c) (mirrorZ * I * mirrorZ)

/-- right and left segments -/
def Spec.sides : List (ℕ × ℕ) := [(1, 4), (2, 5), (3, 6), (8, 12), (9, 13), (10, 14), (11, 15)]

/-- the claim: a human made from a height is symmetric -/
def C82_Claim : Prop := ∀ {S' : RS} {nb nj ns nsh n0 g : ℕ} {pre : String} {height mass h : ℝ}, 0 < height → 0 < mass →
  IsHuman S' nb nj ns nsh n0 g pre (anatLengths height) mass h → ∀ x ∈ sides, Mirrored (S'.mass (nb + x.1)) (S'.mass (nb + x.2))

lemma diag3_eq (a b c : ℝ) : (Matrix.diagonal ![a, b, c] : Mat3) = !![a, 0, 0; 0, b, 0; 0, 0, c] := by
  ext i j; fin_cases i <;> fin_cases j <;> rfl

lemma mirrored_gyr {S' : RS} {b b' : ℕ} {n n' : String} {m m' : ℝ} {c c' g g' : Vec3} (h : HasBody S' b n m c g) (h' : HasBody S' b' n' m' c' g')
    (hm : m' = m) (hc : c' = mirrorZ *ᵥ c) (hg : g' = g) : Mirrored (S'.mass b) (S'.mass b') := by
  subst hm hc hg
  refine ⟨m', c, _, h.mass, ?_⟩
  have e : mirrorZ * (m' • (diagonal ![g' 0 ^ 2, g' 1 ^ 2, g' 2 ^ 2] - skew c * skew c)) * mirrorZ =
      m' • (diagonal ![g' 0 ^ 2, g' 1 ^ 2, g' 2 ^ 2] - skew (mirrorZ *ᵥ c) * skew (mirrorZ *ᵥ c)) := by
    simp only [mirrorZ, diag3_eq]
    ext i j; fin_cases i <;> fin_cases j <;>
      simp [skew, Matrix.mul_apply, Fin.sum_univ_three, Matrix.mulVec, dotProduct]
  rw [e]
  exact h'.mass

lemma mirrored_com {S' : RS} {b b' : ℕ} {n n' : String} {m m' : ℝ} {c c' g g' : Vec3} (h : HasBody S' b n m c g) (h' : HasBody S' b' n' m' c' g')
    (hm : m' = m) (hc : c' = mirrorZ *ᵥ c) :
    ∃ m c I I', IsRigidMass (S'.mass b) m c I ∧ IsRigidMass (S'.mass b') m (mirrorZ *ᵥ c) I' := by
  subst hm hc
  exact ⟨_, _, _, _, h.mass, h'.mass⟩

lemma mirrorZ_mulVec (a b c : ℝ) : mirrorZ *ᵥ ![a, b, c] = ![a, b, -c] := by
  ext i; fin_cases i <;> simp [mirrorZ, Matrix.mulVec_diagonal]

lemma mirror_zz (I : Mat3) : (mirrorZ * I * mirrorZ) 0 0 = I 0 0 := by
  simp [mirrorZ, Matrix.mul_apply, Fin.sum_univ_three, Matrix.diagonal]

/-- C82: all limbs but the hands are symmetric; the hands have the same mass and mirrored centres of mass; as built all segments stand at
mirrored places. -/
theorem C82_partial {S' : RS} {nb nj ns nsh n0 g : ℕ} {pre : String} {height mass h : ℝ}
    (H : IsHuman S' nb nj ns nsh n0 g pre (anatLengths height) mass h) :
    (∀ x ∈ sides, x ≠ (11, 15) → Mirrored (S'.mass (nb + x.1)) (S'.mass (nb + x.2))) ∧
    (∃ m c I I', IsRigidMass (S'.mass (nb + 11)) m c I ∧ IsRigidMass (S'.mass (nb + 15)) m (mirrorZ *ᵥ c) I') ∧
    ∀ x ∈ sides, ((standing (anatLengths height)).getD x.2 0) = mirrorZ *ᵥ (standing (anatLengths height)).getD x.1 0 := by
  have B := H.bodies
  refine ⟨?_, ?_, ?_⟩
  · intro x hx hne
    simp only [sides, List.mem_cons, List.not_mem_nil, or_false] at hx
    rcases hx with rfl | rfl | rfl | rfl | rfl | rfl | rfl
    · exact mirrored_gyr (B 1 (by norm_num [humanBodies])) (B 4 (by norm_num [humanBodies])) rfl
        (by ext i; fin_cases i <;> simp [humanBodies, anatLengths, mirrorZ, Matrix.mulVec_diagonal]) rfl
    · exact mirrored_gyr (B 2 (by norm_num [humanBodies])) (B 5 (by norm_num [humanBodies])) rfl
        (by ext i; fin_cases i <;> simp [humanBodies, anatLengths, mirrorZ, Matrix.mulVec_diagonal]) rfl
    · exact mirrored_gyr (B 3 (by norm_num [humanBodies])) (B 6 (by norm_num [humanBodies])) rfl
        (by ext i; fin_cases i <;> simp [humanBodies, anatLengths, mirrorZ, Matrix.mulVec_diagonal]) rfl
    · exact mirrored_gyr (B 8 (by norm_num [humanBodies])) (B 12 (by norm_num [humanBodies])) rfl
        (by ext i; fin_cases i <;> simp [humanBodies, mirrorZ, Matrix.mulVec_diagonal]) rfl
    · exact mirrored_gyr (B 9 (by norm_num [humanBodies])) (B 13 (by norm_num [humanBodies])) rfl
        (by ext i; fin_cases i <;> simp [humanBodies, anatLengths, mirrorZ, Matrix.mulVec_diagonal]) rfl
    · exact mirrored_gyr (B 10 (by norm_num [humanBodies])) (B 14 (by norm_num [humanBodies])) rfl
        (by ext i; fin_cases i <;> simp [humanBodies, anatLengths, mirrorZ, Matrix.mulVec_diagonal]) rfl
    · exact absurd rfl hne
  · exact mirrored_com (B 11 (by norm_num [humanBodies])) (B 15 (by norm_num [humanBodies])) rfl
      (by ext i; fin_cases i <;> simp [humanBodies, anatLengths, mirrorZ, Matrix.mulVec_diagonal])
  · intro x hx
    simp only [sides, List.mem_cons, List.not_mem_nil, or_false] at hx
    rcases hx with rfl | rfl | rfl | rfl | rfl | rfl | rfl <;>
      simp only [standing, List.getD_cons_zero, List.getD_cons_succ, mirrorZ_mulVec, anatLengths, neg_neg]

lemma mirrored_inertia {S' : RS} {b b' : ℕ} {n n' : String} {m m' : ℝ} {c c' g g' : Vec3} (h : HasBody S' b n m c g) (h' : HasBody S' b' n' m' c' g')
    (hM : Mirrored (S'.mass b) (S'.mass b')) : m * (g 0 ^ 2 + (c 2 ^ 2 + c 1 ^ 2)) = m' * (g' 0 ^ 2 + (c' 2 ^ 2 + c' 1 ^ 2)) := by
  obtain ⟨_, _, I, h1, h2⟩ := hM
  have e1 := congrFun (congrFun (h1.eq.symm.trans h.mass.eq) 0) 0
  have e2 := congrFun (congrFun (h2.eq.symm.trans h'.mass.eq) 0) 0
  have b0 : ∀ A B C D : Mat3, blk A B C D 0 0 = A 0 0 := fun A B C D => rfl
  rw [b0, b0] at e1 e2
  rw [mirror_zz, e1] at e2
  simp only [diag3_eq] at e2
  simp [skew, Matrix.mul_apply, Fin.sum_univ_three] at e2
  linarith

lemma hands_differ (h m : ℝ) (hh : 0 < h) (hm : 0 < m) (l11 : 11 < (humanBodies (anatLengths h) m).length) (l15 : 15 < (humanBodies (anatLengths h) m).length) :
    (humanBodies (anatLengths h) m)[11].2.1 * ((humanBodies (anatLengths h) m)[11].2.2.2 0 ^ 2 + ((humanBodies (anatLengths h) m)[11].2.2.1 2 ^ 2 +
      (humanBodies (anatLengths h) m)[11].2.2.1 1 ^ 2)) ≠
    (humanBodies (anatLengths h) m)[15].2.1 * ((humanBodies (anatLengths h) m)[15].2.2.2 0 ^ 2 + ((humanBodies (anatLengths h) m)[15].2.2.1 2 ^ 2 +
      (humanBodies (anatLengths h) m)[15].2.2.1 1 ^ 2)) := by
  simp only [humanBodies, anatLengths, List.getElem_cons_succ, List.getElem_cons_zero]
  simp
  refine ⟨?_, by norm_num, hm.ne'⟩
  have : 0 < h ^ 2 := by positivity
  nlinarith

/-- C82: the hands are not symmetric: the radii of gyration of the left hand are those of the right hand about the other axis.  This holds for
every height and mass. -/
theorem C82_false : ¬ C82_Claim ∧ ∀ {S' : RS} {nb nj ns nsh n0 g : ℕ} {pre : String} {height mass h : ℝ}, 0 < height → 0 < mass →
    IsHuman S' nb nj ns nsh n0 g pre (anatLengths height) mass h → ¬ Mirrored (S'.mass (nb + 11)) (S'.mass (nb + 15)) := by
  have key : ∀ {S' : RS} {nb nj ns nsh n0 g : ℕ} {pre : String} {height mass h : ℝ}, 0 < height → 0 < mass →
      IsHuman S' nb nj ns nsh n0 g pre (anatLengths height) mass h → ¬ Mirrored (S'.mass (nb + 11)) (S'.mass (nb + 15)) := by
    intro S' nb nj ns nsh n0 g pre height mass h h1 h2 H hM
    exact hands_differ height mass h1 h2 _ _ (mirrored_inertia (H.bodies 11 (by norm_num [humanBodies])) (H.bodies 15 (by norm_num [humanBodies])) hM)
  refine ⟨fun hC => ?_, key⟩
  obtain ⟨S', r, _, _, H⟩ := C72_build good_new (lim := 1000) (by simp [depth]) (by norm_num) 1 (mass := 1) (by norm_num) none ""
    (L := anatLengths 1) rfl (by simp [anatLengths])
  exact key one_pos one_pos H (hC one_pos one_pos H (11, 15) (by simp [sides]))

end Arboris
