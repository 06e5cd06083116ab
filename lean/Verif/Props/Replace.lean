import Verif.Props.Graph

/-!
# C57: `replace_joint`
-/

namespace Arboris
open Graph Spec

/-- substitute one joint for another -/
def subst (old new j : ℕ) : ℕ := if j = old then new else j

/-- the same tree with joint `old` replaced by joint `new`, in place -/
def replaceIn (old new : ℕ) (F : Forest (FrameRef × ℕ × FrameRef) ℕ) : Forest (FrameRef × ℕ × FrameRef) ℕ :=
  F.map (fun l => (l.1, subst old new l.2.1, l.2.2)) id

lemma replaceIn_bodies (old new F) : (replaceIn old new F).bodies = F.bodies := by
  unfold replaceIn
  induction F with
  | nil => rfl
  | cons l b ch sib ih1 ih2 => simp [Forest.map, Forest.bodies, ih1, ih2]

lemma replaceIn_joints (old new F) : joints (replaceIn old new F) = (joints F).map (subst old new) := by
  unfold replaceIn joints
  induction F with
  | nil => rfl
  | cons l b ch sib ih1 ih2 =>
    simp only [Forest.map, Forest.links, List.map_cons, List.map_append, List.cons_append, ih1, ih2]

lemma replaceIn_depth (old new F) : depth (replaceIn old new F) = depth F := by
  unfold replaceIn
  induction F with
  | nil => rfl
  | cons l b ch sib ih1 ih2 => simp [Forest.map, depth, ih1, ih2]

lemma Spec.Unfolds.link {o : Objs} {w : World} {b js F} (h : Unfolds o w b js F) {j : ℕ} (hj : j ∈ joints F) :
    ∃ f0 f1, (w.joint j).frame0 = some f0 ∧ (w.joint j).frame1 = some f1 ∧ (w.body (o.bodyOf f1)).parent = some j := by
  induction h with
  | nil => simp [joints, Forest.links] at hj
  | @cons b k js f0 f1 ch sib h0 h1 hb hpar hch hsib ihc ihs =>
    simp only [joints, Forest.links, List.map_cons, List.map_append, List.cons_append, List.mem_cons,
      List.mem_append] at hj ihc ihs
    rcases hj with rfl | hj | hj
    · exact ⟨f0, f1, h0, h1, hpar⟩
    · exact ihc hj
    · exact ihs hj

lemma surgery_map {c : List ℕ} {old new : ℕ} (hn : c.Nodup) (ho : old ∈ c) :
    (c ++ [new]).dropLast.set ((c ++ [new]).idxOf old) new = c.map (subst old new) := by
  rw [List.dropLast_concat, List.idxOf_append_of_mem ho]
  induction c with
  | nil => simp at ho
  | cons a t ih =>
    obtain ⟨hat, ht⟩ := List.nodup_cons.mp hn
    by_cases ha : a = old
    · subst ha
      simp only [List.idxOf_cons_self, List.set_cons_zero, List.map_cons, subst, if_true]
      congr 1
      rw [List.map_congr_left (g := id)]
      · simp
      · intro x hx
        have : x ≠ a := fun e => hat (e ▸ hx)
        simp [subst, this]
    · rw [List.idxOf_cons_ne _ ha, List.set_cons_succ, ih ht (by simpa [Ne.symm ha] using ho)]
      simp [subst, ha]

/-- C57.  Replacing a joint of the world by an unattached one succeeds and leaves the same tree, with the new joint at
exactly the old one's place (same attachments, same bodies, same order); the old joint is free again. -/
theorem C57_in_place_partial {o : Objs} {lim g : ℕ} {ops : List Op} (hh : AllowedHistory o lim (World.new g) ops)
    {w : World} (hw : w = runAll o lim (World.new g) ops)
    {F : Forest (FrameRef × ℕ × FrameRef) ℕ} (hF : IsTree o w F) (hlim : depth F < lim)
    {old new : ℕ} (hold : old ∈ joints F) (h0 : (w.joint new).frame0 = none) (h1 : (w.joint new).frame1 = none) :
    ∃ w', replaceJoint o w lim old [.joint new] = (w', .ok ()) ∧ IsTree o w' (replaceIn old new F) ∧
      iterBodies o w' lim = iterBodies o w lim ∧
      iterJoints o w' lim = .ok ((joints F).map (subst old new)) ∧
      (w'.joint old).frame0 = none ∧ (w'.joint old).frame1 = none := by
  have hI : GInv o w := hw ▸ GInv.runAll (GInv.new o g) hh
  obtain ⟨g0, g1, e0, e1, hpar⟩ := hF.unfolds.link hold
  have hkid : old ∈ (w.body (o.bodyOf g0)).children := by
    obtain ⟨f0, f1, a, b, c, d⟩ := hI.par _ _ hpar
    rw [e0] at a
    simp at a
    rwa [a]
  have hno : new ≠ old := by rintro rfl; rw [h0] at e0; simp at e0
  have hnew : ∀ b, new ∉ (w.body b).children := fun b hb => by
    obtain ⟨_, _, a, _⟩ := hI.kids b new hb
    rw [h0] at a; simp at a
  have hguard : replaceGuard o w old = .ok (g0, g1) := by
    unfold replaceGuard
    simp [e0, e1, hkid, hpar]
  -- the state before `init`
  set w1 := setFrames (setParent w (o.bodyOf g1) none) old none none with hw1
  set w2 := registerFrame (registerFrame (setChildren (setParent (setFrames w1 new (some g0) (some g1)) (o.bodyOf g1)
      (some new)) (o.bodyOf g0) ((w.body (o.bodyOf g0)).children ++ [new])) g0) g1 with hw2
  have hadd : addLink o w1 [.frame g0, .joint new, .frame g1] = (w2, .ok ()) := by
    rw [addLink, if_pos (by
      simp only [hw1, setFrames_frame0, setFrames_frame1, if_neg hno, setParent_joint, h0, h1]; simp)]
    have : addLink1 o w1 g0 new g1 = (w2, .ok ()) := by
      unfold addLink1
      simp only
      rw [if_pos (by simp [hw1, setParent_parent])]
      simp [hw2, hw1]
    rw [this]
    rfl
  have hc2 : (w2.body (o.bodyOf g0)).children = (w.body (o.bodyOf g0)).children ++ [new] := by
    simp [hw2, setChildren_children]
  set w3 := setChildren w2 (o.bodyOf g0) ((w.body (o.bodyOf g0)).children.map (subst old new)) with hw3
  have hrep : replaceJoint o w lim old [.joint new] = Graph.init o w3 lim := by
    unfold replaceJoint
    rw [hguard]
    simp only
    unfold replaceChain
    simp only [e0, e1, and_self, if_true]
    rw [← hw1, hadd]
    simp only [hc2, List.getLast?_concat]
    rw [surgery_map (hI.nodup _) hkid]
  -- structure of the final state
  obtain ⟨s1, s2, s3, s4, _⟩ := init_structure o w3 lim
  set w4 := (Graph.init o w3 lim).1 with hw4
  have hch : ∀ b, (w4.body b).children = (w.body b).children.map (subst old new) := by
    intro b
    rw [s1, hw3, setChildren_children]
    split_ifs with hb
    · rw [hb]
    · simp only [hw2, registerFrame_body, setChildren_children, if_neg hb, setParent_children, setFrames_body, hw1]
      rw [List.map_congr_left (g := id) (fun x hx => ?_)]
      · simp
      · have : x ≠ old := by
          rintro rfl
          obtain ⟨f0, f1, a, _, c, _⟩ := hI.kids b x hx
          rw [e0] at a
          simp at a
          subst a
          exact hb c.symm
        simp [subst, this]
  have hf0 : ∀ j, j ≠ new → (w4.joint (subst old new j)).frame0 = (w.joint j).frame0 := by
    intro j hj
    rw [s3]
    simp only [hw3, hw2, hw1, setChildren_joint, registerFrame_joint, setParent_joint, setFrames_frame0, subst]
    by_cases h : j = old
    · simp [h, e0]
    · simp [h, hj]
  have hf1 : ∀ j, j ≠ new → (w4.joint (subst old new j)).frame1 = (w.joint j).frame1 := by
    intro j hj
    rw [s4]
    simp only [hw3, hw2, hw1, setChildren_joint, registerFrame_joint, setParent_joint, setFrames_frame1, subst]
    by_cases h : j = old
    · simp [h, e1]
    · simp [h, hj]
  have hpp : ∀ b, (w4.body b).parent = (w.body b).parent.map (subst old new) := by
    intro b
    rw [s1, hw3]
    simp only [setChildren_parent, hw2, registerFrame_body, setParent_parent, setFrames_body, hw1]
    by_cases hb : b = o.bodyOf g1
    · simp [hb, hpar, subst]
    · simp only [if_neg hb]
      rcases hx : (w.body b).parent with _ | k
      · rfl
      · have : k ≠ old := by
          rintro rfl
          obtain ⟨f0, f1, a, b', c, _⟩ := hI.par b k hx
          rw [e1] at b'
          simp at b'
          subst b'
          exact hb c.symm
        simp [subst, this]
  have hu : ∀ {b js G}, Unfolds o w b js G → (∀ k ∈ js, k ≠ new) →
      Unfolds o w4 b (js.map (subst old new)) (replaceIn old new G) := by
    intro b js G hG
    induction hG with
    | nil => exact fun _ => .nil _
    | @cons b k js f0 f1 ch sib h0 h1 hb hpar hch' hsib ihc ihs =>
      intro hk
      have hkn := hk k List.mem_cons_self
      refine .cons ?_ ?_ hb ?_ ?_ (ihs fun k' hk' => hk k' (List.mem_cons_of_mem _ hk'))
      · rw [hf0 k hkn, h0]
      · rw [hf1 k hkn, h1]
      · rw [hpp, hpar]; rfl
      · rw [hch]; exact ihc fun k' hk' e => hnew _ (e ▸ hk')
  have hg : w4.ground = w.ground := by rw [s2]; simp [hw3, hw2, hw1]
  have hT : IsTree o w4 (replaceIn old new F) := by
    refine ⟨?_, ?_, ?_, ?_⟩
    · rw [hg, hch]; exact hu hF.unfolds (fun k hk e => hnew _ (e ▸ hk))
    · rw [hg, hpp, hF.root]; rfl
    · rw [hg, replaceIn_bodies]; exact hF.bodies_nodup
    · rw [replaceIn_joints]
      refine hF.joints_nodup.map_on ?_
      intro x hx y hy hxy
      have hne : ∀ {z}, z ∈ joints F → z ≠ new := by
        rintro z hz rfl
        obtain ⟨f0, _, a, _⟩ := hF.unfolds.link hz
        rw [h0] at a; simp at a
      unfold subst at hxy
      split_ifs at hxy with c1 c2 c2
      · rw [c1, c2]
      · exact absurd hxy.symm (hne hy)
      · exact absurd hxy (hne hx)
      · exact hxy
  have hT3 : Unfolds o w3 w3.ground (w3.body w3.ground).children (replaceIn old new F) := by
    have : ∀ {b js G}, Unfolds o w4 b js G → Unfolds o w3 b js G := by
      intro b js G hG
      induction hG with
      | nil => exact .nil _
      | cons h0 h1 hb hpar hch hsib ihc ihs =>
        rw [s1] at hpar ihc
        exact .cons (by rw [← s3, h0]) (by rw [← s4, h1]) hb hpar ihc ihs
    have hh := this hT.unfolds
    rwa [s1, s2] at hh
  have hok : (Graph.init o w3 lim).2 = .ok () := by
    unfold Graph.init iterJoints
    rw [Unfolds.iterDescJoints hT3 (by rw [replaceIn_depth]; exact hlim)]
  refine ⟨w4, ?_, hT, ?_, ?_, ?_, ?_⟩
  · rw [hrep, hw4, ← hok]
  · rw [(C54_iter hT (by rw [replaceIn_depth]; exact hlim)).1, (C54_iter hF hlim).1, hg, replaceIn_bodies]
  · rw [(C54_iter hT (by rw [replaceIn_depth]; exact hlim)).2.1, replaceIn_joints]
  · rw [s3]
    simp [hw3, hw2, hw1, setFrames_frame0, Ne.symm hno]
  · rw [s4]
    simp [hw3, hw2, hw1, setFrames_frame1, Ne.symm hno]

/-- the claim: a `replace_joint` that raises leaves a world that can still be used -/
def C57_Claim : Prop := ∀ (o : Objs) (lim g : ℕ) (ops : List Op) (old : ℕ) (args : List Arg),
  AllowedHistory o lim (World.new g) ops →
  ∃ lim' l, iterJoints o (replaceJoint o (runAll o lim (World.new g) ops) lim old args).1 lim' = .ok l

/-- C57 is false of the code for failing calls: replacing a joint by one that is already attached raises
`AssertionError` after the old joint has been cut off, and the world cannot be traversed any more. -/
theorem C57_false : ¬ C57_Claim := by
  intro h
  obtain ⟨lim', l, hl⟩ := h plainObjs 9 0 [.addLink [.frame (.body 0), .joint 0, .frame (.body 1), .frame (.body 1),
    .joint 1, .frame (.body 2)]] 0 [.joint 1] ⟨by
      intro f hf; simp [frame1s] at hf; rcases hf with rfl | rfl <;> decide, trivial⟩
  cases lim' with
  | zero => simp [iterJoints, iterDescJoints] at hl
  | succ k =>
    set w := (replaceJoint plainObjs (runAll plainObjs 9 (World.new 0) [.addLink [.frame (.body 0), .joint 0,
      .frame (.body 1), .frame (.body 1), .joint 1, .frame (.body 2)]]) 9 0 [.joint 1]).1 with hw
    have c0 : (w.body w.ground).children = [0] := rfl
    have f0 : frame1Body plainObjs w 0 = .error .attributeError := rfl
    rw [iterJoints, iterDescJoints, c0] at hl
    simp [f0, bind, Except.bind] at hl

/-- the hypotheses of `C57_in_place_partial` are met -/
example : ∃ F, IsTree plainObjs (runAll plainObjs 9 (World.new 0) [.addLink [.frame (.body 0), .joint 0,
    .frame (.body 1), .frame (.body 1), .joint 1, .frame (.body 2)]]) F ∧ 0 ∈ joints F ∧ depth F < 9 := by
  refine ⟨.cons (.body 0, 0, .body 1) 1 (.cons (.body 1, 1, .body 2) 2 .nil .nil) .nil, ⟨?_, rfl, ?_, ?_⟩, ?_, ?_⟩
  · exact .cons (f0 := .body 0) (f1 := .body 1) rfl rfl rfl rfl
      (.cons (f0 := .body 1) (f1 := .body 2) rfl rfl rfl rfl (.nil _) (.nil _)) (.nil _)
  · decide
  · decide
  · decide
  · decide

end Arboris
