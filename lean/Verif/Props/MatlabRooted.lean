import Verif.Props.MatlabConvert
import Verif.Props.MatlabSim

/-!
# C115: robots that `MatlabConverter` does not make ready
-/

namespace Arboris
open Graph Spec Build Matlab

section
variable {S : RS} {F G : Forest (FrameRef × ℕ × FrameRef) ℕ} {c : Conf} {lim con b : ℕ} {l : FrameRef × ℕ × FrameRef}

/-- C115.  Other joints stay as they are: if some joint below a free root is neither a hinge nor one of the four joints of
several rotations, the robot, once converted, is refused by `make_robot`. -/
theorem C115_others (hg : Good S F) (hn : Node F l b G) (hroot : S.o.bodyOf l.1 = S.w.ground) (hm : 0 ≤ c.base_mass)
    (hlim : 3 * depth F + 3 ≤ lim) (hfree : ∃ H T, S.jattr l.2.1 = .free H T)
    (hbad : ∃ l' ∈ G.links, hinge (S.jattr l'.2.1) = none ∧ rotations (S.jattr l'.2.1) = none) (name : String) (s : St) :
    ∃ S' s', Runs (convertRobot c lim con l.2.1) S () S' ∧ makeRobot S' lim l.2.1 name s = .error .runtimeError s' := by
  obtain ⟨H, T, hf⟩ := hfree
  obtain ⟨S', C, r, g, k, fl, sp, oth, ft, -⟩ := C115_convert (con := con) hg hn hroot hm hlim (fun h => absurd hf (h H T))
  unfold Floating at fl
  rw [hf] at fl
  have hC : EndsRight C F := by
    intro x hx L e
    by_cases h1 : x = l
    · rw [h1, fl] at e; cases e
    by_cases h2 : x ∈ G.links
    · exact ((split_facts (sp x h2)).1 L e).2.1
    · rw [oth x hx h1 h2] at e; cases e
  have hCG : EndsRight C G := fun x hx => hC x ((node_mem hn).2.2 x hx)
  have hu := node_unfolds g.tree.unfolds (node_replaceAll S'.o hC hn fl)
  have hd := replaceAll_depth S'.o (C := C) (F := G) fun x hx L e => ((split_facts (sp x hx)).1 L e).1
  have hdG := node_depth hn
  obtain ⟨l', hl', h1, h2⟩ := hbad
  have hc : C l'.2.1 = none := (split_facts (sp l' hl')).2.mpr h2
  have hlinks := replaceAll_links S'.o (C := C) (F := G) (fun x hx e => by obtain ⟨hne, _⟩ := hCG x hx [] e; exact hne rfl)
  obtain ⟨s', h'⟩ := C111_refused hu (lim := lim) (by omega) name (.inr ⟨l', by rw [hlinks, List.mem_flatMap]; exact ⟨l', hl', by rw [hc]; simp⟩, by
    rw [(k.joint _ (hg.joints _ (List.mem_map.mpr ⟨l', (node_mem hn).2.2 l' hl', rfl⟩))).1]; exact h1⟩) s
  exact ⟨S', s', r, h'⟩

/-! ### a root that is not free -/

lemma addShapesLoop_bad (S : RS) : ∀ (vs : List ℕ) d old (s : St), (∃ v ∈ vs, s.bmap.lookup (onName S v) = none) →
    ∃ e s', addShapesLoop S vs d old s = .error e s'
  | [], _, _, _, h => by simp at h
  | v :: vs, d, old, s, h => by
    unfold addShapesLoop
    rw [bind_run]
    simp only [get, getThe, MonadStateOf.get, EStateM.get]
    cases hv : s.bmap.lookup (S.bname (S.o.bodyOf (S.o.shapeFrame v))) with
    | none => exact ⟨_, _, rfl⟩
    | some x =>
      obtain ⟨br, bd⟩ := x
      simp only
      cases ht : shapeText (S.geo v) old with
      | none => exact ⟨_, _, rfl⟩
      | some y =>
        obtain ⟨t, dims⟩ := y
        simp only
        rw [bind_run]
        simp only [write, modify, modifyGet, MonadStateOf.modifyGet, EStateM.modifyGet]
        apply addShapesLoop_bad S vs
        obtain ⟨w, hw, e⟩ := h
        rcases List.mem_cons.mp hw with rfl | hw
        · unfold onName at e
          rw [hv] at e
          cases e
        · exact ⟨w, hw, e⟩

/-- a shape on a body whose name no body of the robot bears -/
lemma makeRobot_strange {S : RS} {p : ℕ} {l : FrameRef × ℕ × FrameRef} {b : ℕ} {ch : Forest (FrameRef × ℕ × FrameRef) ℕ}
    (hu : Unfolds S.o S.w p [l.2.1] (.cons l b ch .nil)) (hnd : (p :: b :: ch.bodies).Nodup) {lim : ℕ} (hl : depth ch + 1 < lim) {v : ℕ} (hv : v ∈ S.w.shapes)
    (hname : ∀ x ∈ b :: ch.bodies, S.bname x ≠ onName S v) (name : String) (out : List Item) :
    ∃ e s', makeRobot S lim l.2.1 name ⟨out, [], []⟩ = .error e s' := by
  by_cases hroot : ∃ H T, S.jattr l.2.1 = .free H T
  · by_cases hh : ∀ l' ∈ ch.links, (hinge (S.jattr l'.2.1)).isSome
    · have h : IsMatlabRobot S p l b ch := ⟨hu, hnd, hroot, hh⟩
      obtain ⟨H, T, hr⟩ := hroot
      obtain ⟨br, ht⟩ := traverse_robot h hl ⟨out ++ [.tree name], [], []⟩
      obtain ⟨e, s1, hbad⟩ := addShapesLoop_bad S S.w.shapes [] none (appendSt S (robotE p l b ch) ⟨out ++ [.tree name], [], []⟩) ⟨v, hv, by
        rw [List.lookup_eq_none_iff]
        intro x hx
        simp only [appendSt, List.append_nil, List.mem_reverse, List.mem_map] at hx
        obtain ⟨y, hy, rfl⟩ := hx
        have hy' : y.body ∈ b :: ch.bodies := by
          rw [← robotE_bodies p l b ch]
          exact List.mem_map.mpr ⟨y, hy, rfl⟩
        simp only [bne_iff_ne, ne_eq]
        exact fun e => hname _ hy' e.symm⟩
      have hb : body S lim l.2.1 name ⟨out, [], []⟩ = .error e s1 := by
        unfold body
        rw [bind_run]
        simp only [write, modify, modifyGet, MonadStateOf.modifyGet, EStateM.modifyGet]
        rw [bind_run, addBranch_run] at ht ⊢
        simp only at ht ⊢
        rw [bind_run, ht]
        simp only
        rw [bind_run]
        unfold addShapes
        rw [bind_run, hbad]
      unfold makeRobot
      rw [hr]
      simp only [tryCatch, tryCatchThe, MonadExceptOf.tryCatch, EStateM.tryCatch]
      rw [hb]
      exact ⟨_, _, rfl⟩
    · push Not at hh
      obtain ⟨l', hl', h'⟩ := hh
      obtain ⟨s', h⟩ := C111_refused hu hl name (.inr ⟨l', hl', by simpa using h'⟩) ⟨out, [], []⟩
      exact ⟨_, s', h⟩
  · push Not at hroot
    obtain ⟨s', h⟩ := C111_refused hu hl name (.inl hroot) ⟨out, [], []⟩
    exact ⟨_, s', h⟩

lemma hingeChain_names {m : ℝ} {S S' : RS} {name : Option String} : ∀ {ks f0 f1 L}, HingeChain m S S' name f0 ks f1 L →
    ∀ x ∈ L, x.2.2 = f1 ∨ ∃ b, x.2.2 = .body b ∧ S'.bname b = none := by
  intro ks
  induction ks with
  | nil => intro f0 f1 L h; simp [HingeChain] at h
  | cons k ks ih =>
    intro f0 f1 L h
    cases L with
    | nil => cases ks <;> simp [HingeChain] at h
    | cons x xs =>
      cases ks with
      | nil =>
        cases xs with
        | nil =>
          intro z hz
          obtain rfl := List.mem_singleton.mp hz
          exact .inl h.2.1
        | cons y ys =>
          obtain ⟨_, _, b, _, _, h'⟩ := h
          simp [HingeChain] at h'
      | cons k' ks =>
        cases xs with
        | nil =>
          obtain ⟨_, _, b, _, _, h'⟩ := h
          cases ks <;> simp [HingeChain] at h'
        | cons y ys =>
          obtain ⟨e, hj, b, eb, nb, h'⟩ := h
          intro z hz
          rcases List.mem_cons.mp hz with rfl | hz
          · exact .inr ⟨b, eb, nb.2.2.2⟩
          · exact ih h' z hz

lemma node_nodup {o : Objs} {w : World} {p : ℕ} {js : List ℕ} (h : Unfolds o w p js F) (hnd : (p :: F.bodies).Nodup) (hn : Node F l b G) :
    (o.bodyOf l.1 :: b :: G.bodies).Nodup := by
  induction hn generalizing p js with
  | here l b ch sib =>
    cases h with
    | cons h0 h1 hb hp hch hsib =>
      simp only at *
      rw [hb]
      exact hnd.sublist (.cons₂ _ (by simp only [Forest.bodies, List.cons_append]; exact .cons₂ _ (List.sublist_append_left ..)))
  | down hn ih =>
    cases h with
    | cons h0 h1 hb hp hch hsib =>
      exact ih hch (hnd.sublist (.cons _ (by simp only [Forest.bodies, List.cons_append]; exact .cons₂ _ (List.sublist_append_left ..))))
  | right hn ih =>
    cases h with
    | cons h0 h1 hb hp hch hsib =>
      exact ih hsib (hnd.sublist (.cons₂ _ (by simp only [Forest.bodies, List.cons_append]; exact .cons _ (List.sublist_append_right ..))))

lemma node_of_mem (h : l ∈ F.links) : ∃ b G, Node F l b G := by
  induction F with
  | nil => simp [Forest.links] at h
  | cons x bx ch sib ih1 ih2 =>
    simp only [Forest.links, List.cons_append, List.mem_cons, List.mem_append] at h
    rcases h with rfl | h | h
    · exact ⟨_, _, .here ..⟩
    · obtain ⟨b, G, hn⟩ := ih1 h; exact ⟨b, G, .down hn⟩
    · obtain ⟨b, G, hn⟩ := ih2 h; exact ⟨b, G, .right hn⟩

/-- C115: the conversion of a robot whose root is not free is of no use: no `generate_simulation` can be made of the world
any more (there are constraints) and (when no body bears the name of the ground) no robot of the world, be it the
converted one or another, can be written by `make_robot` any more, from whatever joint (there is a shape on the ground). -/
theorem C115_fixed (hg : Good S F) (hn : Node F l b G) (hroot : S.o.bodyOf l.1 = S.w.ground) (hm : 0 ≤ c.base_mass) (hr : 0 ≤ c.contact_radius)
    (hlim : 3 * depth F + 6 ≤ lim) (hp : Past S con) (hfix : NotFreeJ S l.2.1) (hname : S.bname S.w.ground ≠ none)
    (hnames : ∀ x ∈ F.bodies, S.bname x ≠ S.bname S.w.ground) :
    ∃ S', Runs (convertRobot c lim con l.2.1) S () S' ∧
      (∀ lim' up weight timeline name s s', generateSimulation S' lim' up weight timeline name s ≠ .ok () s') ∧
      ∀ F', Good S' F' → ∀ j ∈ joints F', ∀ name out s', makeRobot S' lim j name ⟨out, [], []⟩ ≠ .ok () s' := by
  have hl := (node_mem hn).1
  obtain ⟨S', C, r, g, k, fl, sp, oth, ft, -⟩ := C115_convert (lim := lim) hg hn hroot hm (by omega) (fun _ => ⟨hp, hr⟩)
  have hfl : ∃ fr base, C l.2.1 = some [(l.1, fr, .body base), (.body base, l.2.1, l.2.2)] ∧ S'.jattr fr = .free 1 0 ∧ S'.bname base = none := by
    unfold Floating at fl
    cases hj : S.jattr l.2.1 with
    | free H T => exact absurd hj (hfix H T)
    | lin a b d =>
      rw [hj] at fl
      obtain ⟨fr, base, h1, -, -, -, -, h2, -, h3, -⟩ := fl
      exact ⟨fr, base, h1, h2, h3⟩
    | fixed =>
      rw [hj] at fl
      obtain ⟨fr, base, h1, -, -, -, -, h2, -, h3, -⟩ := fl
      exact ⟨fr, base, h1, h2, h3⟩
  have hft : ∃ gp, gp ∈ S'.w.shapes ∧ S'.o.shapeFrame gp = .body S.w.ground ∧ S'.w.constraints ≠ [] := by
    unfold FeetOn at ft
    cases hj : S.jattr l.2.1 with
    | free H T => exact absurd hj (hfix H T)
    | lin a b d =>
      rw [hj] at ft
      obtain ⟨base, fr, gp, s1, s2, s3, s4, -, h2, h3, -, h5, -⟩ := ft
      exact ⟨gp, by rw [h2]; simp, h5, by rw [h3]; simp⟩
    | fixed =>
      rw [hj] at ft
      obtain ⟨base, fr, gp, s1, s2, s3, s4, -, h2, h3, -, h5, -⟩ := ft
      exact ⟨gp, by rw [h2]; simp, h5, by rw [h3]; simp⟩
  obtain ⟨fr, base, hX, hfr, hbn⟩ := hfl
  obtain ⟨gp, hgp, hgf, hcon⟩ := hft
  have hC : EndsRight C F := by
    intro x hx L e
    by_cases h1 : x = l
    · rw [h1, hX] at e
      cases e
      exact ⟨by simp, by rw [h1]; rfl⟩
    by_cases h2 : x ∈ G.links
    · exact ((split_facts (sp x h2)).1 L e).2.1
    · rw [oth x hx h1 h2] at e; cases e
  have h3 : ∀ x ∈ F.links, ∀ L, C x.2.1 = some L → L.length ≤ 3 := by
    intro x hx L e
    by_cases h1 : x = l
    · rw [h1, hX] at e
      cases e
      simp
    by_cases h2 : x ∈ G.links
    · exact ((split_facts (sp x h2)).1 L e).1
    · rw [oth x hx h1 h2] at e; cases e
  have hd := replaceAll_depth S'.o (C := C) h3
  have hlinks := replaceAll_links S'.o (C := C) (F := F) (fun x hx e => by obtain ⟨hne, _⟩ := hC x hx [] e; exact hne rfl)
  have hgn : S'.bname S.w.ground = S.bname S.w.ground := (k.body _ hg.ground).2
  have hold : ∀ x ∈ F.links, S'.bname (S'.o.bodyOf x.2.2) ≠ S.bname S.w.ground := by
    intro x hx
    have hb : S.o.bodyOf x.2.2 ∈ F.bodies := by
      rw [unfolds_bodies hg.tree.unfolds]
      exact List.mem_map.mpr ⟨x, hx, rfl⟩
    rw [k.bodyOf (hg.frames x hx).2, (k.body _ (hg.bodies _ hb)).2]
    exact hnames _ hb
  have hall : ∀ x ∈ (replaceAll S'.o C F).bodies, S'.bname x ≠ S.bname S.w.ground := by
    intro x hx
    rw [unfolds_bodies g.tree.unfolds, hlinks, List.mem_map] at hx
    obtain ⟨y, hy, rfl⟩ := hx
    obtain ⟨z, hz, hy⟩ := List.mem_flatMap.mp hy
    by_cases h1 : z = l
    · subst h1
      rw [hX] at hy
      simp only [Option.getD_some, List.mem_cons, List.not_mem_nil, or_false] at hy
      rcases hy with rfl | rfl
      · rw [show S'.bname (S'.o.bodyOf (.body base)) = none from hbn]
        exact fun e => hname e.symm
      · exact hold z hz
    by_cases h2 : z ∈ G.links
    · have hs := sp z h2
      unfold Split at hs
      split at hs
      · rw [hs] at hy
        obtain rfl := List.mem_singleton.mp hy
        exact hold _ hz
      · obtain ⟨L, e, hc⟩ := hs
        rw [e] at hy
        rcases hingeChain_names hc y hy with e' | ⟨b', e', e2⟩
        · rw [e']
          exact hold _ hz
        · rw [e']
          rw [show S'.bname (S'.o.bodyOf (.body b')) = none from e2]
          exact fun e => hname e.symm
    · rw [oth z hz h1 h2] at hy
      obtain rfl := List.mem_singleton.mp hy
      exact hold _ hz
  refine ⟨S', r, ?_, ?_⟩
  · intro lim' up weight timeline name s s' h
    obtain ⟨_, _, _, _, _, hs, _⟩ := C114_written h
    exact hcon hs.noConstraint
  · intro F' g' j hj name out s' h
    obtain rfl := Unfolds.det g'.tree.unfolds g.tree.unfolds
    obtain ⟨l', hl', rfl⟩ := List.mem_map.mp hj
    obtain ⟨b', G', hn'⟩ := node_of_mem hl'
    have hgo : onName S' gp = S.bname S.w.ground := by
      unfold onName
      rw [hgf]
      exact hgn
    obtain ⟨e, s1, h1⟩ := makeRobot_strange (node_unfolds g.tree.unfolds hn') (node_nodup g.tree.unfolds g.tree.bodies_nodup hn') (lim := lim)
      (by have := node_depth hn'; omega) hgp (by
        rw [hgo]
        exact fun x hx => hall x ((node_sublist hn').subset hx)) name out
    rw [h1] at h
    cases h

end

/-- C115, the full claim (class docstring: the first joint should be free, the other ones should be hinges, "this works
around" both): a robot without shapes, whose joints, besides the first, are hinges or joints of several rotations, can
be written by `make_robot`, once converted, from some joint. -/
def C115_Claim : Prop :=
  ∀ (S : RS) (F G : Forest (FrameRef × ℕ × FrameRef) ℕ) (c : Conf) (lim con b : ℕ) (l : FrameRef × ℕ × FrameRef), Good S F → Node F l b G →
    S.o.bodyOf l.1 = S.w.ground → 0 ≤ c.base_mass → 0 ≤ c.contact_radius → 3 * depth F + 6 ≤ lim → Past S con → S.w.shapes = [] → G ≠ .nil →
    (∀ l' ∈ G.links, (hinge (S.jattr l'.2.1)).isSome ∨ (rotations (S.jattr l'.2.1)).isSome) →
    ∃ S' F' j, Runs (convertRobot c lim con l.2.1) S () S' ∧ Good S' F' ∧ j ∈ joints F' ∧
      ∀ name, ∃ s', makeRobot S' lim j name ⟨[], [], []⟩ = .ok () s'

/-- an arm of two hinges, fixed to the ground -/
noncomputable def exArm2 : RS where
  o := ⟨fun _ => 0, fun _ => .body 0, fun _ => [], fun _ => 1⟩
  w := { ground := 0, subframes := [], shapes := [], constraints := [], controllers := [], ndof := 2,
         body := fun b => match b with | 0 => ⟨none, [0]⟩ | 1 => ⟨some 0, [1]⟩ | 2 => ⟨some 1, []⟩ | _ => {},
         joint := fun j => match j with | 0 => ⟨some (.body 0), some (.body 1), some (0, 1)⟩ | 1 => ⟨some (.body 1), some (.body 2), some (1, 2)⟩ | _ => {} }
  nb := 3
  nj := 2
  ns := 0
  nsh := 0
  mass := fun _ => 1
  jattr := fun _ => .lin .Rz 0 0
  bpose := fun _ => 1
  geo := fun _ => .point
  bname := fun b => match b with | 0 => some "ground" | 1 => some "Arm" | 2 => some "Forearm" | _ => none
  jname := fun _ => none
  fname := fun _ => none
  shname := fun _ => none

/-- the forearm -/
def exArm2Tree : Forest (FrameRef × ℕ × FrameRef) ℕ := .cons (.body 1, 1, .body 2) 2 .nil .nil

lemma exArm2_good : Good exArm2 (.cons (.body 0, 0, .body 1) 1 exArm2Tree .nil) where
  tree := ⟨.cons (f0 := .body 0) (f1 := .body 1) rfl rfl rfl rfl (.cons (f0 := .body 1) (f1 := .body 2) rfl rfl rfl rfl (.nil _) (.nil _)) (.nil _), rfl,
    by decide, by decide⟩
  ground := by decide
  bodies := by decide
  frames := by
    intro l hl
    simp [exArm2Tree, Forest.links] at hl
    rcases hl with rfl | rfl <;> exact ⟨show _ < 3 by decide, show _ < 3 by decide⟩
  joints := by decide
  ndof := by
    intro j _
    rfl

/-- C115: the full claim is false: of an arm of two hinges on the ground (as the planar arm of the second example of the
docstring) no joint can be given to `make_robot` after the conversion. -/
theorem C115_false : ¬ C115_Claim := by
  intro h
  obtain ⟨S', F', j, r, g', hj, hw⟩ := h exArm2 _ exArm2Tree {} 20 0 1 (.body 0, 0, .body 1) exArm2_good (.here ..) rfl (by norm_num) (by norm_num)
    (by decide) ⟨by simp [exArm2], by simp [exArm2]⟩ rfl (by simp [exArm2Tree]) (by
      intro l' _
      exact .inl rfl)
  obtain ⟨S1, r1, -, h2⟩ := C115_fixed (c := {}) (lim := 20) (con := 0) exArm2_good (.here ..) rfl (by norm_num) (by norm_num)
    (by decide) ⟨by simp [exArm2], by simp [exArm2]⟩ (by intro H T e; cases e) (by simp [exArm2]) (by
      intro x hx
      simp [exArm2Tree, Forest.bodies] at hx
      rcases hx with rfl | rfl <;> simp [exArm2])
  unfold Runs at r r1
  rw [r] at r1
  cases r1
  obtain ⟨s', h'⟩ := hw ""
  exact h2 F' g' j hj "" [] s' h'

/-- C98 with the same joint again: the first joint of this arm is put on a new body 5, on a new joint 7 -/
example : ∃ w', replaceJoint exArm2.o exArm2.w 5 0 (linkArgs [(.body 0, 7, .body 5), (.body 5, 0, .body 1)]) = (w', .ok ()) ∧
    iterJoints exArm2.o w' 5 = .ok [7, 0, 1] := by
  obtain ⟨w', h, -, hj, -⟩ := C98_reuse exArm2_good.tree (lim := 5) (L := [(.body 0, 7, .body 5), (.body 5, 0, .body 1)]) (old := 0) (by decide) (by decide) rfl rfl
    { ne := by simp
      path := ⟨rfl, rfl, rfl⟩
      joints := by
        intro l hl
        simp at hl
        rcases hl with rfl | rfl
        · exact .inr ⟨rfl, rfl⟩
        · exact .inl rfl
      joints_nodup := by decide
      bodies := by
        intro l hl
        simp at hl
        subst hl
        exact ⟨by decide, rfl, rfl⟩
      bodies_nodup := by decide }
  exact ⟨w', h, hj⟩

end Arboris
