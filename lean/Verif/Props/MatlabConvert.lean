import Verif.Proofs.MatlabConvert6
import Verif.Props.MatlabRefused

/-!
# C115: robots made ready for Matlab by `MatlabConverter`
-/

namespace Arboris
open Graph Spec Build Matlab

section
variable {S : RS} {F G : Forest (FrameRef × ℕ × FrameRef) ℕ} {c : Conf} {lim con b : ℕ} {l : FrameRef × ℕ × FrameRef}

lemma node_depth (hn : Node F l b G) : depth G < depth F := by
  induction hn with
  | here => simp only [depth]; omega
  | down _ ih => simp only [depth]; omega
  | right _ ih => simp only [depth]; omega

/-- C115.  In every world, `convert_robot` of the robot `G` that hangs, by a link `l`, from the ground (a base mass and a
contact radius that are not negative): the world is the same tree, where every joint below the first which is of several
rotations is replaced by the hinges of these rotations, in the same order from the parent to the child, named after the
joint, between the same two frames, through new bodies; the first joint, when it is not free, is put on a new box of
mass `base_mass`, on a new free joint; what is not of the robot is not touched, and all that existed (masses, joints'
states, frames, shapes) is unchanged.  A robot of free root gets no shape nor constraint; another gets a box on the ground
and, below the base, four spheres with a contact each. -/
theorem C115_convert (hg : Good S F) (hn : Node F l b G) (hroot : S.o.bodyOf l.1 = S.w.ground) (hm : 0 ≤ c.base_mass)
    (hlim : 3 * depth F + 3 ≤ lim) (hp : NotFreeJ S l.2.1 → Past S con ∧ 0 ≤ c.contact_radius) :
    ∃ S' C, Runs (convertRobot c lim con l.2.1) S () S' ∧ Good S' (replaceAll S'.o C F) ∧ Keeps S S' ∧
      Floating c S S' l (C l.2.1) ∧ (∀ l' ∈ G.links, Split c.base_mass S S' l' (C l'.2.1)) ∧
      (∀ l' ∈ F.links, l' ≠ l → l' ∉ G.links → C l'.2.1 = none) ∧
      FeetOn c con S S' l (C l.2.1) ∧ S'.w.controllers = S.w.controllers := by
  have hl := (node_mem hn).1
  have hu := unfolds_ends hg.tree.unfolds hl
  have hb := unfolds_labelled hg.tree.unfolds _ _ _ hn
  have hjl : l.2.1 ∉ joints G := by
    have : ∀ {F' : Forest (FrameRef × ℕ × FrameRef) ℕ} {l b G}, Node F' l b G → (joints F').Nodup → l.2.1 ∉ joints G := by
      intro F' l b G hn
      induction hn with
      | here l b ch sib =>
        intro h
        simp only [joints, Forest.links, List.cons_append, List.map_cons, List.map_append, List.nodup_cons, List.nodup_append, List.mem_append, not_or] at h
        exact h.1.1
      | down _ ih =>
        intro h
        simp only [joints, Forest.links, List.cons_append, List.map_cons, List.map_append, List.nodup_cons, List.nodup_append] at h
        exact ih h.2.1
      | right _ ih =>
        intro h
        simp only [joints, Forest.links, List.cons_append, List.map_cons, List.map_append, List.nodup_cons, List.nodup_append] at h
        exact ih h.2.2.1
    exact this hn hg.tree.joints_nodup
  obtain ⟨S1, X, r1, i1, fl, ft, ct⟩ := root_runs (lim := lim) hg hl hroot hm (by omega) hp
  have hdG : depth G < lim := by
    have := node_depth hn
    omega
  have hne : ∀ l' ∈ G.links, l'.2.1 ≠ l.2.1 := fun l' hl' e => hjl (e ▸ List.mem_map.mpr ⟨l', hl', rfl⟩)
  obtain ⟨S2, C, r2, i2, k2, e2, sp2⟩ := conv_traverse hg hm hlim i1 hn hdG (fun l' hl' => by rw [Function.update_of_ne (hne l' hl')])
  have sm := SameP.traverseConv c lim lim b _ _ _ r2
  have hC : C l.2.1 = X := by rw [e2 _ hjl, Function.update_self]
  refine ⟨S2, C, ?_, i2.good, i2.keeps, ?_, sp2, ?_, ?_, sm.controllers.trans ct⟩
  · unfold convertRobot
    refine (show Runs look S S S from rfl).bind ?_
    simp only [hu.2.1]
    refine r1.bind ?_
    rw [← hb]
    exact r2
  · rw [hC]; exact floating_mono k2 fl
  · intro l' hl' hne' hnG
    have h1 : l'.2.1 ∉ joints G := by
      intro h
      obtain ⟨x, hx, e⟩ := List.mem_map.mp h
      exact hnG (List.inj_on_of_nodup_map hg.tree.joints_nodup ((node_mem hn).2.2 x hx) hl' e ▸ hx)
    have h2 : l'.2.1 ≠ l.2.1 := fun e => hne' (List.inj_on_of_nodup_map hg.tree.joints_nodup hl' hl e)
    rw [e2 _ h1, Function.update_of_ne h2]
  · rw [hC]; exact feetOn_mono k2 sm ft

/-! ### the robot may now be written -/

lemma node_spine (o : Objs) {G : Forest (FrameRef × ℕ × FrameRef) ℕ} : ∀ (L : List (FrameRef × ℕ × FrameRef)) (ch sib), L ≠ [] →
    (∀ {l b}, Node ch l b G → Node (spine o L ch sib) l b G) ∧ ∀ {l b}, Node sib l b G → Node (spine o L ch sib) l b G
  | [], _, _, h => absurd rfl h
  | [x], ch, sib, _ => ⟨fun h => .down h, fun h => .right h⟩
  | x :: y :: L, ch, sib, _ => by
    have := node_spine o (G := G) (y :: L) ch .nil (by simp)
    exact ⟨fun h => .down (this.1 h), fun h => .right h⟩

lemma node_replaceAll (o : Objs) {C : ℕ → Option (List (FrameRef × ℕ × FrameRef))} (hC : EndsRight C F) (hn : Node F l b G) (hl : C l.2.1 = none) :
    Node (replaceAll o C F) l b (replaceAll o C G) := by
  induction hn with
  | here l b ch sib => simp only [replaceAll, hl]; exact .here ..
  | @down x bx ch sib l' b' ch' hn ih =>
    have i := ih (fun y hy => hC y (by simp [Forest.links, hy])) hl
    cases hx : C x.2.1 with
    | none => simp only [replaceAll, hx]; exact .down i
    | some L =>
      simp only [replaceAll, hx]
      exact (node_spine o L _ _ (hC x (by simp [Forest.links]) L hx).1).1 i
  | @right x bx ch sib l' b' ch' hn ih =>
    have i := ih (fun y hy => hC y (by simp [Forest.links, hy])) hl
    cases hx : C x.2.1 with
    | none => simp only [replaceAll, hx]; exact .right i
    | some L =>
      simp only [replaceAll, hx]
      exact (node_spine o L _ _ (hC x (by simp [Forest.links]) L hx).1).2 i

lemma node_sublist (hn : Node F l b G) : (b :: G.bodies).Sublist F.bodies := by
  induction hn with
  | here l b ch sib => simp only [Forest.bodies, List.cons_append]; exact .cons₂ _ (List.sublist_append_left ..)
  | down _ ih => simp only [Forest.bodies, List.cons_append]; exact .cons _ (ih.trans (List.sublist_append_left ..))
  | right _ ih => simp only [Forest.bodies, List.cons_append]; exact .cons _ (ih.trans (List.sublist_append_right ..))

lemma node_unfolds {o : Objs} {w : World} {p : ℕ} {js : List ℕ} (h : Unfolds o w p js F) (hn : Node F l b G) :
    Unfolds o w (o.bodyOf l.1) [l.2.1] (.cons l b G .nil) := by
  induction hn generalizing p js with
  | here l b ch sib =>
    cases h with
    | cons h0 h1 hb hp hch hsib => exact .cons h0 h1 rfl hp hch (.nil _)
  | down _ ih =>
    cases h with
    | cons h0 h1 hb hp hch hsib => exact ih hch
  | right _ ih =>
    cases h with
    | cons h0 h1 hb hp hch hsib => exact ih hsib

lemma hingeChain_hinges {m : ℝ} {S S' : RS} {name : Option String} : ∀ {ks f0 f1 L}, (∀ k ∈ ks, k = .Rx ∨ k = .Ry ∨ k = .Rz) → HingeChain m S S' name f0 ks f1 L →
    ∀ x ∈ L, (hinge (S'.jattr x.2.1)).isSome := by
  intro ks
  induction ks with
  | nil => intro f0 f1 L _ h; simp [HingeChain] at h
  | cons k ks ih =>
    intro f0 f1 L hk h
    have hnew : ∀ j, IsNewHinge S S' name k j → (hinge (S'.jattr j)).isSome := by
      intro j hj
      rw [hj.2.2.1]
      rcases hk k List.mem_cons_self with rfl | rfl | rfl <;> rfl
    cases L with
    | nil => cases ks <;> simp [HingeChain] at h
    | cons x xs =>
      cases ks with
      | nil =>
        cases xs with
        | nil =>
          intro z hz
          obtain rfl := List.mem_singleton.mp hz
          exact hnew _ h.2.2
        | cons y ys =>
          obtain ⟨_, _, b, _, _, h'⟩ := h
          simp [HingeChain] at h'
      | cons k' ks =>
        cases xs with
        | nil =>
          obtain ⟨_, _, b, _, _, h'⟩ := h
          cases ks <;> simp [HingeChain] at h'
        | cons y ys =>
          obtain ⟨e, hj, b, eb, nb, h'⟩ := h
          intro z hz
          rcases List.mem_cons.mp hz with rfl | hz
          · exact hnew _ hj
          · exact ih (fun k hk' => hk k (List.mem_cons_of_mem _ hk')) h' z hz

lemma rotations_hinges {a : JAttr} {ks : List LinKind} (h : rotations a = some ks) : ∀ k ∈ ks, k = .Rx ∨ k = .Ry ∨ k = .Rz := by
  unfold rotations at h
  split at h <;> cases h <;> simp

lemma rotations_ndof {a : JAttr} {ks : List LinKind} (h : rotations a = some ks) : ks.length = a.ndof := by
  unfold rotations at h
  split at h <;> cases h <;> rfl

lemma hinge_ndof {a : JAttr} (h : (hinge a).isSome) : a.ndof = 1 := by
  unfold hinge at h
  split at h <;> first | rfl | cases h

/-- what the chains of `C115_convert` are, for the proofs below -/
lemma split_facts {m : ℝ} {S S' : RS} {l : FrameRef × ℕ × FrameRef} {X} (h : Split m S S' l X) :
    (∀ L, X = some L → L.length ≤ 3 ∧ (∃ hne : L ≠ [], (L.getLast hne).2.2 = l.2.2) ∧ (∀ x ∈ L, (hinge (S'.jattr x.2.1)).isSome) ∧
      L.length = (S.jattr l.2.1).ndof) ∧
    (X = none ↔ rotations (S.jattr l.2.1) = none) := by
  unfold Split at h
  split at h
  · rename_i e
    subst h
    exact ⟨fun L e => (by cases e), by simp [e]⟩
  · rename_i ks e
    obtain ⟨L, rfl, hch⟩ := h
    obtain ⟨h1, h2, -⟩ := hingeChain_facts hch
    refine ⟨fun L' e' => ?_, by simp [e]⟩
    cases e'
    exact ⟨by have := rotations_length e; omega, h2, hingeChain_hinges (rotations_hinges e) hch, by rw [h1, rotations_ndof e]⟩

/-- C115.  A robot of free root whose other joints are hinges or joints of several rotations becomes, by `convert_robot`, a
robot that `MatlabRobotGenerator` can write: a free root, and only hinges; the bodies and the root are the same ones, and
so are the shapes and constraints; there are as many hinges as degrees of freedom before. -/
theorem C115_ready (hg : Good S F) (hn : Node F l b G) (hroot : S.o.bodyOf l.1 = S.w.ground) (hm : 0 ≤ c.base_mass)
    (hlim : 3 * depth F + 3 ≤ lim) (hfree : ∃ H T, S.jattr l.2.1 = .free H T)
    (hk : ∀ l' ∈ G.links, (hinge (S.jattr l'.2.1)).isSome ∨ (rotations (S.jattr l'.2.1)).isSome) :
    ∃ S' G', Runs (convertRobot c lim con l.2.1) S () S' ∧ IsMatlabRobot S' S.w.ground l b G' ∧ Keeps S S' ∧
      depth G' ≤ 3 * depth G ∧ (G ≠ .nil → G' ≠ .nil) ∧ (∀ x ∈ G.bodies, x ∈ G'.bodies) ∧
      G'.links.length = (G.links.map fun x => (S.jattr x.2.1).ndof).sum ∧
      S'.w.shapes = S.w.shapes ∧ S'.o.shapeFrame = S.o.shapeFrame ∧ S'.w.constraints = S.w.constraints := by
  obtain ⟨H, T, hf⟩ := hfree
  have hl := (node_mem hn).1
  obtain ⟨S', C, r, g, k, fl, sp, oth, ft, -⟩ := C115_convert (con := con) hg hn hroot hm hlim (fun h => absurd hf (h H T))
  unfold Floating at fl
  unfold FeetOn at ft
  rw [hf] at fl ft
  have hC : EndsRight C F := by
    intro x hx L e
    by_cases h1 : x = l
    · rw [h1, fl] at e; cases e
    by_cases h2 : x ∈ G.links
    · exact ((split_facts (sp x h2)).1 L e).2.1
    · rw [oth x hx h1 h2] at e; cases e
  have hCG : EndsRight C G := fun x hx => hC x ((node_mem hn).2.2 x hx)
  have hn' := node_replaceAll S'.o hC hn fl
  have hu := node_unfolds g.tree.unfolds hn'
  have hgr : S'.o.bodyOf l.1 = S.w.ground := by rw [k.bodyOf (hg.frames l hl).1, hroot]
  rw [hgr] at hu
  have hlinks := replaceAll_links S'.o (C := C) (F := G) (fun x hx e => by obtain ⟨hne, _⟩ := hCG x hx [] e; exact hne rfl)
  have hch : Unfolds S'.o S'.w b (S'.w.body b).children (replaceAll S'.o C G) := unfolds_node hn hC (by
    intro l' b' ch' hn''
    rw [k.bodyOf (hg.frames l' (node_mem hn'').1).2]
    exact unfolds_labelled hg.tree.unfolds _ _ _ hn'') g.tree.unfolds
  have hch0 : Unfolds S.o S.w b (S.w.body b).children G := by
    have := unfolds_node (C := fun _ => none) hn (fun _ _ _ e => (by cases e)) (unfolds_labelled hg.tree.unfolds)
      (by rw [replaceAll_none]; exact hg.tree.unfolds)
    rwa [replaceAll_none] at this
  refine ⟨S', replaceAll S'.o C G, r, ⟨hu, ?_, ⟨H, T, (k.joint _ (hg.joints _ (List.mem_map.mpr ⟨l, hl, rfl⟩))).1.trans hf⟩, ?_⟩, k, ?_, ?_, ?_, ?_, ft.1, ft.2.2.1, ft.2.1⟩
  · have := g.tree.bodies_nodup
    rw [k.ground] at this
    exact this.sublist (.cons₂ _ (node_sublist hn'))
  · intro x hx
    rw [hlinks, List.mem_flatMap] at hx
    obtain ⟨y, hy, hx⟩ := hx
    have hf := split_facts (sp y hy)
    cases hc : C y.2.1 with
    | none =>
      rw [hc] at hx hf
      obtain rfl : x = y := List.mem_singleton.mp hx
      rw [(k.joint _ (hg.joints _ (List.mem_map.mpr ⟨x, (node_mem hn).2.2 x hy, rfl⟩))).1]
      rcases hk x hy with h | h
      · exact h
      · rw [hf.2.mp rfl] at h
        cases h
    | some L =>
      rw [hc] at hx hf
      exact (hf.1 L rfl).2.2.1 x hx
  · exact replaceAll_depth S'.o fun x hx L e => ((split_facts (sp x hx)).1 L e).1
  · intro hne e
    apply hne
    have : (replaceAll S'.o C G).links = [] := by rw [e]; rfl
    rw [hlinks] at this
    cases G with
    | nil => rfl
    | cons y by' ch sib =>
      exfalso
      simp only [Forest.links, List.cons_append, List.flatMap_cons, List.append_eq_nil_iff] at this
      cases hc : C y.2.1 with
      | none => rw [hc] at this; simp at this
      | some L =>
        rw [hc] at this
        exact (hCG y (by simp [Forest.links]) L hc).1 this.1
  · intro x hx
    rw [unfolds_bodies hch0] at hx
    obtain ⟨y, hy, rfl⟩ := List.mem_map.mp hx
    have hold := (hg.frames y ((node_mem hn).2.2 y hy)).2
    rw [unfolds_bodies hch, ← k.bodyOf hold, List.mem_map]
    cases hc : C y.2.1 with
    | none => exact ⟨y, by rw [hlinks, List.mem_flatMap]; exact ⟨y, hy, by rw [hc]; simp⟩, rfl⟩
    | some L =>
      obtain ⟨hne, e⟩ := hCG y hy L hc
      exact ⟨L.getLast hne, by rw [hlinks, List.mem_flatMap]; exact ⟨y, hy, by rw [hc]; exact List.getLast_mem hne⟩, by rw [e]⟩
  · rw [hlinks, List.length_flatMap]
    congr 1
    apply List.map_congr_left
    intro x hx
    have hf := split_facts (sp x hx)
    cases hc : C x.2.1 with
    | none =>
      rw [hc] at hf
      rcases hk x hx with h | h
      · rw [hinge_ndof h]; rfl
      · rw [hf.2.mp rfl] at h
        cases h
    | some L =>
      rw [hc] at hf
      exact (hf.1 L rfl).2.2.2

/-- C115.  Such a robot, once converted, can be written for Matlab by `make_robot` if it has more than one body and if the
world has no shape elsewhere than on the robot (and no plane), and the file read back rebuilds the converted robot. -/
theorem C115_write (hg : Good S F) (hn : Node F l b G) (hroot : S.o.bodyOf l.1 = S.w.ground) (hm : 0 ≤ c.base_mass)
    (hlim : 3 * depth F + 3 ≤ lim) (hfree : ∃ H T, S.jattr l.2.1 = .free H T)
    (hk : ∀ l' ∈ G.links, (hinge (S.jattr l'.2.1)).isSome ∨ (rotations (S.jattr l'.2.1)).isSome) (hG : G ≠ .nil)
    (hs : ∀ v ∈ S.w.shapes, v < S.nsh ∧ S.o.bodyOf (S.o.shapeFrame v) ∈ b :: G.bodies ∧ Old S (S.o.shapeFrame v) ∧ ¬ isPlane (S.geo v))
    (name : String) (out : List Item) :
    ∃ S' G', Runs (convertRobot c lim con l.2.1) S () S' ∧ IsMatlabRobot S' S.w.ground l b G' ∧
      ∃ s' new place, makeRobot S' lim l.2.1 name ⟨out, [], []⟩ = .ok () s' ∧ s'.out = out ++ new ∧ Set.InjOn place {x | x ∈ b :: G'.bodies} ∧
        mat2py (exec new) = (linksBelow S.w.ground (.cons l b G' .nil)).map (asCall S' S.w.ground place) := by
  obtain ⟨S', G', r, hR, k, hd, hne, hb, -, hsh, hsf, -⟩ := C115_ready (con := con) hg hn hroot hm hlim hfree hk
  have hdG := node_depth hn
  refine ⟨S', G', r, hR, C111_roundtrip hR (hne hG) (by omega) ?_ name out⟩
  intro v hv
  rw [hsh] at hv
  obtain ⟨h0, h1, h2, h3⟩ := hs v hv
  refine ⟨?_, by rw [(k.shape v h0).1]; exact h3⟩
  rw [hsf, k.bodyOf h2]
  rcases List.mem_cons.mp h1 with h | h
  · rw [h]; exact List.mem_cons_self
  · exact List.mem_cons_of_mem _ (hb _ h)

end
end Arboris
