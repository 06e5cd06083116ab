import Verif.Proofs.MatlabConvert3

/-!
# Conversion of a whole tree: the recursion
-/

namespace Arboris
open Graph Spec Build Matlab

/-- what holds at every moment of the conversion of the tree `F`, begun in state `S0`: the tree is `F` with the chains `C` -/
structure ConvInv (S0 : RS) (F : Forest (FrameRef × ℕ × FrameRef) ℕ) (S : RS) (C : ℕ → Option (List (FrameRef × ℕ × FrameRef))) : Prop where
  good : Good S (replaceAll S.o C F)
  keeps : Keeps S0 S
  ends : EndsRight C F
  len : ∀ l ∈ F.links, ∀ L, C l.2.1 = some L → L.length ≤ 3
  new : ∀ l ∈ F.links, ∀ L, C l.2.1 = some L → ∀ x ∈ L, x.2.1 = l.2.1 ∨ S0.nj ≤ x.2.1

lemma replaceAll_none (o : Objs) (F : Forest (FrameRef × ℕ × FrameRef) ℕ) : replaceAll o (fun _ => none) F = F := by
  induction F with
  | nil => rfl
  | cons l b ch sib ih1 ih2 => simp only [replaceAll, ih1, ih2]

lemma split_mono {m : ℝ} {S S1 S2 : RS} {l : FrameRef × ℕ × FrameRef} {X} (hk : Keeps S1 S2) (h : Split m S S1 l X) : Split m S S2 l X := by
  unfold Split at *
  split
  · rename_i e; rw [e] at h; exact h
  · rename_i ks e
    rw [e] at h
    obtain ⟨L, rfl, h⟩ := h
    exact ⟨L, rfl, hingeChain_mono hk h⟩

lemma split_start {m : ℝ} {S S1 S2 : RS} {l : FrameRef × ℕ × FrameRef} {X} (hk : Keeps S S1) (hl : l.2.1 < S.nj) (h : Split m S1 S2 l X) : Split m S S2 l X := by
  obtain ⟨e1, e2, _⟩ := hk.joint _ hl
  unfold Split at *
  rw [e1, e2] at h
  split
  · rename_i e; rw [e] at h; exact h
  · rename_i ks e
    rw [e] at h
    obtain ⟨L, rfl, h⟩ := h
    exact ⟨L, rfl, hingeChain_start hk h⟩

lemma rotations_length {a : JAttr} {ks : List LinKind} (h : rotations a = some ks) : ks.length ≤ 3 := by
  unfold rotations at h
  split at h <;> simp at h <;> subst h <;> simp

section
variable {S0 : RS} {F : Forest (FrameRef × ℕ × FrameRef) ℕ} {c : Conf} {lim : ℕ}

lemma ConvInv.mem {S C} (h : ConvInv S0 F S C) {l : FrameRef × ℕ × FrameRef} (hl : l ∈ F.links) (hc : C l.2.1 = none) :
    l ∈ (replaceAll S.o C F).links := by
  rw [replaceAll_links S.o (fun x hx e => by obtain ⟨hne, _⟩ := h.ends x hx [] e; exact hne rfl), List.mem_flatMap]
  exact ⟨l, hl, by rw [hc]; simp⟩

lemma convStep (hg : Good S0 F) (hm : 0 ≤ c.base_mass) (hlim : 3 * depth F + 3 ≤ lim) {S C} (h : ConvInv S0 F S C) {l : FrameRef × ℕ × FrameRef} (hl : l ∈ F.links)
    (hroot : S0.o.bodyOf l.1 ≠ S0.w.ground) (hc : C l.2.1 = none) :
    ∃ S' X, Runs (convertJoint c lim l.2.1) S () S' ∧ ConvInv S0 F S' (Function.update C l.2.1 X) ∧ Keeps S S' ∧ Split c.base_mass S0 S' l X := by
  have hlj : l.2.1 < S0.nj := hg.joints _ (List.mem_map.mpr ⟨l, hl, rfl⟩)
  have hd := replaceAll_depth S.o (C := C) (F := F) h.len
  have hr : S.o.bodyOf l.1 ≠ S.w.ground := by
    rw [h.keeps.bodyOf (hg.frames l hl).1, h.keeps.ground]; exact hroot
  obtain ⟨S', X, r, k, sp, g⟩ := convertJoint_runs h.good (h.mem hl hc) hm (show depth (replaceAll S.o C F) + 3 ≤ lim by omega) hr
  have sm := SameP.convertJoint c lim l.2.1 S () S' r
  have sp0 := split_start h.keeps hlj sp
  refine ⟨S', X, r, ?_, k, sp0⟩
  have ea := replaceAll_congr sm.bodyOf C F
  cases X with
  | none =>
    rw [show Function.update C l.2.1 none = C by rw [← hc, Function.update_eq_self]]
    refine ⟨?_, h.keeps.trans k, h.ends, h.len, h.new⟩
    rw [ea]; exact g
  | some L =>
    have hL : L.length ≤ 3 ∧ (∃ hne : L ≠ [], (L.getLast hne).2.2 = l.2.2) ∧ ∀ x ∈ L, S0.nj ≤ x.2.1 := by
      unfold Split at sp0
      split at sp0
      · cases sp0
      · rename_i ks e
        obtain ⟨L', e', hch⟩ := sp0
        cases e'
        obtain ⟨a, b, d⟩ := hingeChain_facts hch
        exact ⟨by have := rotations_length e; omega, b, d⟩
    refine ⟨?_, h.keeps.trans k, ?_, ?_, ?_⟩
    · rw [← replaceBy_replaceAll S'.o hc, ea]
      · exact g
      · intro i hi L' e' hmem
        obtain ⟨x, hx, ex⟩ := List.mem_map.mp hmem
        obtain ⟨li, hli, rfl⟩ := List.mem_map.mp hi
        rcases h.new li hli L' e' x hx with e2 | e2
        · rw [ex] at e2
          rw [e2, e'] at hc
          cases hc
        · omega
    · intro l' hl' L' e'
      by_cases e : l'.2.1 = l.2.1
      · rw [e, Function.update_self] at e'
        cases e'
        obtain rfl : l' = l := List.inj_on_of_nodup_map hg.tree.joints_nodup hl' hl e
        exact hL.2.1
      · rw [Function.update_of_ne e] at e'
        exact h.ends l' hl' L' e'
    · intro l' hl' L' e'
      by_cases e : l'.2.1 = l.2.1
      · rw [e, Function.update_self] at e'
        cases e'
        exact hL.1
      · rw [Function.update_of_ne e] at e'
        exact h.len l' hl' L' e'
    · intro l' hl' L' e'
      by_cases e : l'.2.1 = l.2.1
      · rw [e, Function.update_self] at e'
        cases e'
        exact fun x hx => .inr (hL.2.2 x hx)
      · rw [Function.update_of_ne e] at e'
        exact h.new l' hl' L' e'

/-- the body of the loop of `_traverse` -/
noncomputable def convTurn (c : Conf) (lim k b i : ℕ) : Prog Unit := do
  let S ← look
  match (S.w.body b).children[i]? with
  | none => pure ()
  | some j =>
    match (S.w.joint j).frame1 with
    | none => fail .attributeError
    | some f1 => do
      convertJoint c lim j
      traverseConv c lim k (S.o.bodyOf f1)

lemma ConvInv.labelled (hg : Good S0 F) {S C} (h : ConvInv S0 F S C) : Labelled S.o F := by
  intro l b ch hn
  rw [h.keeps.bodyOf (hg.frames l (node_mem hn).1).2]
  exact unfolds_labelled hg.tree.unfolds _ _ _ hn

lemma ConvInv.children (hg : Good S0 F) {S C} (h : ConvInv S0 F S C) {l b G} (hn : Node F l b G) : (S.w.body b).children = (topJoints G).map (firstOf C) :=
  unfolds_tops (fun x hx => h.ends x ((node_mem hn).2.2 x hx)) (unfolds_node hn h.ends (h.labelled hg) h.good.tree.unfolds)

/-- what the conversion of a part `G` of the tree does -/
def Converts (c : Conf) (S0 : RS) (F G : Forest (FrameRef × ℕ × FrameRef) ℕ) (p : Prog Unit) (S : RS) (C : ℕ → Option (List (FrameRef × ℕ × FrameRef))) : Prop :=
  ∃ S' C', Runs p S () S' ∧ ConvInv S0 F S' C' ∧ Keeps S S' ∧ (∀ j, j ∉ joints G → C' j = C j) ∧ ∀ l ∈ G.links, Split c.base_mass S0 S' l (C' l.2.1)

lemma traverse_of_loop (hg : Good S0 F) {S C} (h : ConvInv S0 F S C) {l b G} (hn : Node F l b G) {k : ℕ}
    (hloop : Converts c S0 F G ((List.range' 0 (topJoints G).length).forM (convTurn c lim k b)) S C) : Converts c S0 F G (traverseConv c lim (k + 1) b) S C := by
  obtain ⟨S', C', r, i', kp, e, sp⟩ := hloop
  refine ⟨S', C', ?_, i', kp, e, sp⟩
  have hlen : (S.w.body b).children.length = (topJoints G).length := by rw [h.children hg hn, List.length_map]
  have hlen' : (S'.w.body b).children.length = (topJoints G).length := by rw [i'.children hg hn, List.length_map]
  unfold traverseConv
  refine (show Runs look S S S from rfl).bind ?_
  simp only
  rw [hlen, List.range_eq_range']
  refine r.bind ((show Runs look S' S' S' from rfl).bind (Runs.check ?_ _))
  rw [hlen']

lemma conv_loop (hg : Good S0 F) (hm : 0 ≤ c.base_mass) (hlim : 3 * depth F + 3 ≤ lim) (G' : Forest (FrameRef × ℕ × FrameRef) ℕ) :
    ∀ {k l0 b G} {pre : List ℕ} {S C}, ConvInv S0 F S C → Node F l0 b G → topJoints G = pre ++ topJoints G' → (∀ l b ch, Node G' l b ch → Node F l b ch) →
      (∀ l ∈ G'.links, S0.o.bodyOf l.1 ≠ S0.w.ground) → depth G' ≤ k → (∀ l ∈ G'.links, C l.2.1 = none) → (joints G').Nodup →
      Converts c S0 F G' ((List.range' pre.length (topJoints G').length).forM (convTurn c lim k b)) S C := by
  induction G' with
  | nil =>
    intro k l0 b G pre S C h _ _ _ _ _ _ _
    exact ⟨S, C, Runs.pure _ _, h, .refl _, fun _ _ => rfl, by simp [Forest.links]⟩
  | cons l1 b1 ch1 sib1 ihc ihs =>
    intro k l0 b G pre S C h hn htop hsub hroot hk hnone hnd
    have hn1 := hsub _ _ _ (.here l1 b1 ch1 sib1)
    have hl1 := (node_mem hn1).1
    have hc1 : C l1.2.1 = none := hnone l1 (by simp [Forest.links])
    have hndd : l1.2.1 ∉ joints ch1 ∧ l1.2.1 ∉ joints sib1 ∧ (joints ch1).Nodup ∧ (joints sib1).Nodup ∧ ∀ j ∈ joints sib1, j ∉ joints ch1 := by
      simp only [joints, Forest.links, List.cons_append, List.map_cons, List.map_append, List.nodup_cons, List.nodup_append, List.mem_append, not_or] at hnd ⊢
      exact ⟨hnd.1.1, hnd.1.2, hnd.2.1, hnd.2.2.1, fun j hj hj' => hnd.2.2.2 j hj' j hj rfl⟩
    simp only [depth] at hk
    obtain ⟨k, rfl⟩ : ∃ k', k = k' + 1 := ⟨k - 1, by omega⟩
    -- the joint itself
    obtain ⟨S1, X, r1, i1, k1, sp1⟩ := convStep hg hm hlim h hl1 (hroot l1 (by simp [Forest.links])) hc1
    -- what hangs from its body
    obtain ⟨S2, C2, r2, i2, k2, e2, sp2⟩ := traverse_of_loop (c := c) (lim := lim) hg i1 hn1 (k := k)
      (ihc (pre := []) i1 hn1 rfl (fun l b ch hh => hsub _ _ _ (.down hh)) (fun l hl => hroot l (by simp [Forest.links, hl])) (by omega)
        (fun l hl => by
          have hj : l.2.1 ∈ joints ch1 := List.mem_map.mpr ⟨l, hl, rfl⟩
          have hne : l.2.1 ≠ l1.2.1 := fun e => hndd.1 (e ▸ hj)
          rw [Function.update_of_ne hne]
          exact hnone l (by simp [Forest.links, hl])) hndd.2.2.1)
    -- its siblings
    obtain ⟨S3, C3, r3, i3, k3, e3, sp3⟩ := ihs (k := k + 1) (pre := pre ++ [l1.2.1]) i2 hn (by rw [htop, topJoints]; simp)
      (fun l b ch hh => hsub _ _ _ (.right hh)) (fun l hl => hroot l (by simp [Forest.links, hl])) (by omega)
      (fun l hl => by
        have hj : l.2.1 ∈ joints sib1 := List.mem_map.mpr ⟨l, hl, rfl⟩
        have hne : l.2.1 ≠ l1.2.1 := fun e => hndd.2.1 (e ▸ hj)
        rw [e2 _ (hndd.2.2.2.2 _ hj), Function.update_of_ne hne]
        exact hnone l (by simp [Forest.links, hl])) hndd.2.2.2.1
    refine ⟨S3, C3, ?_, i3, (k1.trans k2).trans k3, ?_, ?_⟩
    · rw [topJoints, List.length_cons, List.range'_succ]
      refine Runs.bind (S' := S2) (a := ()) ?_ (by rw [List.length_append] at r3; exact r3)
      unfold convTurn
      refine (show Runs look S S S from rfl).bind ?_
      have hch : (S.w.body b).children[pre.length]? = some l1.2.1 := by
        rw [h.children hg hn, htop, topJoints, List.map_append, List.getElem?_append_right (by simp)]
        simp [firstOf, hc1]
      have hf := (unfolds_ends h.good.tree.unfolds (h.mem hl1 hc1)).2.1
      simp only [hch, hf]
      have hb1 : S.o.bodyOf l1.2.2 = b1 := ((h.labelled hg) _ _ _ hn1).symm
      rw [hb1]
      exact r1.bind r2
    · intro j hj
      simp only [joints, Forest.links, List.cons_append, List.map_cons, List.map_append, List.mem_cons, List.mem_append, not_or] at hj
      rw [e3 j hj.2.2, e2 j hj.2.1, Function.update_of_ne hj.1]
    · intro l hl
      simp only [Forest.links, List.cons_append, List.mem_cons, List.mem_append] at hl
      rcases hl with rfl | hl | hl
      · rw [e3 _ hndd.2.1, e2 _ hndd.1, Function.update_self]
        exact split_mono (k2.trans k3) sp1
      · have hj : l.2.1 ∈ joints ch1 := List.mem_map.mpr ⟨l, hl, rfl⟩
        rw [e3 _ (fun h' => hndd.2.2.2.2 _ h' hj)]
        exact split_mono k3 (sp2 l hl)
      · exact sp3 l hl

/-- `_traverse` converts everything below a body -/
lemma conv_traverse (hg : Good S0 F) (hm : 0 ≤ c.base_mass) (hlim : 3 * depth F + 3 ≤ lim) {l b G} {k : ℕ} {S C} (h : ConvInv S0 F S C) (hn : Node F l b G)
    (hk : depth G < k) (hnone : ∀ l ∈ G.links, C l.2.1 = none) : Converts c S0 F G (traverseConv c lim k b) S C := by
  obtain ⟨k, rfl⟩ : ∃ k', k = k' + 1 := ⟨k - 1, by omega⟩
  have hsub : ∀ {F' l b G}, Node F' l b G → ∀ l' b' ch, Node G l' b' ch → Node F' l' b' ch := by
    intro F' l b G hn
    induction hn with
    | here => exact fun _ _ _ h => .down h
    | down _ ih => exact fun _ _ _ h => .down (ih _ _ _ h)
    | right _ ih => exact fun _ _ _ h => .right (ih _ _ _ h)
  have hu : Unfolds S0.o S0.w b (S0.w.body b).children G := by
    have := unfolds_node (C := fun _ => none) hn (fun _ _ _ e => by cases e) (unfolds_labelled hg.tree.unfolds)
      (by rw [replaceAll_none]; exact hg.tree.unfolds)
    rwa [replaceAll_none] at this
  have hbod : ∀ x ∈ b :: G.bodies, x ∈ F.bodies := by
    intro x hx
    rcases List.mem_cons.mp hx with rfl | hx
    · exact (node_mem hn).2.1
    · rw [unfolds_bodies hu] at hx
      obtain ⟨y, hy, rfl⟩ := List.mem_map.mp hx
      exact (unfolds_ends hg.tree.unfolds ((node_mem hn).2.2 y hy)).2.2.2
  have hgr : S0.w.ground ∉ F.bodies := (List.nodup_cons.mp hg.tree.bodies_nodup).1
  have hnd : ∀ {F' : Forest (FrameRef × ℕ × FrameRef) ℕ} {l b G}, Node F' l b G → (joints F').Nodup → (joints G).Nodup := by
    intro F' l b G hn
    induction hn with
    | here => 
      intro h
      simp only [joints, Forest.links, List.cons_append, List.map_cons, List.map_append, List.nodup_cons, List.nodup_append] at h
      exact h.2.1
    | down _ ih =>
      intro h
      simp only [joints, Forest.links, List.cons_append, List.map_cons, List.map_append, List.nodup_cons, List.nodup_append] at h
      exact ih h.2.1
    | right _ ih =>
      intro h
      simp only [joints, Forest.links, List.cons_append, List.map_cons, List.map_append, List.nodup_cons, List.nodup_append] at h
      exact ih h.2.2.1
  refine traverse_of_loop hg h hn (conv_loop hg hm hlim G (pre := []) h hn rfl (hsub hn) ?_ (by omega) hnone (hnd hn hg.tree.joints_nodup))
  intro l' hl' e
  rcases unfolds_par hu l' hl' with ⟨e', _⟩ | ⟨e', _⟩
  · exact hgr (e ▸ hbod _ (e' ▸ List.mem_cons_self))
  · exact hgr (e ▸ hbod _ (List.mem_cons_of_mem _ e'))

end

end Arboris
