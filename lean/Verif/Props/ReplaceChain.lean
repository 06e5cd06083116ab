import Verif.Props.Replace

/-!
# C98: `replace_joint` with a kinematic chain
-/

namespace Arboris
open Graph Spec

/-! ### specification -/

/-- the arguments `frame0, joint, frame1, frame0', joint', frame1', …` -/
def Spec.linkArgs (L : List (FrameRef × ℕ × FrameRef)) : List Arg := L.flatMap fun l => [.frame l.1, .joint l.2.1, .frame l.2.2]

/-- the links lead from the body `a` to the body `b` -/
def Spec.Path (o : Objs) : ℕ → List (FrameRef × ℕ × FrameRef) → ℕ → Prop
  | a, [], b => a = b
  | a, l :: L, b => o.bodyOf l.1 = a ∧ Path o (o.bodyOf l.2.2) L b

/-- the links `L`, one below the other; `ch` is below the last, `sib` comes after -/
def Spec.spine (o : Objs) : List (FrameRef × ℕ × FrameRef) → Forest (FrameRef × ℕ × FrameRef) ℕ → Forest (FrameRef × ℕ × FrameRef) ℕ →
    Forest (FrameRef × ℕ × FrameRef) ℕ
  | [], _, sib => sib
  | [l], ch, sib => .cons l (o.bodyOf l.2.2) ch sib
  | l :: l' :: L, ch, sib => .cons l (o.bodyOf l.2.2) (spine o (l' :: L) ch .nil) sib

/-- the tree with the chain `L` at the place of the joint `old` -/
def Spec.replaceBy (o : Objs) (old : ℕ) (L : List (FrameRef × ℕ × FrameRef)) : Forest (FrameRef × ℕ × FrameRef) ℕ → Forest (FrameRef × ℕ × FrameRef) ℕ
  | .nil => .nil
  | .cons l b ch sib =>
    if l.2.1 = old then spine o L (replaceBy o old L ch) (replaceBy o old L sib) else .cons l b (replaceBy o old L ch) (replaceBy o old L sib)

/-- `L` is a chain of new joints through new bodies, from the body `b0` to the body `b1` of the tree -/
structure Spec.IsNewChain (o : Objs) (w : World) (F : Forest (FrameRef × ℕ × FrameRef) ℕ) (b0 b1 : ℕ) (L : List (FrameRef × ℕ × FrameRef)) : Prop where
  ne : L ≠ []
  path : Path o b0 L b1
  joints : ∀ l ∈ L, (w.joint l.2.1).frame0 = none ∧ (w.joint l.2.1).frame1 = none
  joints_nodup : (L.map fun l => l.2.1).Nodup
  bodies : ∀ l ∈ L.dropLast, o.bodyOf l.2.2 ∉ w.ground :: F.bodies ∧ (w.body (o.bodyOf l.2.2)).parent = none ∧ (w.body (o.bodyOf l.2.2)).children = []
  bodies_nodup : (L.dropLast.map fun l => o.bodyOf l.2.2).Nodup

/-! ### `add_link` with several links -/

lemma addLink_links (o : Objs) : ∀ (L : List (FrameRef × ℕ × FrameRef)) (w : World), L ≠ [] →
    (∀ l ∈ L, (w.joint l.2.1).frame0 = none ∧ (w.joint l.2.1).frame1 = none) → (L.map fun l => l.2.1).Nodup →
    (∀ l ∈ L, (w.body (o.bodyOf l.2.2)).parent = none) → (L.map fun l => o.bodyOf l.2.2).Nodup →
    ∃ w', addLink o w (linkArgs L) = (w', .ok ()) ∧ w'.ground = w.ground ∧
      (∀ l ∈ L, (w'.joint l.2.1).frame0 = some l.1 ∧ (w'.joint l.2.1).frame1 = some l.2.2) ∧
      (∀ j, j ∉ (L.map fun l => l.2.1) → w'.joint j = w.joint j) ∧
      (∀ l ∈ L, (w'.body (o.bodyOf l.2.2)).parent = some l.2.1) ∧
      (∀ b, b ∉ (L.map fun l => o.bodyOf l.2.2) → (w'.body b).parent = (w.body b).parent) ∧
      (∀ b, (w'.body b).children = (w.body b).children ++ (L.filter fun l => o.bodyOf l.1 = b).map fun l => l.2.1)
  | [], _, h, _, _, _, _ => absurd rfl h
  | l :: L, w, _, hj, hjn, hp, hpn => by
    obtain ⟨hj1, hjn'⟩ := List.nodup_cons.mp hjn
    obtain ⟨hp1, hpn'⟩ := List.nodup_cons.mp hpn
    set w2 := registerFrame (registerFrame (setChildren (setParent (setFrames w l.2.1 (some l.1) (some l.2.2)) (o.bodyOf l.2.2) (some l.2.1))
      (o.bodyOf l.1) ((w.body (o.bodyOf l.1)).children ++ [l.2.1])) l.1) l.2.2 with hw2
    have h1 : addLink1 o w l.1 l.2.1 l.2.2 = (w2, .ok ()) := by
      unfold addLink1
      simp only [setFrames_body, hp l List.mem_cons_self, if_true]
      rw [hw2, setParent_children, setFrames_body]
    have hlen : (linkArgs L).length % 3 = 0 := by
      clear * -
      induction L with
      | nil => rfl
      | cons l L ih => simp only [linkArgs, List.flatMap_cons, List.length_append, List.length_cons, List.length_nil] at ih ⊢; omega
    have hadd : addLink o w (linkArgs (l :: L)) = if (linkArgs L).length > 0 then addLink o w2 (linkArgs L) else (w2, .ok ()) := by
      obtain ⟨a, b⟩ := hj l List.mem_cons_self
      rw [show linkArgs (l :: L) = .frame l.1 :: .joint l.2.1 :: .frame l.2.2 :: linkArgs L from rfl, addLink,
        if_pos ⟨a, b, hlen⟩, h1]
    have k0 : (w2.joint l.2.1).frame0 = some l.1 ∧ (w2.joint l.2.1).frame1 = some l.2.2 := by
      simp [hw2, setFrames_frame0, setFrames_frame1]
    have k1 : ∀ j, j ≠ l.2.1 → w2.joint j = w.joint j := by
      intro j hne
      simp [hw2, setFrames, hne]
    have k2 : ∀ b, (w2.body b).parent = if b = o.bodyOf l.2.2 then some l.2.1 else (w.body b).parent := by
      intro b; simp [hw2, setParent_parent]
    have k3 : ∀ b, (w2.body b).children = (w.body b).children ++ if o.bodyOf l.1 = b then [l.2.1] else [] := by
      intro b
      simp only [hw2, registerFrame_body, setChildren_children, setParent_children, setFrames_body]
      by_cases e : o.bodyOf l.1 = b
      · rw [if_pos e.symm, if_pos e, e]
      · rw [if_neg (Ne.symm e), if_neg e, List.append_nil]
    by_cases hL : L = []
    · subst hL
      refine ⟨w2, by rw [hadd]; rfl, by simp [hw2], ?_, ?_, ?_, ?_, ?_⟩
      · intro l' h'; simp at h'; subst h'; exact k0
      · intro j h'; exact k1 j (by simpa using h')
      · intro l' h'; simp at h'; subst h'; rw [k2, if_pos rfl]
      · intro b h'; rw [k2, if_neg (by simpa using h')]
      · intro b; rw [k3]; by_cases e : o.bodyOf l.1 = b <;> simp [e]
    · obtain ⟨w', e1, e2, e3, e4, e5, e6, e7⟩ := addLink_links o L w2 hL
        (fun l' h' => by
          rw [k1 _ (fun e => hj1 (List.mem_map.mpr ⟨l', h', e⟩))]
          exact hj l' (List.mem_cons_of_mem _ h'))
        hjn'
        (fun l' h' => by
          rw [k2, if_neg (fun e => hp1 (List.mem_map.mpr ⟨l', h', e⟩))]
          exact hp l' (List.mem_cons_of_mem _ h'))
        hpn'
      have hpos : (linkArgs L).length > 0 := by
        cases L with
        | nil => exact absurd rfl hL
        | cons a t => simp [linkArgs]
      refine ⟨w', by rw [hadd, if_pos hpos, e1], by rw [e2]; simp [hw2], ?_, ?_, ?_, ?_, ?_⟩
      · intro l' h'
        rcases List.mem_cons.mp h' with rfl | h'
        · rw [e4 _ hj1]; exact k0
        · exact e3 l' h'
      · intro j h'
        simp only [List.map_cons, List.mem_cons, not_or] at h'
        rw [e4 j h'.2, k1 j h'.1]
      · intro l' h'
        rcases List.mem_cons.mp h' with rfl | h'
        · rw [e6 _ hp1, k2, if_pos rfl]
        · exact e5 l' h'
      · intro b h'
        simp only [List.map_cons, List.mem_cons, not_or] at h'
        rw [e6 b h'.2, k2, if_neg h'.1]
      · intro b
        rw [e7, k3]
        by_cases e : o.bodyOf l.1 = b <;> simp [e]

/-! ### the tree after the replacement -/

lemma spine_links (o : Objs) : ∀ L ch sib, L ≠ [] → (spine o L ch sib).links = L ++ (ch.links ++ sib.links)
  | [], _, _, h => absurd rfl h
  | [l], ch, sib, _ => by simp [spine, Forest.links]
  | l :: l' :: L, ch, sib, _ => by
    rw [spine, Forest.links, spine_links o (l' :: L) ch .nil (by simp)]
    simp [Forest.links]

lemma replaceBy_links (o : Objs) (old : ℕ) {L : List (FrameRef × ℕ × FrameRef)} (hL : L ≠ []) (F : Forest (FrameRef × ℕ × FrameRef) ℕ) :
    (replaceBy o old L F).links = F.links.flatMap fun l => if l.2.1 = old then L else [l] := by
  induction F with
  | nil => rfl
  | cons l b ch sib ih1 ih2 =>
    rw [replaceBy]
    split_ifs with h
    · rw [spine_links o L _ _ hL, ih1, ih2]
      simp [Forest.links, h]
    · simp [Forest.links, ih1, ih2, h]

lemma unfolds_bodies {o : Objs} {w : World} {b : ℕ} {js : List ℕ} {F : Forest (FrameRef × ℕ × FrameRef) ℕ} (h : Unfolds o w b js F) :
    F.bodies = F.links.map fun l => o.bodyOf l.2.2 := by
  induction h with
  | nil => rfl
  | cons h0 h1 hb hp hch hsib ih1 ih2 => simp [Forest.bodies, Forest.links, ih1, ih2]

lemma spine_depth (o : Objs) : ∀ L ch sib, depth (spine o L ch sib) ≤ max (L.length + depth ch) (depth sib)
  | [], _, _ => by simp [spine]
  | [l], ch, sib => by simp [spine, depth]; omega
  | l :: l' :: L, ch, sib => by
    have := spine_depth o (l' :: L) ch .nil
    simp only [spine, depth, List.length_cons] at this ⊢
    omega

lemma replaceBy_depth (o : Objs) (old : ℕ) {L : List (FrameRef × ℕ × FrameRef)} (hL : L ≠ []) {F : Forest (FrameRef × ℕ × FrameRef) ℕ}
    (hn : (joints F).Nodup) :
    depth (replaceBy o old L F) ≤ if old ∈ joints F then L.length + depth F - 1 else depth F := by
  have hpos : 0 < L.length := List.length_pos_iff.mpr hL
  induction F with
  | nil => simp [replaceBy, depth, joints, Forest.links]
  | cons l b ch sib ih1 ih2 =>
    have hj : joints (Forest.cons l b ch sib) = l.2.1 :: (joints ch ++ joints sib) := by simp [joints, Forest.links]
    rw [hj, List.nodup_cons, List.mem_append, not_or, List.nodup_append] at hn
    obtain ⟨⟨n1, n2⟩, m1, m2, m3⟩ := hn
    have i1 := ih1 m1
    have i2 := ih2 m2
    rw [replaceBy, hj]
    simp only [List.mem_cons, List.mem_append]
    by_cases h : l.2.1 = old
    · rw [if_neg (h ▸ n1)] at i1
      rw [if_neg (h ▸ n2)] at i2
      rw [if_pos h, if_pos (.inl h.symm)]
      have := spine_depth o L (replaceBy o old L ch) (replaceBy o old L sib)
      simp only [depth]
      omega
    · rw [if_neg h]
      simp only [depth]
      by_cases c1 : old ∈ joints ch <;> by_cases c2 : old ∈ joints sib <;>
        simp only [c1, c2, if_true, if_false, or_true, or_false, Ne.symm h] at i1 i2 ⊢ <;> omega

lemma path_sources {o : Objs} : ∀ {a b : ℕ} {L : List (FrameRef × ℕ × FrameRef)}, Path o a L b → L ≠ [] →
    (L.map fun l => o.bodyOf l.1) = a :: L.dropLast.map fun l => o.bodyOf l.2.2
  | a, b, [], _, h => absurd rfl h
  | a, b, [l], h, _ => by simp [h.1]
  | a, b, l :: l' :: L, h, _ => by
    have := path_sources h.2 (by simp)
    rw [List.map_cons, this, h.1]
    simp

lemma path_targets {o : Objs} : ∀ {a b : ℕ} {L : List (FrameRef × ℕ × FrameRef)}, Path o a L b → L ≠ [] →
    (L.map fun l => o.bodyOf l.2.2) = (L.dropLast.map fun l => o.bodyOf l.2.2) ++ [b]
  | a, b, [], _, h => absurd rfl h
  | a, b, [l], h, _ => by have h2 : o.bodyOf l.2.2 = b := h.2; simp [h2]
  | a, b, l :: l' :: L, h, _ => by
    have := path_targets h.2 (by simp)
    rw [List.map_cons, this]
    simp

lemma filter_key {α : Type} {f : α → ℕ} : ∀ {L : List α}, (L.map f).Nodup → ∀ l ∈ L, L.filter (fun x => f x = f l) = [l]
  | [], _, l, h => by simp at h
  | x :: L, hn, l, h => by
    obtain ⟨h1, h2⟩ := List.nodup_cons.mp hn
    rcases List.mem_cons.mp h with rfl | h
    · rw [List.filter_cons_of_pos (by simp)]
      congr 1
      rw [List.filter_eq_nil_iff]
      intro y hy e
      exact h1 (by simp at e; rw [← e]; exact List.mem_map_of_mem hy)
    · have : f x ≠ f l := fun e => h1 (e ▸ List.mem_map_of_mem h)
      rw [List.filter_cons_of_neg (by simpa using this), filter_key h2 l h]

lemma spine_unfolds {o : Objs} {w : World} {ch : Forest (FrameRef × ℕ × FrameRef) ℕ} {b1 : ℕ} (hch : Unfolds o w b1 (w.body b1).children ch) :
    ∀ (L : List (FrameRef × ℕ × FrameRef)) (a : ℕ) (js : List ℕ) (sib : Forest (FrameRef × ℕ × FrameRef) ℕ) (hne : L ≠ []),
      (∀ l ∈ L, (w.joint l.2.1).frame0 = some l.1 ∧ (w.joint l.2.1).frame1 = some l.2.2) →
      (∀ l ∈ L, (w.body (o.bodyOf l.2.2)).parent = some l.2.1) → (∀ l ∈ L.tail, (w.body (o.bodyOf l.1)).children = [l.2.1]) →
      Path o a L b1 → Unfolds o w a js sib → Unfolds o w a ((L.head hne).2.1 :: js) (spine o L ch sib)
  | [], _, _, _, h, _, _, _, _, _ => absurd rfl h
  | [l], a, js, sib, _, hf, hp, _, hpath, hsib => by
    obtain ⟨h0, h1⟩ := hf l (by simp)
    obtain ⟨e1, e2⟩ := hpath
    have e2 : o.bodyOf l.2.2 = b1 := e2
    exact .cons h0 h1 e1 (hp l (by simp)) (by rw [e2]; exact hch) hsib
  | l :: l' :: L, a, js, sib, _, hf, hp, hk, hpath, hsib => by
    obtain ⟨h0, h1⟩ := hf l (by simp)
    obtain ⟨e1, e2⟩ := hpath
    have ih := spine_unfolds hch (l' :: L) (o.bodyOf l.2.2) [] .nil (by simp) (fun x hx => hf x (List.mem_cons_of_mem _ hx))
      (fun x hx => hp x (List.mem_cons_of_mem _ hx)) (fun x hx => hk x (by simp only [List.tail_cons] at hx ⊢; exact List.mem_cons_of_mem _ hx)) e2 (.nil _)
    refine .cons h0 h1 e1 (hp l (by simp)) ?_ hsib
    have := hk l' (by simp)
    rw [e2.1] at this
    rw [this]
    exact ih

lemma linkArgs_head {L : List (FrameRef × ℕ × FrameRef)} (h : L ≠ []) : (linkArgs L).head? = some (.frame (L.head h).1) := by
  cases L with
  | nil => exact absurd rfl h
  | cons l L => rfl

lemma linkArgs_last {L : List (FrameRef × ℕ × FrameRef)} (h : L ≠ []) : (linkArgs L).getLast? = some (.frame (L.getLast h).2.2) := by
  obtain ⟨L, l, rfl⟩ : ∃ L' l, L = L' ++ [l] := ⟨L.dropLast, L.getLast h, (List.dropLast_append_getLast h).symm⟩
  simp [linkArgs, List.flatMap_append]

lemma linkArgs_length (L : List (FrameRef × ℕ × FrameRef)) : (linkArgs L).length = 3 * L.length := by
  induction L with
  | nil => rfl
  | cons l L ih => simp only [linkArgs, List.flatMap_cons, List.length_append, List.length_cons, List.length_nil] at ih ⊢; omega

lemma replaceJoint_links {o : Objs} {w : World} {lim old : ℕ} {g0 g1 : FrameRef} (hg : replaceGuard o w old = .ok (g0, g1))
    {L : List (FrameRef × ℕ × FrameRef)} (h : L ≠ []) :
    replaceJoint o w lim old (linkArgs L) = replaceChain o w lim old (L.head h).1 (L.getLast h).2.2 (linkArgs L) := by
  have e1 := linkArgs_head h
  have e2 := linkArgs_last h
  have e3 := linkArgs_length L
  generalize linkArgs L = A at e1 e2 e3
  unfold replaceJoint
  rw [hg]
  rcases A with _ | ⟨a, _ | ⟨b, A⟩⟩
  · simp at e1
  · simp at e3; omega
  · simp only
    rw [if_neg (by omega), e1, e2]

lemma replaceBy_same {o : Objs} {old : ℕ} {L : List (FrameRef × ℕ × FrameRef)} : ∀ {F : Forest (FrameRef × ℕ × FrameRef) ℕ},
    old ∉ joints F → replaceBy o old L F = F
  | .nil, _ => rfl
  | .cons l b ch sib, h => by
    have hj : joints (Forest.cons l b ch sib) = l.2.1 :: (joints ch ++ joints sib) := by simp [joints, Forest.links]
    rw [hj, List.mem_cons, List.mem_append, not_or, not_or] at h
    rw [replaceBy, if_neg (Ne.symm h.1), replaceBy_same h.2.1, replaceBy_same h.2.2]

lemma unfolds_ends {o : Objs} {w : World} {b : ℕ} {js : List ℕ} {F : Forest (FrameRef × ℕ × FrameRef) ℕ} (h : Unfolds o w b js F) {l} (hl : l ∈ F.links) :
    (w.joint l.2.1).frame0 = some l.1 ∧ (w.joint l.2.1).frame1 = some l.2.2 ∧ o.bodyOf l.1 ∈ b :: F.bodies ∧ o.bodyOf l.2.2 ∈ F.bodies := by
  induction h with
  | nil => simp [Forest.links] at hl
  | cons h0 h1 hb hp hch hsib ih1 ih2 =>
    simp only [Forest.links, Forest.bodies, List.cons_append, List.mem_cons, List.mem_append] at hl ih1 ih2 ⊢
    rcases hl with rfl | hl | hl
    · exact ⟨h0, h1, .inl hb, .inl rfl⟩
    · obtain ⟨a, b, c, d⟩ := ih1 hl
      exact ⟨a, b, by tauto, by tauto⟩
    · obtain ⟨a, b, c, d⟩ := ih2 hl
      exact ⟨a, b, by tauto, by tauto⟩

lemma flatMap_same {old : ℕ} {L : List (FrameRef × ℕ × FrameRef)} : ∀ {A : List (FrameRef × ℕ × FrameRef)}, old ∉ A.map (fun l => l.2.1) →
    (A.flatMap fun l => if l.2.1 = old then L else [l]) = A
  | [], _ => rfl
  | a :: A, h => by
    simp only [List.map_cons, List.mem_cons, not_or] at h
    rw [List.flatMap_cons, if_neg (Ne.symm h.1), flatMap_same h.2]
    rfl

lemma unfolds_kids {o : Objs} {w : World} {b : ℕ} {js : List ℕ} {F : Forest (FrameRef × ℕ × FrameRef) ℕ} (h : Unfolds o w b js F) :
    (∀ j ∈ js, j ∈ joints F ∧ ∃ f0, (w.joint j).frame0 = some f0 ∧ o.bodyOf f0 = b) ∧
    (∀ c ∈ F.bodies, ∀ j ∈ (w.body c).children, j ∈ joints F ∧ ∃ f0, (w.joint j).frame0 = some f0 ∧ o.bodyOf f0 = c) := by
  induction h with
  | nil => simp [Forest.bodies]
  | @cons b j js f0 f1 ch sib h0 h1 hb hpar hch hsib ihc ihs =>
    simp only [Forest.bodies, joints, Forest.links, List.map_cons, List.map_append, List.mem_cons, List.mem_append, or_assoc]
    refine ⟨?_, ?_⟩
    · rintro k (rfl | hk)
      · exact ⟨.inl rfl, f0, h0, hb⟩
      · exact ⟨.inr (.inr (ihs.1 k hk).1), (ihs.1 k hk).2⟩
    · rintro c (rfl | hc | hc) k hk
      · exact ⟨.inr (.inl (ihc.1 k hk).1), (ihc.1 k hk).2⟩
      · exact ⟨.inr (.inl (ihc.2 c hc k hk).1), (ihc.2 c hc k hk).2⟩
      · exact ⟨.inr (.inr (ihs.2 c hc k hk).1), (ihs.2 c hc k hk).2⟩

lemma unfolds_par {o : Objs} {w : World} {b : ℕ} {js : List ℕ} {F : Forest (FrameRef × ℕ × FrameRef) ℕ} (h : Unfolds o w b js F) :
    ∀ l ∈ F.links, (o.bodyOf l.1 = b ∧ l.2.1 ∈ js) ∨ (o.bodyOf l.1 ∈ F.bodies ∧ l.2.1 ∈ (w.body (o.bodyOf l.1)).children) := by
  induction h with
  | nil => simp [Forest.links]
  | @cons b j js f0 f1 ch sib h0 h1 hb hpar hch hsib ihc ihs =>
    simp only [Forest.bodies, Forest.links, List.mem_cons, List.mem_append, or_assoc]
    rintro l (rfl | hl | hl)
    · exact .inl ⟨hb, .inl rfl⟩
    · rcases ihc l hl with ⟨e, hk⟩ | ⟨e, hk⟩
      · exact .inr ⟨.inl e, by rw [e]; exact hk⟩
      · exact .inr ⟨.inr (.inl e), hk⟩
    · rcases ihs l hl with ⟨e, hk⟩ | ⟨e, hk⟩
      · exact .inl ⟨e, .inr hk⟩
      · exact .inr ⟨.inr (.inr e), hk⟩

lemma unfolds_nodup {o : Objs} {w : World} {b : ℕ} {js : List ℕ} {F : Forest (FrameRef × ℕ × FrameRef) ℕ} (h : Unfolds o w b js F) :
    (joints F).Nodup → js.Sublist (joints F) ∧ ∀ c ∈ F.bodies, (w.body c).children.Nodup := by
  induction h with
  | nil => simp [Forest.bodies]
  | @cons b j js f0 f1 ch sib h0 h1 hb hpar hch hsib ihc ihs =>
    intro hn
    simp only [joints, Forest.links, List.cons_append, List.map_cons, List.map_append, List.nodup_cons, List.nodup_append] at hn
    obtain ⟨_, n1, n2, _⟩ := hn
    obtain ⟨c1, c2⟩ := ihc n1
    obtain ⟨s1, s2⟩ := ihs n2
    refine ⟨?_, ?_⟩
    · simp only [joints, Forest.links, List.cons_append, List.map_cons, List.map_append]
      exact (s1.trans (List.sublist_append_right _ _)).cons_cons j
    · simp only [Forest.bodies, List.mem_cons, List.mem_append, or_assoc]
      rintro c (rfl | hc | hc)
      · exact c1.nodup n1
      · exact c2 c hc
      · exact s2 c hc

/-- `L` is a chain through new bodies, from the body `b0` to the body `b1` of the tree, of joints that are new or are the
joint to be replaced -/
structure Spec.IsChain (o : Objs) (w : World) (F : Forest (FrameRef × ℕ × FrameRef) ℕ) (old b0 b1 : ℕ) (L : List (FrameRef × ℕ × FrameRef)) : Prop where
  ne : L ≠ []
  path : Path o b0 L b1
  joints : ∀ l ∈ L, l.2.1 = old ∨ (w.joint l.2.1).frame0 = none ∧ (w.joint l.2.1).frame1 = none
  joints_nodup : (L.map fun l => l.2.1).Nodup
  bodies : ∀ l ∈ L.dropLast, o.bodyOf l.2.2 ∉ w.ground :: F.bodies ∧ (w.body (o.bodyOf l.2.2)).parent = none ∧ (w.body (o.bodyOf l.2.2)).children = []
  bodies_nodup : (L.dropLast.map fun l => o.bodyOf l.2.2).Nodup

/-- C98.  In any world that is a tree, whatever its history, replacing a joint by a chain through new bodies (between the same
two bodies), in which the joint itself may appear again, succeeds and leaves the tree with the chain, one link below the
other, at exactly the old joint's place. -/
theorem C98_reuse {o : Objs} {lim : ℕ} {w : World} {F : Forest (FrameRef × ℕ × FrameRef) ℕ} (hF : IsTree o w F)
    {L : List (FrameRef × ℕ × FrameRef)} (hlim : depth F + L.length ≤ lim)
    {old : ℕ} (hold : old ∈ joints F) {g0 g1 : FrameRef} (e0 : (w.joint old).frame0 = some g0) (e1 : (w.joint old).frame1 = some g1)
    (hL : IsChain o w F old (o.bodyOf g0) (o.bodyOf g1) L) :
    ∃ w', replaceJoint o w lim old (linkArgs L) = (w', .ok ()) ∧ IsTree o w' (replaceBy o old L F) ∧
      iterJoints o w' lim = .ok ((joints F).flatMap fun j => if j = old then L.map (fun l => l.2.1) else [j]) ∧
      iterBodies o w' lim = .ok (w.ground :: (F.links.flatMap fun l => if l.2.1 = old then L else [l]).map fun l => o.bodyOf l.2.2) ∧
      (old ∉ L.map (fun l => l.2.1) → (w'.joint old).frame0 = none ∧ (w'.joint old).frame1 = none) ∧ w'.ground = w.ground := by
  obtain ⟨g0', g1', e0', e1', hpar⟩ := hF.unfolds.link hold
  obtain rfl : g0 = g0' := by rw [e0] at e0'; simpa using e0'
  obtain rfl : g1 = g1' := by rw [e1] at e1'; simpa using e1'
  -- the bodies of the old joint are in the tree
  obtain ⟨lo, hlo, rfl⟩ := List.mem_map.mp hold
  obtain ⟨u0, u1, hb0, hb1⟩ := unfolds_ends hF.unfolds hlo
  obtain rfl : g0 = lo.1 := by rw [e0] at u0; simpa using u0
  obtain rfl : g1 = lo.2.2 := by rw [e1] at u1; simpa using u1
  have hb1 : o.bodyOf lo.2.2 ∈ w.ground :: F.bodies := List.mem_cons_of_mem _ hb1
  have hkid : lo.2.1 ∈ (w.body (o.bodyOf lo.1)).children := by
    rcases unfolds_par hF.unfolds lo hlo with ⟨e, h⟩ | ⟨_, h⟩
    · rwa [e]
    · exact h
  have hknd : ∀ b ∈ w.ground :: F.bodies, (w.body b).children.Nodup := by
    intro b hb
    obtain ⟨h1, h2⟩ := unfolds_nodup hF.unfolds hF.joints_nodup
    rcases List.mem_cons.mp hb with rfl | hb
    · exact h1.nodup hF.joints_nodup
    · exact h2 b hb
  have hkids : ∀ b ∈ w.ground :: F.bodies, ∀ x ∈ (w.body b).children, ∃ f0, (w.joint x).frame0 = some f0 ∧ o.bodyOf f0 = b := by
    intro b hb x hx
    obtain ⟨h1, h2⟩ := unfolds_kids hF.unfolds
    rcases List.mem_cons.mp hb with rfl | hb
    · exact (h1 x hx).2
    · exact (h2 b hb x hx).2
  have hguard : replaceGuard o w lo.2.1 = .ok (lo.1, lo.2.2) := by
    unfold replaceGuard
    simp [e0, e1, hkid, hpar]
  have hne := hL.ne
  have hsrc := path_sources hL.path hne
  have htgt := path_targets hL.path hne
  have hfresh : ∀ b ∈ L.dropLast.map (fun l => o.bodyOf l.2.2), b ∉ w.ground :: F.bodies := by
    intro b hb
    obtain ⟨l, hl, rfl⟩ := List.mem_map.mp hb
    exact (hL.bodies l hl).1
  have hsn : (L.map fun l => o.bodyOf l.1).Nodup := by
    rw [hsrc, List.nodup_cons]
    exact ⟨fun h => hfresh _ h hb0, hL.bodies_nodup⟩
  have htn : (L.map fun l => o.bodyOf l.2.2).Nodup := by
    rw [htgt, List.nodup_append]
    refine ⟨hL.bodies_nodup, by simp, ?_⟩
    intro a ha b hb e
    simp at hb
    exact hfresh a ha (e ▸ hb ▸ hb1)
  set w1 := setFrames (setParent w (o.bodyOf lo.2.2) none) lo.2.1 none none with hw1
  obtain ⟨w2, a1, a2, a3, a4, a5, a6, a7⟩ := addLink_links o L w1 hne
    (by
      intro l hl
      simp only [hw1, setFrames_frame0, setFrames_frame1, setParent_joint]
      by_cases e : l.2.1 = lo.2.1
      · simp [e]
      · simp only [if_neg e]
        exact (hL.joints l hl).resolve_left e)
    hL.joints_nodup
    (by
      intro l hl
      have : o.bodyOf l.2.2 ∈ L.map fun l => o.bodyOf l.2.2 := List.mem_map.mpr ⟨l, hl, rfl⟩
      rw [htgt, List.mem_append, List.mem_singleton] at this
      simp only [hw1, setFrames_body, setParent_parent]
      split_ifs with h
      · rfl
      · rcases this with h' | h'
        · obtain ⟨l', hl', e'⟩ := List.mem_map.mp h'
          rw [← e']
          exact (hL.bodies l' hl').2.1
        · exact absurd h' h)
    htn
  set c := (w.body (o.bodyOf lo.1)).children with hc
  set j1 := (L.head hne).2.1 with hj1
  have hw1c : ∀ b, (w1.body b).children = (w.body b).children := by
    intro b; simp [hw1, setParent_children]
  have hh0 : o.bodyOf (L.head hne).1 = o.bodyOf lo.1 := by
    have h := hL.path
    clear * - h
    cases L with
    | nil => exact absurd rfl hne
    | cons a t => exact h.1
  have hc2 : (w2.body (o.bodyOf lo.1)).children = c ++ [j1] := by
    have := filter_key hsn _ (List.head_mem hne)
    rw [a7, hw1c, ← hh0, this]
    simp [hh0, hc, hj1]
  set w3 := setChildren w2 (o.bodyOf lo.1) (c.map (subst lo.2.1 j1)) with hw3
  have hrep : replaceJoint o w lim lo.2.1 (linkArgs L) = Graph.init o w3 lim := by
    rw [replaceJoint_links hguard hne]
    have hgl : o.bodyOf (L.getLast hne).2.2 = o.bodyOf lo.2.2 := by
      have := congrArg List.getLast? htgt
      rw [List.getLast?_map, List.getLast?_concat, List.getLast?_eq_some_getLast hne] at this
      simpa using this
    unfold replaceChain
    simp only [e0, e1, hh0, hgl, and_self, if_true]
    rw [← hw1, a1]
    simp only [hc2, List.getLast?_concat]
    rw [surgery_map (hknd _ hb0) hkid]
  obtain ⟨s1, s2, s3, s4, _⟩ := init_structure o w3 lim
  set w4 := (Graph.init o w3 lim).1 with hw4
  have hg : w4.ground = w.ground := by rw [s2, hw3]; simp [a2, hw1]
  have hch : ∀ b ∈ w.ground :: F.bodies, (w4.body b).children = (w.body b).children.map (subst lo.2.1 j1) := by
    intro b hb
    rw [s1, hw3, setChildren_children]
    split_ifs with e
    · rw [e]
    · have hf : L.filter (fun l => o.bodyOf l.1 = b) = [] := by
        rw [List.filter_eq_nil_iff]
        intro l hl he
        have : o.bodyOf l.1 ∈ L.map fun l => o.bodyOf l.1 := List.mem_map.mpr ⟨l, hl, rfl⟩
        simp only [decide_eq_true_eq] at he
        rw [hsrc, he, List.mem_cons] at this
        rcases this with h | h
        · exact e h
        · exact hfresh b h hb
      rw [a7, hf, hw1c, List.map_nil, List.append_nil, List.map_congr_left (g := id) (fun x hx => ?_)]
      · simp
      · have : x ≠ lo.2.1 := by
          rintro rfl
          obtain ⟨f0, a, c⟩ := hkids b hb _ hx
          rw [e0] at a
          simp at a
          subst a
          exact e c.symm
        simp [subst, this]
  have hfr : ∀ l ∈ L, (w4.joint l.2.1).frame0 = some l.1 ∧ (w4.joint l.2.1).frame1 = some l.2.2 := by
    intro l hl
    rw [s3, s4]
    exact a3 l hl
  have hpr : ∀ l ∈ L, (w4.body (o.bodyOf l.2.2)).parent = some l.2.1 := by
    intro l hl
    rw [s1, hw3, setChildren_parent]
    exact a5 l hl
  have hkt : ∀ l ∈ L.tail, (w4.body (o.bodyOf l.1)).children = [l.2.1] := by
    intro l hl
    have hl' : l ∈ L := List.mem_of_mem_tail hl
    have hmem : o.bodyOf l.1 ∈ L.dropLast.map fun l => o.bodyOf l.2.2 := by
      have := congrArg List.tail hsrc
      rw [List.tail_cons, ← List.map_tail] at this
      rw [← this]
      exact List.mem_map.mpr ⟨l, hl, rfl⟩
    have hne0 : o.bodyOf l.1 ≠ o.bodyOf lo.1 := fun e => hfresh _ hmem (e ▸ hb0)
    obtain ⟨l2, hl2, e2⟩ := List.mem_map.mp hmem
    rw [s1, hw3, setChildren_children, if_neg hne0, a7, hw1c, filter_key hsn l hl', ← e2, (hL.bodies l2 hl2).2.2]
    rfl
  have hu : ∀ {b js G}, Unfolds o w b js G → b ∈ w.ground :: F.bodies → (∀ x ∈ G.bodies, x ∈ w.ground :: F.bodies) →
      Unfolds o w4 b (js.map (subst lo.2.1 j1)) (replaceBy o lo.2.1 L G) := by
    intro b js G hG
    induction hG with
    | nil => exact fun _ _ => .nil _
    | @cons b k js f0 f1 ch sib h0 h1 hb hpar' hch' hsib ihc ihs =>
      intro hbm hG
      have hf1 : o.bodyOf f1 ∈ w.ground :: F.bodies := hG _ (by simp [Forest.bodies])
      have hc' := ihc hf1 (fun x hx => hG x (by simp [Forest.bodies, hx]))
      have hs' := ihs hbm (fun x hx => hG x (by simp [Forest.bodies, hx]))
      rw [← hch _ hf1] at hc'
      rw [replaceBy]
      by_cases hk : k = lo.2.1
      · subst hk
        have h0 : lo.1 = f0 := by rw [e0] at h0; simpa using h0
        have h1 : lo.2.2 = f1 := by rw [e1] at h1; simpa using h1
        subst h0 h1 hb
        rw [if_pos rfl, List.map_cons, subst, if_pos rfl]
        exact spine_unfolds hc' L _ _ _ hne hfr hpr hkt hL.path hs'
      · rw [if_neg hk, List.map_cons, subst, if_neg hk]
        have hkL : k ∉ L.map fun l => l.2.1 := by
          intro h
          obtain ⟨l, hl, rfl⟩ := List.mem_map.mp h
          rw [((hL.joints l hl).resolve_left hk).1] at h0
          simp at h0
        have hfb : o.bodyOf f1 ≠ o.bodyOf lo.2.2 := by
          intro e
          rw [e, hpar] at hpar'
          exact hk (by simpa using hpar'.symm)
        refine .cons ?_ ?_ hb ?_ hc' hs'
        · rw [s3, hw3, setChildren_joint, a4 k hkL]
          simp [hw1, setFrames_frame0, hk, h0]
        · rw [s4, hw3, setChildren_joint, a4 k hkL]
          simp [hw1, setFrames_frame1, hk, h1]
        · rw [s1, hw3, setChildren_parent, a6]
          · simp [hw1, setParent_parent, hfb, hpar']
          · rw [htgt, List.mem_append, List.mem_singleton, not_or]
            exact ⟨fun h => hfresh _ h hf1, hfb⟩
  have hU : Unfolds o w4 w4.ground (w4.body w4.ground).children (replaceBy o lo.2.1 L F) := by
    rw [hg, hch _ List.mem_cons_self]
    exact hu hF.unfolds List.mem_cons_self (fun x hx => List.mem_cons_of_mem _ hx)
  have hbod := unfolds_bodies hU
  have hlk := replaceBy_links o lo.2.1 hne F
  obtain ⟨A, B, hAB⟩ := List.append_of_mem hlo
  have hjn := hF.joints_nodup
  have hA : lo.2.1 ∉ A.map fun l => l.2.1 := by
    rw [joints, hAB, List.map_append, List.map_cons, List.nodup_append] at hjn
    exact fun h => hjn.2.2 _ h _ List.mem_cons_self rfl
  have hB : lo.2.1 ∉ B.map fun l => l.2.1 := by
    rw [joints, hAB, List.map_append, List.map_cons, List.nodup_append, List.nodup_cons] at hjn
    exact hjn.2.1.1
  have hlk' : (replaceBy o lo.2.1 L F).links = A ++ (L ++ B) := by
    rw [hlk, hAB, List.flatMap_append, List.flatMap_cons, flatMap_same hA, flatMap_same hB, if_pos rfl]
  have hT : IsTree o w4 (replaceBy o lo.2.1 L F) := by
    refine ⟨hU, ?_, ?_, ?_⟩
    · rw [hg, s1, hw3, setChildren_parent, a6]
      · simp only [hw1, setFrames_body, setParent_parent]
        split_ifs
        · rfl
        · exact hF.root
      · rw [htgt, List.mem_append, List.mem_singleton, not_or]
        refine ⟨fun h => hfresh _ h List.mem_cons_self, fun e => ?_⟩
        have := hF.root
        rw [e, hpar] at this
        simp at this
    · rw [hg, hbod, hlk']
      have hp : (w.ground :: (A ++ (L ++ B)).map fun l => o.bodyOf l.2.2).Perm
          ((L.dropLast.map fun l => o.bodyOf l.2.2) ++ (w.ground :: F.bodies)) := by
        rw [unfolds_bodies hF.unfolds, hAB]
        simp only [List.map_append, List.map_cons, htgt]
        rw [List.perm_iff_count]
        intro x
        simp only [List.count_cons, List.count_append, List.count_nil]
        omega
      rw [hp.nodup_iff, List.nodup_append]
      exact ⟨hL.bodies_nodup, hF.bodies_nodup, fun a ha b hb e => hfresh a ha (e ▸ hb)⟩
    · rw [joints, hlk']
      have hp : ((A ++ (L ++ B)).map fun l => l.2.1).Perm ((L.map fun l => l.2.1) ++ (A ++ B).map fun l => l.2.1) := by
        simp only [List.map_append]
        rw [List.perm_iff_count]
        intro x
        simp only [List.count_append]
        omega
      rw [hp.nodup_iff, List.nodup_append]
      refine ⟨hL.joints_nodup, ?_, ?_⟩
      · rw [joints, hAB] at hjn
        refine hjn.sublist (List.Sublist.map _ ?_)
        exact (List.sublist_cons_self lo B).append_left A
      · rintro a ha b hb rfl
        obtain ⟨l, hl, e⟩ := List.mem_map.mp ha
        obtain ⟨l', hl', e'⟩ := List.mem_map.mp hb
        have hl'F : l' ∈ F.links := by
          rw [hAB]; rw [List.mem_append] at hl' ⊢; rw [List.mem_cons]; tauto
        have h := (unfolds_ends hF.unfolds hl'F).1
        have hne' : l.2.1 ≠ lo.2.1 := by
          intro e2
          rw [List.mem_append] at hl'
          rcases hl' with h' | h'
          · exact hA (List.mem_map.mpr ⟨l', h', by rw [e', ← e, e2]⟩)
          · exact hB (List.mem_map.mpr ⟨l', h', by rw [e', ← e, e2]⟩)
        rw [e', ← e, ((hL.joints l hl).resolve_left hne').1] at h
        simp at h
  have hd : depth (replaceBy o lo.2.1 L F) < lim := by
    have := replaceBy_depth o lo.2.1 hne hF.joints_nodup
    rw [if_pos hold] at this
    have : 0 < L.length := List.length_pos_iff.mpr hne
    omega
  have hT3 : Unfolds o w3 w3.ground (w3.body w3.ground).children (replaceBy o lo.2.1 L F) := by
    have : ∀ {b js G}, Unfolds o w4 b js G → Unfolds o w3 b js G := by
      intro b js G hG
      induction hG with
      | nil => exact .nil _
      | cons h0 h1 hb hpar hch hsib ihc ihs =>
        rw [s1] at hpar ihc
        exact .cons (by rw [← s3, h0]) (by rw [← s4, h1]) hb hpar ihc ihs
    have hh := this hT.unfolds
    rwa [s1, s2] at hh
  have hok : (Graph.init o w3 lim).2 = .ok () := by
    unfold Graph.init iterJoints
    rw [Unfolds.iterDescJoints hT3 hd]
  refine ⟨w4, ?_, hT, ?_, ?_, ?_, ?_⟩
  · rw [hrep, hw4, ← hok]
  · rw [(C54_iter hT hd).2.1, joints, hlk, joints, List.flatMap_map, List.map_flatMap]
    congr 1
    congr 1
    funext l
    split_ifs <;> rfl
  · rw [(C54_iter hT hd).1, hg, hbod, hlk]
  · intro hold'
    refine ⟨?_, ?_⟩
    · rw [s3, hw3, setChildren_joint, a4 _ hold']
      simp [hw1, setFrames_frame0]
    · rw [s4, hw3, setChildren_joint, a4 _ hold']
      simp [hw1, setFrames_frame1]
  · exact hg

/-- C98.  Replacing a joint of the world by a chain of new joints through new bodies (between the same two bodies) succeeds
and leaves the tree with the chain, one link below the other, at exactly the old joint's place: the descendants of the old
joint are below the last link, its siblings keep their order; the old joint is free again. -/
theorem C98_chain {o : Objs} {lim g : ℕ} {ops : List Op} (hh : AllowedHistory o lim (World.new g) ops) {w : World}
    (hw : w = runAll o lim (World.new g) ops) {F : Forest (FrameRef × ℕ × FrameRef) ℕ} (hF : IsTree o w F)
    {L : List (FrameRef × ℕ × FrameRef)} (hlim : depth F + L.length ≤ lim)
    {old : ℕ} (hold : old ∈ joints F) {g0 g1 : FrameRef} (e0 : (w.joint old).frame0 = some g0) (e1 : (w.joint old).frame1 = some g1)
    (hL : IsNewChain o w F (o.bodyOf g0) (o.bodyOf g1) L) :
    ∃ w', replaceJoint o w lim old (linkArgs L) = (w', .ok ()) ∧ IsTree o w' (replaceBy o old L F) ∧
      iterJoints o w' lim = .ok ((joints F).flatMap fun j => if j = old then L.map (fun l => l.2.1) else [j]) ∧
      iterBodies o w' lim = .ok (w.ground :: (F.links.flatMap fun l => if l.2.1 = old then L else [l]).map fun l => o.bodyOf l.2.2) ∧
      (w'.joint old).frame0 = none ∧ (w'.joint old).frame1 = none := by
  have hold' : old ∉ L.map fun l => l.2.1 := by
    intro h
    obtain ⟨l, hl, rfl⟩ := List.mem_map.mp h
    rw [(hL.joints l hl).1] at e0
    simp at e0
  obtain ⟨w', h1, h2, h3, h4, h5, _⟩ := C98_reuse hF hlim hold e0 e1
    ⟨hL.ne, hL.path, fun l hl => .inr (hL.joints l hl), hL.joints_nodup, hL.bodies, hL.bodies_nodup⟩
  exact ⟨w', h1, h2, h3, h4, h5 hold'⟩

/-- a world of three bodies in a row, whose first joint is replaced by two joints through a new body -/
example : ∃ F, IsTree plainObjs (runAll plainObjs 9 (World.new 0) [.addLink [.frame (.body 0), .joint 0,
    .frame (.body 1), .frame (.body 1), .joint 1, .frame (.body 2)]]) F ∧ 0 ∈ joints F ∧ depth F + 2 ≤ 9 ∧
    IsNewChain plainObjs (runAll plainObjs 9 (World.new 0) [.addLink [.frame (.body 0), .joint 0,
    .frame (.body 1), .frame (.body 1), .joint 1, .frame (.body 2)]]) F 0 1 [(.body 0, 2, .body 5), (.body 5, 3, .body 1)] ∧
    replaceBy plainObjs 0 [(.body 0, 2, .body 5), (.body 5, 3, .body 1)] F = .cons (.body 0, 2, .body 5) 5
      (.cons (.body 5, 3, .body 1) 1 (.cons (.body 1, 1, .body 2) 2 .nil .nil) .nil) .nil := by
  refine ⟨.cons (.body 0, 0, .body 1) 1 (.cons (.body 1, 1, .body 2) 2 .nil .nil) .nil, ⟨?_, rfl, ?_, ?_⟩, ?_, ?_, ⟨?_, ?_, ?_, ?_, ?_, ?_⟩, ?_⟩
  · exact .cons (f0 := .body 0) (f1 := .body 1) rfl rfl rfl rfl
      (.cons (f0 := .body 1) (f1 := .body 2) rfl rfl rfl rfl (.nil _) (.nil _)) (.nil _)
  · decide
  · decide
  · decide
  · decide
  · simp
  · exact ⟨rfl, rfl, rfl⟩
  · intro l hl
    simp at hl
    rcases hl with rfl | rfl <;> exact ⟨rfl, rfl⟩
  · decide
  · intro l hl
    simp at hl
    subst hl
    exact ⟨by decide, rfl, rfl⟩
  · decide
  · rfl

end Arboris
