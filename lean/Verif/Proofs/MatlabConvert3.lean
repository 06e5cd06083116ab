import Verif.Proofs.MatlabConvert2

/-!
# Conversion of a whole tree
-/

namespace Arboris
open Graph Spec Build Matlab

/-! ### algebra of `replaceAll` -/

lemma replaceBy_spine (o : Objs) {j : ℕ} {L : List (FrameRef × ℕ × FrameRef)} : ∀ (L' : List (FrameRef × ℕ × FrameRef)) (ch sib),
    j ∉ L'.map (fun l => l.2.1) → replaceBy o j L (spine o L' ch sib) = spine o L' (replaceBy o j L ch) (replaceBy o j L sib)
  | [], _, _, _ => rfl
  | [l], ch, sib, h => by
    simp only [List.map_cons, List.map_nil, List.mem_cons, List.not_mem_nil, or_false] at h
    simp only [spine, replaceBy]
    rw [if_neg (Ne.symm h)]
  | l :: l' :: L', ch, sib, h => by
    simp only [List.map_cons, List.mem_cons, not_or] at h
    have := replaceBy_spine o (j := j) (L := L) (l' :: L') ch .nil (by simp only [List.map_cons, List.mem_cons, not_or]; exact h.2)
    simp only [spine, replaceBy]
    rw [if_neg (Ne.symm h.1), this]
    rfl

lemma replaceBy_replaceAll (o : Objs) {j : ℕ} {L : List (FrameRef × ℕ × FrameRef)} {C : ℕ → Option (List (FrameRef × ℕ × FrameRef))} (hj : C j = none)
    {F : Forest (FrameRef × ℕ × FrameRef) ℕ} (hC : ∀ i ∈ joints F, ∀ L', C i = some L' → j ∉ L'.map (fun l => l.2.1)) :
    replaceBy o j L (replaceAll o C F) = replaceAll o (Function.update C j (some L)) F := by
  induction F with
  | nil => rfl
  | cons l b ch sib ih1 ih2 =>
    have i1 := ih1 fun i hi => hC i (by simp only [joints, Forest.links, List.map_cons, List.cons_append, List.map_append, List.mem_cons, List.mem_append]; exact .inr (.inl hi))
    have i2 := ih2 fun i hi => hC i (by simp only [joints, Forest.links, List.map_cons, List.cons_append, List.map_append, List.mem_cons, List.mem_append]; exact .inr (.inr hi))
    by_cases e : l.2.1 = j
    · simp only [replaceAll, e, hj, Function.update_self, replaceBy, if_true, i1, i2]
    · simp only [replaceAll, Function.update_of_ne e]
      cases hc : C l.2.1 with
      | none => simp only [replaceBy, if_neg e, i1, i2]
      | some L' =>
        simp only
        rw [replaceBy_spine o L' _ _ (hC _ (by simp [joints, Forest.links]) L' hc), i1, i2]

lemma replaceAll_links (o : Objs) {C : ℕ → Option (List (FrameRef × ℕ × FrameRef))} {F : Forest (FrameRef × ℕ × FrameRef) ℕ}
    (hne : ∀ l ∈ F.links, C l.2.1 ≠ some []) : (replaceAll o C F).links = F.links.flatMap fun l => (C l.2.1).getD [l] := by
  induction F with
  | nil => rfl
  | cons l b ch sib ih1 ih2 =>
    have i1 := ih1 fun i hi => hne i (by simp [Forest.links, hi])
    have i2 := ih2 fun i hi => hne i (by simp [Forest.links, hi])
    have h0 := hne l (by simp [Forest.links])
    cases hc : C l.2.1 with
    | none => simp only [replaceAll, hc, Forest.links, i1, i2, List.flatMap_append, List.flatMap_cons, Option.getD_none, List.cons_append, List.nil_append]
    | some L =>
      have : L ≠ [] := fun e => h0 (by rw [hc, e])
      simp only [replaceAll, hc]
      rw [spine_links o L _ _ this, i1, i2]
      simp only [Forest.links, List.cons_append, List.flatMap_cons, hc, Option.getD_some, List.flatMap_append]

lemma replaceAll_depth (o : Objs) {C : ℕ → Option (List (FrameRef × ℕ × FrameRef))} {F : Forest (FrameRef × ℕ × FrameRef) ℕ}
    (hne : ∀ l ∈ F.links, ∀ L, C l.2.1 = some L → L.length ≤ 3) : depth (replaceAll o C F) ≤ 3 * depth F := by
  induction F with
  | nil => simp [replaceAll, depth]
  | cons l b ch sib ih1 ih2 =>
    have i1 := ih1 fun i hi => hne i (by simp [Forest.links, hi])
    have i2 := ih2 fun i hi => hne i (by simp [Forest.links, hi])
    have h0 := hne l (by simp [Forest.links])
    cases hc : C l.2.1 with
    | none =>
      simp only [replaceAll, hc, depth]
      omega
    | some L =>
      have h3 := h0 L hc
      simp only [replaceAll, hc]
      have := spine_depth o L (replaceAll o C ch) (replaceAll o C sib)
      simp only [depth]
      omega

/-- the joint that is now at the place of `j` -/
def firstOf (C : ℕ → Option (List (FrameRef × ℕ × FrameRef))) (j : ℕ) : ℕ := match C j with
  | none => j
  | some [] => j
  | some (l :: _) => l.2.1

/-- the top joints of a forest -/
def topJoints : Forest (FrameRef × ℕ × FrameRef) ℕ → List ℕ
  | .nil => []
  | .cons l _ _ sib => l.2.1 :: topJoints sib

lemma unfolds_spine {o : Objs} {w : World} : ∀ {L : List (FrameRef × ℕ × FrameRef)} (_ : L ≠ []) {ch sib} {a : ℕ} {js : List ℕ} (hne : L ≠ []),
    Unfolds o w a js (spine o L ch sib) → ∃ js', js = (L.head hne).2.1 :: js' ∧ Unfolds o w a js' sib ∧
      Unfolds o w (o.bodyOf (L.getLast hne).2.2) (w.body (o.bodyOf (L.getLast hne).2.2)).children ch
  | [], h, _, _, _, _, _, _ => absurd rfl h
  | [l], _, ch, sib, a, js, hne, hu => by
    rw [spine] at hu
    cases hu with
    | cons h0 h1 hb hp hch hsib => exact ⟨_, rfl, hsib, hch⟩
  | l :: l' :: L, _, ch, sib, a, js, hne, hu => by
    rw [spine] at hu
    cases hu with
    | cons h0 h1 hb hp hch hsib =>
      obtain ⟨js', _, _, h⟩ := unfolds_spine (L := l' :: L) (by simp) (by simp) hch
      refine ⟨_, rfl, hsib, ?_⟩
      simpa using h

/-- the chains of `C` end where their link ends -/
def EndsRight (C : ℕ → Option (List (FrameRef × ℕ × FrameRef))) (F : Forest (FrameRef × ℕ × FrameRef) ℕ) : Prop :=
  ∀ l ∈ F.links, ∀ L, C l.2.1 = some L → ∃ h : L ≠ [], (L.getLast h).2.2 = l.2.2

lemma unfolds_tops {o : Objs} {w : World} {C : ℕ → Option (List (FrameRef × ℕ × FrameRef))} {F : Forest (FrameRef × ℕ × FrameRef) ℕ}
    (hC : EndsRight C F) {b : ℕ} {js : List ℕ} (h : Unfolds o w b js (replaceAll o C F)) : js = (topJoints F).map (firstOf C) := by
  induction F generalizing js with
  | nil => cases h; rfl
  | cons l b' ch sib ih1 ih2 =>
    have hs : EndsRight C sib := fun i hi => hC i (by simp [Forest.links, hi])
    cases hc : C l.2.1 with
    | none =>
      simp only [replaceAll, hc] at h
      cases h with
      | cons h0 h1 hb hp hch hsib =>
        rw [topJoints, List.map_cons, ← ih2 hs hsib, firstOf, hc]
    | some L =>
      obtain ⟨hne, _⟩ := hC l (by simp [Forest.links]) L hc
      simp only [replaceAll, hc] at h
      obtain ⟨js', rfl, hsib, hch⟩ := unfolds_spine hne hne h
      rw [topJoints, List.map_cons, ← ih2 hs hsib, firstOf, hc]
      cases L with
      | nil => exact absurd rfl hne
      | cons => rfl

/-- the bodies of a tree are those at the ends of its links -/
def Labelled (o : Objs) (F : Forest (FrameRef × ℕ × FrameRef) ℕ) : Prop := ∀ l b ch, Node F l b ch → b = o.bodyOf l.2.2

lemma unfolds_labelled {o : Objs} {w : World} {F : Forest (FrameRef × ℕ × FrameRef) ℕ} {b js} (h : Unfolds o w b js F) : Labelled o F := by
  induction h with
  | nil => intro l b ch h; cases h
  | cons h0 h1 hb hp hch hsib ihc ihs =>
    intro l b ch h
    cases h with
    | here => rfl
    | down h => exact ihc _ _ _ h
    | right h => exact ihs _ _ _ h

lemma node_mem {F : Forest (FrameRef × ℕ × FrameRef) ℕ} {l b ch} (h : Node F l b ch) : l ∈ F.links ∧ b ∈ F.bodies ∧ ∀ x ∈ ch.links, x ∈ F.links := by
  induction h with
  | here l b ch sib => simp +contextual [Forest.links, Forest.bodies]
  | down h ih => exact ⟨by simp [Forest.links, ih.1], by simp [Forest.bodies, ih.2.1], fun x hx => by simp [Forest.links, ih.2.2 x hx]⟩
  | right h ih => exact ⟨by simp [Forest.links, ih.1], by simp [Forest.bodies, ih.2.1], fun x hx => by simp [Forest.links, ih.2.2 x hx]⟩

lemma unfolds_node {o : Objs} {w : World} {C : ℕ → Option (List (FrameRef × ℕ × FrameRef))} {F : Forest (FrameRef × ℕ × FrameRef) ℕ} {l b' ch}
    (hn : Node F l b' ch) (hC : EndsRight C F) (hlab : Labelled o F) {b : ℕ} {js : List ℕ} (h : Unfolds o w b js (replaceAll o C F)) :
    Unfolds o w b' (w.body b').children (replaceAll o C ch) := by
  induction hn generalizing b js with
  | here l b' ch sib =>
    have e := hlab _ _ _ (.here l b' ch sib)
    cases hc : C l.2.1 with
    | none =>
      simp only [replaceAll, hc] at h
      cases h with
      | cons h0 h1 hb hp hch hsib => exact hch
    | some L =>
      obtain ⟨hne, he⟩ := hC l (by simp [Forest.links]) L hc
      simp only [replaceAll, hc] at h
      obtain ⟨js', _, _, hch⟩ := unfolds_spine hne hne h
      rwa [he, ← e] at hch
  | @down l b2 ch2 sib l' b' ch' hn ih =>
    have hs : EndsRight C ch2 := fun i hi => hC i (by simp [Forest.links, hi])
    have hl : Labelled o ch2 := fun _ _ _ h => hlab _ _ _ (.down h)
    cases hc : C l.2.1 with
    | none =>
      simp only [replaceAll, hc] at h
      cases h with
      | cons h0 h1 hb hp hch hsib => exact ih hs hl hch
    | some L =>
      obtain ⟨hne, _⟩ := hC l (by simp [Forest.links]) L hc
      simp only [replaceAll, hc] at h
      obtain ⟨js', _, _, hch⟩ := unfolds_spine hne hne h
      exact ih hs hl hch
  | @right l b2 ch2 sib l' b' ch' hn ih =>
    have hs : EndsRight C sib := fun i hi => hC i (by simp [Forest.links, hi])
    have hl : Labelled o sib := fun _ _ _ h => hlab _ _ _ (.right h)
    cases hc : C l.2.1 with
    | none =>
      simp only [replaceAll, hc] at h
      cases h with
      | cons h0 h1 hb hp hch hsib => exact ih hs hl hsib
    | some L =>
      obtain ⟨hne, _⟩ := hC l (by simp [Forest.links]) L hc
      simp only [replaceAll, hc] at h
      obtain ⟨js', _, hsib, _⟩ := unfolds_spine hne hne h
      exact ih hs hl hsib

/-! ### hinge chains -/

lemma hingeChain_mono {m : ℝ} {S S1 S2 : RS} {name : Option String} (hk : Keeps S1 S2) : ∀ {ks f0 f1 L},
    HingeChain m S S1 name f0 ks f1 L → HingeChain m S S2 name f0 ks f1 L := by
  have hh : ∀ {k j}, IsNewHinge S S1 name k j → IsNewHinge S S2 name k j := by
    rintro k j ⟨a, b, c, d⟩
    obtain ⟨x, y, _⟩ := hk.joint j b
    exact ⟨a, lt_of_lt_of_le b hk.nj, x.trans c, y.trans d⟩
  have hb : ∀ {b}, IsNewBody m S S1 b → IsNewBody m S S2 b := by
    rintro b ⟨a, b', c, d⟩
    obtain ⟨x, y⟩ := hk.body b b'
    exact ⟨a, lt_of_lt_of_le b' hk.nb, x.trans c, y.trans d⟩
  intro ks
  induction ks with
  | nil => intro f0 f1 L h; simp [HingeChain] at h
  | cons k ks ih =>
    intro f0 f1 L h
    cases L with
    | nil => cases ks <;> simp [HingeChain] at h
    | cons x xs =>
      cases ks with
      | nil =>
        cases xs with
        | nil => exact ⟨h.1, h.2.1, hh h.2.2⟩
        | cons y ys =>
          obtain ⟨_, _, b, _, _, h'⟩ := h
          simp [HingeChain] at h'
      | cons k' ks =>
        cases xs with
        | nil =>
          obtain ⟨_, _, b, _, _, h'⟩ := h
          cases ks <;> simp [HingeChain] at h'
        | cons y ys =>
          obtain ⟨e, hj, b, eb, nb, h'⟩ := h
          exact ⟨e, hh hj, b, eb, hb nb, ih h'⟩

/-- the start may be an earlier state -/
lemma hingeChain_start {m : ℝ} {S S1 S2 : RS} {name : Option String} (hk : Keeps S S1) : ∀ {ks f0 f1 L},
    HingeChain m S1 S2 name f0 ks f1 L → HingeChain m S S2 name f0 ks f1 L := by
  have hh : ∀ {k j}, IsNewHinge S1 S2 name k j → IsNewHinge S S2 name k j := by
    rintro k j ⟨a, b⟩
    exact ⟨hk.nj.trans a, b⟩
  have hb : ∀ {b}, IsNewBody m S1 S2 b → IsNewBody m S S2 b := by
    rintro b ⟨a, b'⟩
    exact ⟨hk.nb.trans a, b'⟩
  intro ks
  induction ks with
  | nil => intro f0 f1 L h; simp [HingeChain] at h
  | cons k ks ih =>
    intro f0 f1 L h
    cases L with
    | nil => cases ks <;> simp [HingeChain] at h
    | cons x xs =>
      cases ks with
      | nil =>
        cases xs with
        | nil => exact ⟨h.1, h.2.1, hh h.2.2⟩
        | cons y ys =>
          obtain ⟨_, _, b, _, _, h'⟩ := h
          simp [HingeChain] at h'
      | cons k' ks =>
        cases xs with
        | nil =>
          obtain ⟨_, _, b, _, _, h'⟩ := h
          cases ks <;> simp [HingeChain] at h'
        | cons y ys =>
          obtain ⟨e, hj, b, eb, nb, h'⟩ := h
          exact ⟨e, hh hj, b, eb, hb nb, ih h'⟩

lemma hingeChain_facts {m : ℝ} {S S' : RS} {name : Option String} : ∀ {ks f0 f1 L}, HingeChain m S S' name f0 ks f1 L →
    L.length = ks.length ∧ (∃ h : L ≠ [], (L.getLast h).2.2 = f1) ∧ (∀ x ∈ L, S.nj ≤ x.2.1) := by
  intro ks
  induction ks with
  | nil => intro f0 f1 L h; simp [HingeChain] at h
  | cons k ks ih =>
    intro f0 f1 L h
    cases L with
    | nil => cases ks <;> simp [HingeChain] at h
    | cons x xs =>
      cases ks with
      | nil =>
        cases xs with
        | nil => exact ⟨rfl, ⟨by simp, h.2.1⟩, by simpa using h.2.2.1⟩
        | cons y ys =>
          obtain ⟨_, _, b, _, _, h'⟩ := h
          simp [HingeChain] at h'
      | cons k' ks =>
        cases xs with
        | nil =>
          obtain ⟨_, _, b, _, _, h'⟩ := h
          cases ks <;> simp [HingeChain] at h'
        | cons y ys =>
          obtain ⟨e, hj, b, eb, nb, h'⟩ := h
          obtain ⟨a1, ⟨hne, a2⟩, a3⟩ := ih h'
          refine ⟨by simp at a1 ⊢; omega, ⟨by simp, ?_⟩, ?_⟩
          · rw [List.getLast_cons hne]; exact a2
          · intro z hz
            rcases List.mem_cons.mp hz with rfl | hz
            · exact hj.1
            · exact a3 z hz

end Arboris
