import Verif.Props.Collada
import Verif.Spec.ColladaIds

/-! # C101: the ids of the Collada scene are unique -/

namespace Arboris
open Spec Visu Build Log Graph

lemma toString_inj {i j : ℕ} (h : toString i = toString j) : i = j := by
  have h1 := congrArg String.toList h
  rw [Nat.toString_eq_repr, Nat.toString_eq_repr, Nat.toList_repr, Nat.toList_repr] at h1
  rw [← Nat.ofDigitChars_ten_toDigits (n := i), h1, Nat.ofDigitChars_ten_toDigits]

lemma underscore_toString {i : ℕ} : '_' ∉ (toString i).toList := by
  rw [Nat.toString_eq_repr, Nat.toList_repr]
  exact Nat.underscore_not_in_toDigits

lemma split_last {c : Char} : ∀ {a b x y : List Char}, c ∉ x → c ∉ y → a ++ c :: x = b ++ c :: y → a = b
  | [], [], _, _, _, _, _ => rfl
  | [], d :: b, x, y, hx, hy, h => by
    simp only [List.nil_append, List.cons_append, List.cons.injEq] at h
    exact absurd (h.2 ▸ (by simp : c ∈ b ++ c :: y)) hx
  | d :: a, [], x, y, hx, hy, h => by
    simp only [List.nil_append, List.cons_append, List.cons.injEq] at h
    exact absurd (h.2 ▸ (by simp : c ∈ a ++ c :: x)) hy
  | d :: a, e :: b, x, y, hx, hy, h => by
    simp only [List.cons_append, List.cons.injEq] at h
    rw [h.1, split_last hx hy h.2]

lemma numbered_base {s u : String} {i j : ℕ} (h : s ++ "_" ++ toString i = u ++ "_" ++ toString j) : s = u := by
  have h1 := congrArg String.toList h
  simp only [String.toList_append, List.append_assoc] at h1
  have e : ("_" : String).toList = ['_'] := rfl
  rw [e] at h1
  exact String.toList_injective (split_last underscore_toString underscore_toString h1)

lemma numbered_inj {s : String} {i j : ℕ} (h : s ++ "_" ++ toString i = s ++ "_" ++ toString j) : i = j := by
  apply toString_inj
  have h1 := congrArg String.toList h
  simp only [String.toList_append, List.append_assoc, List.append_cancel_left_eq] at h1
  exact String.toList_injective h1

lemma ne_numbered (s : String) (i : ℕ) : s ≠ s ++ "_" ++ toString i := by
  intro h
  have h1 := congrArg (fun t => t.toList.length) h
  simp [String.toList_append] at h1

/-- two names that give the same id are close -/
lemma close_of_common {s u t : String} (h1 : Suffixed s t) (h2 : Suffixed u t) : Close s u := by
  rcases h1 with rfl | ⟨i, rfl⟩
  · exact .inr h2
  · rcases h2 with rfl | ⟨j, h⟩
    · exact .inl (.inr ⟨i, rfl⟩)
    · rw [numbered_base h]; exact .inl (.inl rfl)

/-- the ids a name may be given -/
def candidates (s : String) : List String := s :: (List.range 100).map fun i => s ++ "_" ++ toString i

lemma candidates_numbered {s t : String} (h : t ∈ candidates s) : Suffixed s t := by
  rcases List.mem_cons.mp h with rfl | h
  · exact .inl rfl
  · obtain ⟨i, -, rfl⟩ := List.mem_map.mp h
    exact .inr ⟨i, rfl⟩

/-- the 101 candidates are distinct -/
lemma candidates_nodup (s : String) : (candidates s).Nodup := by
  rw [candidates, List.nodup_cons]
  constructor
  · intro h
    obtain ⟨i, -, hi⟩ := List.mem_map.mp h
    exact ne_numbered s i hi.symm
  · exact List.Nodup.map (fun i j h => numbered_inj h) List.nodup_range

lemma freshId_mem (taken : List String) (s : String) : freshId taken s ∈ candidates s := by
  unfold freshId candidates
  split
  · cases h : ((List.range 100).map fun i => s ++ "_" ++ toString i).find? fun t => t ∉ taken with
    | none =>
      refine List.mem_cons_of_mem _ (List.mem_map.mpr ⟨99, by simp, ?_⟩)
      rw [Option.getD_none, String.append_assoc]; congr 1
    | some t => exact List.mem_cons_of_mem _ (List.mem_of_find?_eq_some h)
  · exact List.mem_cons_self

/-- a new id is new, unless all the candidates are taken -/
lemma freshId_new {taken : List String} {s : String} (h : freshId taken s ∈ taken) : candidates s ⊆ taken := by
  unfold freshId at h
  split at h
  · rename_i hs
    cases hf : ((List.range 100).map fun i => s ++ "_" ++ toString i).find? fun t => t ∉ taken with
    | some t =>
      rw [hf] at h
      have := List.find?_some hf
      simp at this
      exact absurd h this
    | none =>
      rw [List.find?_eq_none] at hf
      intro t ht
      rcases List.mem_cons.mp ht with rfl | ht
      · exact hs
      · simpa using hf t ht
  · rename_i hs; exact absurd h hs

/-! ### The things that have a node -/

/-- the id `t` is what the driver may give to `i` -/
def Named (lab : Labels) (i : Item) (t : String) : Prop := ∃ s, labelOf lab i = some s ∧ s ≠ "" ∧ t ∈ candidates s

lemma forall₂_select {A B : Type} {R : A → B → Prop} (p : B → Bool) {I : List A} {T : List B} (h : List.Forall₂ R I T) :
    ∃ J : List A, J.Sublist I ∧ J.length = (T.filter p).length ∧ ∀ i ∈ J, ∃ t, p t = true ∧ R i t := by
  induction h with
  | nil => exact ⟨[], .slnil, rfl, by simp⟩
  | @cons i t I T hit _ ih =>
    obtain ⟨J, h1, h2, h3⟩ := ih
    by_cases hp : p t = true
    · refine ⟨i :: J, h1.cons_cons i, by simp [hp, h2], ?_⟩
      intro k hk
      rcases List.mem_cons.mp hk with rfl | hk
      · exact ⟨t, hp, hit⟩
      · exact h3 k hk
    · exact ⟨J, h1.cons i, by simp [hp, h2], h3⟩

/-- the names given so far, and to what -/
structure Given (lab : Labels) (W : Item → Prop) (I : List Item) (taken : List String) : Prop where
  named : List.Forall₂ (Named lab) I taken
  once : I.Nodup
  inW : ∀ i ∈ I, W i
  nodup : Capacity lab W → taken.Nodup
  first : ∀ i ∈ I, ∀ s, labelOf lab i = some s → s ∈ taken

lemma Given.fresh {lab : Labels} {W : Item → Prop} {I : List Item} {taken : List String} (h : Given lab W I taken) {i : Item} (hi : i ∉ I) (hW : W i)
    {s : String} (hs : labelOf lab i = some s) (hne : s ≠ "") : Given lab W (I ++ [i]) (taken ++ [freshId taken s]) := by
  refine ⟨List.rel_append h.named (.cons ⟨s, hs, hne, freshId_mem _ _⟩ .nil), ?_, ?_, ?_, ?_⟩
  · rw [List.nodup_append]
    refine ⟨h.once, by simp, ?_⟩
    intro a ha b hb
    rw [List.mem_singleton.mp hb]
    rintro rfl
    exact hi ha
  · intro j hj
    rcases List.mem_append.mp hj with hj | hj
    · exact h.inW j hj
    · rw [List.mem_singleton.mp hj]; exact hW
  · intro hcap
    rw [List.nodup_append]
    refine ⟨h.nodup hcap, by simp, ?_⟩
    intro a ha b hb
    rw [List.mem_singleton.mp hb]
    rintro rfl
    have hsub := freshId_new ha
    obtain ⟨J, h1, h2, h3⟩ := forall₂_select (fun t => decide (t ∈ candidates s)) h.named
    have hsub' : candidates s ⊆ taken.filter fun t => decide (t ∈ candidates s) := by
      intro t ht
      rw [List.mem_filter]
      exact ⟨hsub ht, by simpa using ht⟩
    have hlen := (List.subperm_of_subset (candidates_nodup s) hsub').length_le
    have hc : (candidates s).length = 101 := by simp [candidates]
    have := hcap s (i :: J) (List.nodup_cons.mpr ⟨fun hm => hi (h1.subset hm), h1.nodup h.once⟩) (by
      intro j hj
      rcases List.mem_cons.mp hj with rfl | hj
      · exact ⟨hW, s, hs, .inl (.inl rfl)⟩
      · obtain ⟨t, ht, u, hu, -, htu⟩ := h3 j hj
        exact ⟨h.inW j (h1.subset hj), u, hu, close_of_common (candidates_numbered (by simpa using ht)) (candidates_numbered htu)⟩)
    simp only [List.length_cons] at this
    omega
  · intro j hj u hu
    rw [List.mem_append] at hj ⊢
    rcases hj with hj | hj
    · exact .inl (h.first j hj u hu)
    · rw [List.mem_singleton.mp hj, hs] at hu
      cases hu
      by_cases hin : s ∈ taken
      · exact .inl hin
      · exact .inr (by simp [freshId, hin])

lemma Given.nodeIds {lab : Labels} {W : Item → Prop} : ∀ (its : List Item) {I : List Item} {taken : List String}, Given lab W I taken → its.Nodup → (∀ i ∈ its, i ∉ I ∧ W i) →
    ∃ I', Given lab W I' (nodeIds taken (its.map (labelOf lab))).2 ∧ (∀ i ∈ I', i ∈ I ∨ i ∈ its) ∧
      ((∀ i ∈ I, i ∈ I') ∧ ∀ i ∈ its, (∃ s, labelOf lab i = some s ∧ s ≠ "") → i ∈ I') ∧
      (nodeIds taken (its.map (labelOf lab))).2 = taken ++ (nodeIds taken (its.map (labelOf lab))).1.filterMap id
  | [], I, taken, h, _, _ => ⟨I, h, fun i hi => .inl hi, ⟨fun _ h => h, by simp⟩, by simp [Visu.nodeIds]⟩
  | i :: its, I, taken, h, hnd, hnew => by
    obtain ⟨hi, hnd⟩ := List.nodup_cons.mp hnd
    have hrest : ∀ j ∈ its, j ∉ I ∧ W j := fun j hj => hnew j (List.mem_cons_of_mem _ hj)
    have same : nodeId taken (labelOf lab i) = (none, taken) → (¬ ∃ s, labelOf lab i = some s ∧ s ≠ "") → ∃ I', Given lab W I' (Visu.nodeIds taken ((i :: its).map (labelOf lab))).2 ∧ (∀ j ∈ I', j ∈ I ∨ j ∈ i :: its) ∧
      ((∀ j ∈ I, j ∈ I') ∧ ∀ j ∈ i :: its, (∃ s, labelOf lab j = some s ∧ s ≠ "") → j ∈ I') ∧
      (Visu.nodeIds taken ((i :: its).map (labelOf lab))).2 = taken ++ (Visu.nodeIds taken ((i :: its).map (labelOf lab))).1.filterMap id := by
      intro e hno
      obtain ⟨I', h1, h2, h4, h3⟩ := Given.nodeIds its h hnd hrest
      simp only [List.map_cons, Visu.nodeIds, e]
      refine ⟨I', h1, fun j hj => (h2 j hj).imp_right (List.mem_cons_of_mem _), ⟨h4.1, fun j hj hj' => ?_⟩, by simpa using h3⟩
      rcases List.mem_cons.mp hj with rfl | hj
      · exact absurd hj' hno
      · exact h4.2 j hj hj'
    cases hl : labelOf lab i with
    | none => exact same (by simp [hl, nodeId]) (by simp [hl])
    | some s =>
      by_cases he : s = ""
      · exact same (by simp [hl, nodeId, he]) (by simp [hl, he])
      · have hg := h.fresh (hnew i List.mem_cons_self).1 (hnew i List.mem_cons_self).2 hl he
        obtain ⟨I', h1, h2, h4, h3⟩ := Given.nodeIds its hg hnd (fun j hj => ⟨by
          rw [List.mem_append, List.mem_singleton]
          rintro (h | rfl)
          · exact (hrest j hj).1 h
          · exact hi hj, (hrest j hj).2⟩)
        simp only [List.map_cons, Visu.nodeIds, hl, nodeId, if_neg he]
        refine ⟨I', h1, fun j hj => ?_, ⟨fun j hj => h4.1 j (List.mem_append_left _ hj), fun j hj hj' => ?_⟩, by simpa using h3⟩
        swap
        · rcases List.mem_cons.mp hj with rfl | hj
          · exact h4.1 _ (List.mem_append_right _ List.mem_cons_self)
          · exact h4.2 j hj hj'
        rcases h2 j hj with hj | hj
        · rcases List.mem_append.mp hj with hj | hj
          · exact .inl hj
          · rw [List.mem_singleton.mp hj]; exact .inr List.mem_cons_self
        · exact .inr (List.mem_cons_of_mem _ hj)

/-! ### Through the scene -/

/-- the ids given by the driver to the nodes of a scene, the root excepted -/
def givenIds (c : CSt) : List String := (c.ids.tail ++ c.shapes.map (·.id)).filterMap id

/-- what holds while the scene is drawn: `A` are the frames drawn, `S` the shapes -/
structure IdInv (lab : Labels) (W : Item → Prop) (gr : ℕ) (A : List FrameRef) (S : List ℕ) (c : CSt) : Prop where
  root : ∃ l, c.ids = some "ground" :: l
  perm : (givenIds c).Perm c.taken
  keys : ∀ f, (PDict.get? c.d.frameNodes f).isSome ↔ f ∈ A
  ground : .body gr ∈ A
  given : ∃ I, Given lab W I c.taken ∧ (∀ i ∈ I, (∃ f ∈ A, i = .inl f) ∨ ∃ s ∈ S, i = .inr s) ∧
    (∀ f ∈ A, f ≠ .body gr → (∃ s, lab.frame f = some s ∧ s ≠ "") → .inl f ∈ I) ∧ ∀ s ∈ S, (∃ u, labelOf lab (.inr s) = some u ∧ u ≠ "") → .inr s ∈ I

/-- the frames for which a call makes a node -/
def asks (o : Objs) (flat : Bool) (d : DSt) : Graph.Ev → List FrameRef
  | .link _ _ (.body b) => [.body b]
  | .link _ _ (.sub f) => if flat then [.body (o.subBody f), .sub f] else [.sub f, .body (o.subBody f)]
  | .reg (.frame (.sub f)) => if (PDict.get? d.frameNodes (.sub f)).isSome then [] else [.sub f]
  | _ => []

variable {o : Objs} {g : Geo} {flat : Bool} {lab : Labels} {op : Opts} {argsort : Vec3 → Equiv.Perm (Fin 3)}

lemma newLabels_asks (d : DSt) (e : Graph.Ev) : newLabels o lab flat d e = ((asks o flat d e).map Sum.inl).map (labelOf lab) := by
  cases e with
  | initParse b => rfl
  | link f0 j f1 =>
    cases f1 with
    | body b => rfl
    | sub f => cases flat <;> rfl
  | reg x =>
    cases x with
    | frame f =>
      cases f with
      | body b => rfl
      | sub f =>
        simp only [newLabels, asks]
        split <;> rfl
    | _ => rfl

lemma bind_keys (d : DSt) (f : FrameRef) (n : ℕ) (r : FrameRef) :
    (PDict.get? (d.bind f n).frameNodes r).isSome ↔ r = f ∨ (PDict.get? d.frameNodes r).isSome := by
  simp only [DSt.bind]
  exact get_set_isSome _ _ _ _

/-- the frames known after a call -/
lemma drawEv_keys {d d' : DSt} {e : Graph.Ev} (he : ∀ b, e ≠ .initParse b) (h : drawEv o g flat d e = .ok d') (r : FrameRef) :
    (PDict.get? d'.frameNodes r).isSome ↔ r ∈ dgive o e ∨ (PDict.get? d.frameNodes r).isSome := by
  cases e with
  | initParse b => exact absurd rfl (he b)
  | link f0 j f1 =>
    cases f1 with
    | body b =>
      simp only [drawEv, drawLink] at h
      cases flat with
      | true =>
        simp only [if_true] at h
        obtain rfl := Except.ok.inj h
        rw [bind_keys]
        simp [dgive, Objs.bodyOf, DSt.add]
      | false =>
        simp only [Bool.false_eq_true, if_false, bind, Except.bind] at h
        split at h
        · cases h
        simp only [pure, Except.pure] at h
        obtain rfl := Except.ok.inj h
        simp only [bind_keys]
        simp [dgive, Objs.bodyOf, DSt.add]
    | sub x =>
      simp only [drawEv, drawLink] at h
      split at h
      · cases h
      cases flat with
      | true =>
        simp only [if_true] at h
        obtain rfl := Except.ok.inj h
        simp only [bind_keys]
        simp [dgive, Objs.bodyOf, DSt.add, or_assoc]
      | false =>
        simp only [Bool.false_eq_true, if_false, bind, Except.bind] at h
        split at h
        · cases h
        simp only [pure, Except.pure] at h
        obtain rfl := Except.ok.inj h
        simp only [bind_keys]
        simp [dgive, Objs.bodyOf, DSt.add, or_assoc]
  | reg x =>
    cases x with
    | frame f =>
      cases f with
      | body b =>
        simp only [drawEv, drawReg] at h
        split at h
        · simp only [bind, Except.bind] at h
          split at h
          · cases h
          · simp only [pure, Except.pure] at h
            obtain rfl := Except.ok.inj h
            simp [dgive]
        · obtain rfl := Except.ok.inj h
          simp [dgive]
      | sub x =>
        simp only [drawEv, drawReg] at h
        split at h
        · rename_i hx
          obtain rfl := Except.ok.inj h
          simp only [dgive, List.mem_singleton]
          exact ⟨.inr, fun h => h.elim (fun e => e ▸ hx) id⟩
        · split at h
          · split at h
            · obtain rfl := Except.ok.inj h
              simp only [bind_keys]
              simp [dgive, DSt.add]
            · simp only [bind, Except.bind] at h
              split at h
              · cases h
              simp only [pure, Except.pure] at h
              obtain rfl := Except.ok.inj h
              simp only [bind_keys]
              simp [dgive, DSt.add]
          · simp only [bind, Except.bind] at h
            split at h
            · cases h
            simp only [pure, Except.pure] at h
            obtain rfl := Except.ok.inj h
            simp only [bind_keys]
            simp [dgive, DSt.add]
    | shape s =>
      simp only [drawEv, drawReg, bind, Except.bind] at h
      split at h
      · cases h
      · simp only [pure, Except.pure] at h
        obtain rfl := Except.ok.inj h
        simp [dgive]
    | _ =>
      simp only [drawEv, drawReg] at h
      obtain rfl := Except.ok.inj h
      simp [dgive]

/-- a call that may come now: it leads to a body that has no frame drawn, draws a shape that is not drawn, of the world -/
structure MayCome (o : Objs) (W : Item → Prop) (A : List FrameRef) (S : List ℕ) (e : Graph.Ev) : Prop where
  noInit : ∀ b, e ≠ .initParse b
  link : ∀ f0 j f1, e = .link f0 j f1 → (∀ r ∈ A, o.bodyOf r ≠ o.bodyOf f1)
  frames : ∀ f ∈ dgive o e, f ∉ A → W (.inl f)
  shape : ∀ s, e = .reg (.shape s) → s ∉ S ∧ W (.inr s)

lemma labelOf_shape (lab : Labels) (s : ℕ) : labelOf lab (.inr s) = if keepsName (lab.geo s) then lab.shape s else none := by
  cases h : lab.geo s <;> simp [labelOf, keepsName, h]

lemma asks_new {A : List FrameRef} {S : List ℕ} {W : Item → Prop} {d : DSt} (hk : ∀ f, (PDict.get? d.frameNodes f).isSome ↔ f ∈ A) {e : Graph.Ev} (he : MayCome o W A S e) :
    (asks o flat d e).Nodup ∧ (∀ f ∈ asks o flat d e, f ∉ A ∧ f ∈ dgive o e) ∧ ∀ f ∈ dgive o e, f ∈ asks o flat d e ∨ f ∈ A := by
  cases e with
  | initParse b => exact absurd rfl (he.noInit b)
  | link f0 j f1 =>
    have hl := he.link f0 j f1 rfl
    have hb : .body (o.bodyOf f1) ∉ A := fun h => hl _ h rfl
    have h1 : f1 ∉ A := fun h => hl _ h rfl
    cases f1 with
    | body b => exact ⟨by simp [asks], by simp only [asks, List.mem_singleton, dgive]; rintro f rfl; exact ⟨h1, by simp⟩, by simp [dgive, asks, Objs.bodyOf]⟩
    | sub x =>
      cases flat
      · refine ⟨by simp [asks], ?_, by simp [dgive, asks, Objs.bodyOf]⟩
        simp only [asks, dgive, Bool.false_eq_true, if_false, List.mem_cons, List.not_mem_nil, or_false]
        rintro f (rfl | rfl)
        · exact ⟨h1, .inl rfl⟩
        · exact ⟨hb, .inr rfl⟩
      · refine ⟨by simp [asks], ?_, by simp [dgive, asks, Objs.bodyOf]⟩
        simp only [asks, dgive, if_true, List.mem_cons, List.not_mem_nil, or_false]
        rintro f (rfl | rfl)
        · exact ⟨hb, .inr rfl⟩
        · exact ⟨h1, .inl rfl⟩
  | reg x =>
    cases x with
    | frame f =>
      cases f with
      | body b => simp [asks, dgive]
      | sub f =>
        simp only [asks]
        split
        · rename_i h
          rw [hk] at h
          simp [dgive, h]
        · rename_i h
          rw [hk] at h
          simp [dgive, h]
    | _ => simp [asks, dgive]

lemma sceneEv_ids {W : Item → Prop} {gr : ℕ} {A : List FrameRef} {S : List ℕ} {c c' : CSt} (h : IdInv lab W gr A S c) {e : Graph.Ev}
    (he : MayCome o W A S e) (hs : sceneEv o g flat lab op argsort c e = .ok c') : IdInv lab W gr (dgive o e ++ A) (dshape e ++ S) c' := by
  obtain ⟨rest, hroot⟩ := h.root
  obtain ⟨I, hI, hIA, hAI, hSI⟩ := h.given
  have hperm := h.perm
  simp only [givenIds, hroot, List.tail_cons] at hperm
  have hkeys : ∀ d, drawEv o g flat c.d e = .ok d → ∀ f, (PDict.get? d.frameNodes f).isSome ↔ f ∈ dgive o e ++ A := by
    intro d hd f
    rw [drawEv_keys he.noInit hd, h.keys, List.mem_append]
  -- the nodes of frames
  have hframes : ∀ d, drawEv o g flat c.d e = .ok d → dshape e = [] →
      IdInv lab W gr (dgive o e ++ A) (dshape e ++ S) { c with d := d, ids := c.ids ++ (nodeIds c.taken (newLabels o lab flat c.d e)).1, taken := (nodeIds c.taken (newLabels o lab flat c.d e)).2 } := by
    intro d hd hS
    obtain ⟨n1, n2, n3⟩ := asks_new (flat := flat) h.keys he
    obtain ⟨I', h1, h2, h4, h3⟩ := hI.nodeIds ((asks o flat c.d e).map Sum.inl) (n1.map Sum.inl_injective) (by
      intro i hi
      obtain ⟨f, hf, rfl⟩ := List.mem_map.mp hi
      refine ⟨fun hm => ?_, he.frames f (n2 f hf).2 (n2 f hf).1⟩
      rcases hIA _ hm with ⟨f', hf', e⟩ | ⟨s, -, e⟩
      · cases e; exact (n2 f hf).1 hf'
      · cases e)
    rw [← newLabels_asks] at h1 h3
    refine ⟨⟨rest ++ (nodeIds c.taken (newLabels o lab flat c.d e)).1, by simp [hroot]⟩, ?_, hkeys d hd, List.mem_append_right _ h.ground, I', h1, ?_, ?_, ?_⟩
    · simp only [givenIds, hroot, List.cons_append, List.tail_cons, List.filterMap_append] at hperm ⊢
      rw [h3]
      refine List.Perm.trans ?_ ((List.perm_append_right_iff _).mpr hperm)
      simp only [List.append_assoc]
      exact (List.perm_append_left_iff _).mpr List.perm_append_comm
    · intro i hi
      rcases h2 i hi with hi | hi
      · rcases hIA i hi with ⟨f, hf, e⟩ | ⟨s, hs, e⟩
        · exact .inl ⟨f, List.mem_append_right _ hf, e⟩
        · exact .inr ⟨s, List.mem_append_right _ hs, e⟩
      · obtain ⟨f, hf, rfl⟩ := List.mem_map.mp hi
        exact .inl ⟨f, List.mem_append_left _ (n2 f hf).2, rfl⟩
    · intro f hf hne hlab
      have old : f ∈ A → .inl f ∈ I' := fun h => h4.1 _ (hAI f h hne hlab)
      rcases List.mem_append.mp hf with hf | hf
      · rcases n3 f hf with hf | hf
        · exact h4.2 _ (List.mem_map_of_mem hf) hlab
        · exact old hf
      · exact old hf
    · intro s hs hlab
      rw [hS, List.nil_append] at hs
      exact h4.1 _ (hSI s hs hlab)
  unfold sceneEv at hs
  simp only [bind, Except.bind] at hs
  split at hs
  · cases hs
  rename_i d hd
  cases e with
  | initParse b => exact absurd rfl (he.noInit b)
  | link f0 j f1 =>
    simp only [pure, Except.pure] at hs
    obtain rfl := Except.ok.inj hs
    exact hframes d hd rfl
  | reg x =>
    cases x with
    | shape s =>
      simp only at hs
      split at hs
      · cases hs
      rename_i y hy
      obtain ⟨mesh, X⟩ := y
      simp only at hs
      split at hs
      · cases hs
      rename_i p hp
      simp only [pure, Except.pure] at hs
      obtain rfl := Except.ok.inj hs
      obtain ⟨hsS, hsW⟩ := he.shape s rfl
      obtain ⟨I', h1, h2, h4, h3⟩ := hI.nodeIds [.inr s] (by simp) (by
        intro i hi
        rw [List.mem_singleton.mp hi]
        refine ⟨fun hm => ?_, hsW⟩
        rcases hIA _ hm with ⟨f, -, e⟩ | ⟨s', hs', e⟩
        · cases e
        · cases e; exact hsS hs')
      have e1 : (nodeIds c.taken [labelOf lab (.inr s)]).2 = (nodeId c.taken (if keepsName (lab.geo s) then lab.shape s else none)).2 := by
        rw [← labelOf_shape]; simp [nodeIds]
      have e2 : (nodeIds c.taken [labelOf lab (.inr s)]).1 = [(nodeId c.taken (if keepsName (lab.geo s) then lab.shape s else none)).1] := by
        rw [← labelOf_shape]; simp [nodeIds]
      simp only [List.map_cons, List.map_nil] at h1 h3
      rw [e1] at h1 h3
      rw [e2] at h3
      refine ⟨⟨rest, hroot⟩, ?_, ?_, List.mem_append_right _ h.ground, I', h1, ?_, ?_, ?_⟩
      · simp only [givenIds, hroot, List.tail_cons, List.map_append, List.map_cons, List.map_nil, List.filterMap_append] at hperm ⊢
        rw [h3, ← List.append_assoc]
        exact (List.perm_append_right_iff _).mpr hperm
      · intro f
        simpa [dgive] using h.keys f
      · intro i hi
        rcases h2 i hi with hi | hi
        · rcases hIA i hi with ⟨f, hf, e⟩ | ⟨s, hs, e⟩
          · exact .inl ⟨f, List.mem_append_right _ hf, e⟩
          · exact .inr ⟨s, List.mem_append_right _ hs, e⟩
        · exact .inr ⟨s, List.mem_append_left _ (by simp [dshape]), List.mem_singleton.mp hi⟩
      · intro f hf hne hlab
        exact h4.1 _ (hAI f (by simpa [dgive] using hf) hne hlab)
      · intro s' hs' hlab
        rcases List.mem_append.mp hs' with hs' | hs'
        · rw [List.mem_singleton.mp hs'] at hlab ⊢
          exact h4.2 _ (by simp) hlab
        · exact h4.1 _ (hSI s' hs' hlab)
    | _ =>
      simp only [pure, Except.pure] at hs
      obtain rfl := Except.ok.inj hs
      exact hframes d hd rfl

lemma forall₂_right {A B : Type} {R : A → B → Prop} {I : List A} {T : List B} (h : List.Forall₂ R I T) {t : B} (ht : t ∈ T) : ∃ i ∈ I, R i t := by
  induction h with
  | nil => cases ht
  | cons h1 _ ih =>
    rcases List.mem_cons.mp ht with rfl | ht
    · exact ⟨_, List.mem_cons_self, h1⟩
    · obtain ⟨i, hi, h⟩ := ih ht
      exact ⟨i, List.mem_cons_of_mem _ hi, h⟩

lemma scene_ids {W : Item → Prop} {gr : ℕ} : ∀ (l : List Graph.Ev) {A : List FrameRef} {S : List ℕ} {c c' : CSt}, IdInv lab W gr A S c → DNew o A l → l.Nodup →
    (∀ s ∈ S, .reg (.shape s) ∉ l) → (∀ e ∈ l, (∀ b, e ≠ .initParse b) ∧ (∀ f ∈ dgive o e, W (.inl f)) ∧ ∀ s, e = .reg (.shape s) → W (.inr s)) →
    l.foldlM (sceneEv o g flat lab op argsort) c = .ok c' →
    IdInv lab W gr (dafter o A l) (dshapes l S) c'
  | [], A, S, c, c', h, _, _, _, _, hf => by cases hf; exact h
  | e :: l, A, S, c, c', h, hn, hnd, hS, hW, hf => by
    rw [List.foldlM_cons] at hf
    obtain ⟨he, hnd⟩ := List.nodup_cons.mp hnd
    cases h1 : sceneEv o g flat lab op argsort c e with
    | error x => rw [h1] at hf; cases hf
    | ok c1 =>
      rw [h1] at hf
      obtain ⟨w1, w2, w3⟩ := hW e List.mem_cons_self
      have hcome : MayCome o W A S e := ⟨w1, hn.1, fun f hf _ => w2 f hf, fun s hs => ⟨fun hm => hS s hm (hs ▸ List.mem_cons_self), w3 s hs⟩⟩
      refine scene_ids l (sceneEv_ids h hcome h1) hn.2 hnd ?_ (fun e h => hW e (List.mem_cons_of_mem _ h)) hf
      intro s hs hm
      rcases List.mem_append.mp hs with hs | hs
      · have : e = .reg (.shape s) := by
          cases e with
          | reg x =>
            cases x with
            | shape t => rw [List.mem_singleton.mp hs]
            | _ => cases hs
          | _ => cases hs
        exact he (this ▸ hm)
      · exact hS s hs (List.mem_cons_of_mem _ hm)

lemma ground_not_numbered {s : String} (h : s ≠ "ground") : ¬ Suffixed s "ground" := by
  rintro (h' | ⟨i, h'⟩)
  · exact h h'.symm
  · have h1 := congrArg String.toList h'
    have : '_' ∈ ("ground" : String).toList := by rw [h1]; simp [String.toList_append]
    exact absurd this (by decide)

/-- the ids given in the scene of a world -/
lemma scene_world {lim gr : ℕ} {ops : List Op} (hh : AllowedHistory o lim (World.new gr) ops) {w : World}
    (hw : w = runAll o lim (World.new gr) ops) {F : Forest (FrameRef × ℕ × FrameRef) ℕ} (hF : IsTree o w F) {lim' : ℕ} (hl : depth F ≤ lim')
    {calls : List Graph.Ev} (hc : parse o w lim' = .ok calls) {c : CSt} (hs : scene o g flat lab op argsort calls = .ok c) :
    ∃ A S, IdInv lab (Drawn o w F) w.ground A S c ∧ (∀ f, InWorld o w F f → f ∈ A) ∧
      ∀ s ∈ w.shapes, o.bodyOf (o.shapeFrame s) ∈ w.ground :: F.bodies → s ∈ S := by
  have hcomp := C59_complete hw hF hl hc
  have hR : RInv o w := hw ▸ RInv.runAll (RInv.new o gr) ops
  have hI : GInv o w := hw ▸ GInv.runAll (GInv.new o gr) hh
  have hk := hR.shape_known
  have honce := C59_once hw hF hl hc
  have hcalls := C59_calls hw hF hl
  rw [hc] at hcalls
  obtain rfl := Except.ok.inj hcalls
  obtain ⟨nG, nB⟩ := List.nodup_cons.mp hF.bodies_nodup
  simp only [List.cons_append] at hs honce
  rw [scene, List.foldlM_cons] at hs
  set rest := bodyCalls o w w.ground ++ treeCalls o w F ++ List.map (fun c => Graph.Ev.reg (Obj.con c)) w.constraints ++
    List.map (fun c => Graph.Ev.reg (Obj.ctrl c)) w.controllers with hrest
  have hnew : DNew o [.body w.ground] rest := by
    rw [hrest]
    refine DNew.append (DNew.append (DNew.append (DNew.noLink (bodyCalls_noLink hk)) (treeCalls_dnew hk hF.unfolds nB ?_)) (DNew.noLink ?_)) (DNew.noLink ?_)
    · intro r hr
      rcases mem_dafter.mp hr with hr | ⟨e, he, hr⟩
      · rw [List.mem_singleton] at hr
        rw [hr]; exact nG
      · rw [bodyCalls_give hk he hr]; exact nG
    · intro e he f0 j f1 h
      obtain ⟨c, _, rfl⟩ := List.mem_map.mp he
      cases h
    · intro e he f0 j f1 h
      obtain ⟨c, _, rfl⟩ := List.mem_map.mp he
      cases h
  let Ok : Graph.Ev → Prop := fun e => (∀ b, e ≠ .initParse b) ∧ (∀ f ∈ dgive o e, Drawn o w F (.inl f)) ∧ ∀ s, e = .reg (.shape s) → Drawn o w F (.inr s)
  have bodyOk : ∀ b ∈ w.ground :: F.bodies, ∀ e ∈ bodyCalls o w b, Ok e := by
    intro b hb e he
    rcases (mem_bodyCalls hk).mp he with rfl | ⟨f, hf, hfb, rfl⟩ | ⟨s, hs', _, rfl⟩
    · exact ⟨by simp, by simp [dgive], by simp⟩
    · refine ⟨by simp, ?_, by simp⟩
      simp only [dgive, List.mem_singleton]
      rintro _ rfl
      exact ⟨⟨by rw [show o.bodyOf (.sub f) = o.subBody f from rfl, hfb]; exact hb, fun x hx => by cases hx; exact hf⟩, by simp⟩
    · refine ⟨by simp, by simp [dgive], ?_⟩
      intro s' hs
      cases hs
      exact hs'
  have hok : ∀ e ∈ rest, Ok e := by
    intro e he
    simp only [hrest, List.mem_append] at he
    rcases he with ((he | he) | he) | he
    · exact bodyOk _ List.mem_cons_self e he
    · rcases mem_treeCalls.mp he with ⟨l, hl, rfl⟩ | ⟨b, hb, he⟩
      · have hb := (unfolds_ends hF.unfolds hl).2.2.2
        have hne : o.bodyOf l.2.2 ≠ w.ground := fun h => nG (h ▸ hb)
        refine ⟨by simp, ?_, by simp⟩
        simp only [dgive, List.mem_cons, List.not_mem_nil, or_false]
        rintro f (rfl | rfl)
        · refine ⟨⟨List.mem_cons_of_mem _ hb, ?_⟩, fun h => hne (by rw [h]; rfl)⟩
          intro x hx
          have := tree_known hI hF.unfolds (fun _ h => h) l hl
          rw [hx] at this
          exact this
        · exact ⟨⟨List.mem_cons_of_mem _ hb, fun x hx => by cases hx⟩, fun h => hne (by simpa using h)⟩
      · exact bodyOk b (List.mem_cons_of_mem _ hb) e he
    · obtain ⟨c, _, rfl⟩ := List.mem_map.mp he; exact ⟨by simp, by simp [dgive], by simp⟩
    · obtain ⟨c, _, rfl⟩ := List.mem_map.mp he; exact ⟨by simp, by simp [dgive], by simp⟩
  have h0 : IdInv lab (Drawn o w F) w.ground [.body w.ground] [] ⟨initParse w.ground, [some "ground"], [], []⟩ := by
    refine ⟨⟨[], rfl⟩, by simp [givenIds], ?_, List.mem_cons_self, [], ⟨.nil, by simp, by simp, fun _ => by simp, by simp⟩, by simp⟩
    intro f
    simp only [initParse, pget_cons, pget_nil, List.mem_singleton]
    split
    · rename_i h; simp [← h]
    · rename_i h; simp [Ne.symm h]
  refine ⟨_, _, scene_ids rest h0 hnew (List.nodup_cons.mp honce).2 (by simp) hok hs, ?_, ?_⟩
  · intro f hf
    rw [mem_dafter]
    cases f with
    | body b =>
      rcases List.mem_cons.mp hf.1 with hb | hb
      · exact .inl (by simpa [Objs.bodyOf] using hb)
      · rw [show o.bodyOf (.body b) = b from rfl, unfolds_bodies hF.unfolds, List.mem_map] at hb
        obtain ⟨l, hl, hb⟩ := hb
        refine .inr ⟨.link l.1 l.2.1 l.2.2, ?_, by simp [dgive, hb]⟩
        rw [hrest]
        simp only [List.mem_append]
        exact .inl (.inl (.inr (mem_treeCalls.mpr (.inl ⟨l, hl, rfl⟩))))
    | sub x =>
      have hx := hf.2 x rfl
      refine .inr ⟨.reg (.frame (.sub x)), ?_, by simp [dgive]⟩
      rw [hrest]
      simp only [List.mem_append]
      rcases List.mem_cons.mp hf.1 with hb | hb
      · exact .inl (.inl (.inl ((mem_bodyCalls hk).mpr (.inr (.inl ⟨x, hx, hb, rfl⟩)))))
      · exact .inl (.inl (.inr (mem_treeCalls.mpr (.inr ⟨_, hb, (mem_bodyCalls hk).mpr (.inr (.inl ⟨x, hx, rfl, rfl⟩))⟩))))
  · intro s hs hb
    rw [dshapes_eq, List.append_nil, List.mem_reverse, mem_evShape]
    have := (hcomp.2.2.1 s).mpr ⟨hs, hb⟩
    simp only [List.cons_append, List.mem_cons, reduceCtorEq, false_or] at this
    exact this

/-- **C101.** In the scene of a world built by API calls, all ids are different, as long as no frame (but the ground) and no
shape is called "ground", and at most 101 frames and shapes have names close to any given one (equal, or one of them the
other followed by `_i`). -/
theorem C101_unique {lim gr : ℕ} {ops : List Op} (hh : AllowedHistory o lim (World.new gr) ops) {w : World}
    (hw : w = runAll o lim (World.new gr) ops) {F : Forest (FrameRef × ℕ × FrameRef) ℕ} (hF : IsTree o w F) {lim' : ℕ} (hl : depth F ≤ lim')
    (hname : ∀ i, Drawn o w F i → labelOf lab i ≠ some "ground") (hcap : Capacity lab (Drawn o w F))
    {calls : List Graph.Ev} (hc : parse o w lim' = .ok calls) {c : CSt} (hs : scene o g flat lab op argsort calls = .ok c) : (allIds c).Nodup := by
  obtain ⟨A, S, hinv, -, -⟩ := scene_world hh hw hF hl hc hs
  obtain ⟨l, hroot⟩ := hinv.root
  obtain ⟨I, hG, -⟩ := hinv.given
  have hperm := hinv.perm
  simp only [givenIds, hroot, List.tail_cons] at hperm
  simp only [allIds, hroot, List.cons_append, List.filterMap_cons, id]
  rw [List.nodup_cons]
  constructor
  · intro hm
    have hm' := hperm.mem_iff.mp hm
    obtain ⟨i, hi, s, hs, -, hcand⟩ := forall₂_right hG.named hm'
    exact ground_not_numbered (fun h => hname i (hG.inW i hi) (h ▸ hs)) (candidates_numbered hcand)
  · exact hperm.nodup_iff.mpr (hG.nodup hcap)

/-- a frame of the world other than the ground, or a shape attached to the world -/
def Attached (o : Objs) (w : World) (F : Forest (FrameRef × ℕ × FrameRef) ℕ) : Item → Prop
  | .inl f => InWorld o w F f ∧ f ≠ .body w.ground
  | .inr s => s ∈ w.shapes ∧ o.bodyOf (o.shapeFrame s) ∈ w.ground :: F.bodies

lemma attached_given {lim gr : ℕ} {ops : List Op} (hh : AllowedHistory o lim (World.new gr) ops) {w : World}
    (hw : w = runAll o lim (World.new gr) ops) {F : Forest (FrameRef × ℕ × FrameRef) ℕ} (hF : IsTree o w F) {lim' : ℕ} (hl : depth F ≤ lim')
    {calls : List Graph.Ev} (hc : parse o w lim' = .ok calls) {c : CSt} (hs : scene o g flat lab op argsort calls = .ok c) :
    ∃ I, List.Forall₂ (Named lab) I c.taken ∧ I.Nodup ∧ (∀ i, Attached o w F i → (∃ s, labelOf lab i = some s ∧ s ≠ "") → i ∈ I) ∧
      (∀ i ∈ I, ∀ s, labelOf lab i = some s → s ∈ c.taken) ∧ (allIds c).Perm ("ground" :: c.taken) := by
  obtain ⟨A, S, hinv, hA, hS⟩ := scene_world hh hw hF hl hc hs
  obtain ⟨l, hroot⟩ := hinv.root
  obtain ⟨I, hG, -, h1, h2⟩ := hinv.given
  have hperm := hinv.perm
  simp only [givenIds, hroot, List.tail_cons] at hperm
  refine ⟨I, hG.named, hG.once, ?_, hG.first, ?_⟩
  · intro i hi hlab
    cases i with
    | inl f => exact h1 f (hA f hi.1) hi.2 hlab
    | inr s => exact h2 s (hS s hi.1 hi.2) hlab
  · simp only [allIds, hroot, List.cons_append, List.filterMap_cons, id]
    exact hperm.cons _

/-- **C101, false part.** As soon as 102 frames and shapes of the world have the same name, two nodes have the same id
("name_99"): the driver gives up after 100 tries. -/
theorem C101_many_false {lim gr : ℕ} {ops : List Op} (hh : AllowedHistory o lim (World.new gr) ops) {w : World}
    (hw : w = runAll o lim (World.new gr) ops) {F : Forest (FrameRef × ℕ × FrameRef) ℕ} (hF : IsTree o w F) {lim' : ℕ} (hl : depth F ≤ lim')
    {s : String} (hne : s ≠ "") {J : List Item} (hJ : J.Nodup) (hlen : 102 ≤ J.length) (hatt : ∀ i ∈ J, Attached o w F i ∧ labelOf lab i = some s)
    {calls : List Graph.Ev} (hc : parse o w lim' = .ok calls) {c : CSt} (hs : scene o g flat lab op argsort calls = .ok c) : ¬ (allIds c).Nodup := by
  obtain ⟨I, hN, hI, hall, -, hperm⟩ := attached_given hh hw hF hl hc hs
  intro hnd
  have ht := (List.nodup_cons.mp (hperm.nodup_iff.mp hnd)).2
  -- the ids of the items of `J` are among the 101 candidates
  obtain ⟨T, hT, hTsub⟩ := forall₂_select (fun i => decide (labelOf lab i = some s)) hN.flip
  have hTc : T ⊆ candidates s := by
    intro t ht
    obtain ⟨i, hi, u, hu, -, h⟩ := hTsub.2 t ht
    have hi : labelOf lab i = some s := by simpa using hi
    rw [hi] at hu
    cases hu
    exact h
  have h1 := (List.subperm_of_subset (hT.nodup ht) hTc).length_le
  have h2 := (List.subperm_of_subset hJ (l₂ := I.filter fun i => decide (labelOf lab i = some s)) (by
    intro i hi
    rw [List.mem_filter]
    exact ⟨hall i (hatt i hi).1 ⟨s, (hatt i hi).2, hne⟩, by simpa using (hatt i hi).2⟩)).length_le
  rw [hTsub.1] at h1
  have hc : (candidates s).length = 101 := by simp [candidates]
  omega

/-- **C101, false part.** A frame or a shape called "ground" makes two nodes with the id of the root. -/
theorem C101_ground_false {lim gr : ℕ} {ops : List Op} (hh : AllowedHistory o lim (World.new gr) ops) {w : World}
    (hw : w = runAll o lim (World.new gr) ops) {F : Forest (FrameRef × ℕ × FrameRef) ℕ} (hF : IsTree o w F) {lim' : ℕ} (hl : depth F ≤ lim')
    {i : Item} (hi : Attached o w F i) (hlab : labelOf lab i = some "ground")
    {calls : List Graph.Ev} (hc : parse o w lim' = .ok calls) {c : CSt} (hs : scene o g flat lab op argsort calls = .ok c) : ¬ (allIds c).Nodup := by
  obtain ⟨I, hN, hI, hall, hfirst, hperm⟩ := attached_given hh hw hF hl hc hs
  intro hnd
  exact (List.nodup_cons.mp (hperm.nodup_iff.mp hnd)).1 (hfirst i (hall i hi ⟨_, hlab, by simp⟩) _ hlab)

/-- the hypotheses are met by the world of C99_shape_false, where a box and a body are both called "arm": the ids are
"ground", "arm", "arm_0" and that of the subframe -/
example : ∃ calls c, parse exCO2 (runAll exCO2 9 (World.new 0) exDOps) 9 = .ok calls ∧
    scene exCO2 (exCG 5) true exCLab2 (defaultOpts 1) (fun _ => 1) calls = .ok c ∧ "arm" ∈ allIds c ∧ "arm_0" ∈ allIds c ∧ (allIds c).Nodup := by
  have hcalls := C59_calls (o := exCO2) (lim := 9) (g := 0) (ops := exDOps) rfl exD2_tree (lim' := 9) (by decide)
  have hD : ∀ i, Drawn exCO2 (runAll exCO2 9 (World.new 0) exDOps) exDF i → i ∈ ([.inl (.body 1), .inl (.sub 0), .inr 0] : List Item) := by
    intro i hi
    cases i with
    | inl f => rcases exD2_inWorld.mp hi.1 with rfl | rfl | rfl <;> simp; exact hi.2 rfl
    | inr s =>
      have : s ∈ ([0] : List ℕ) := hi
      simp_all
  obtain ⟨c, hc, h1, h2⟩ : ∃ c, scene exCO2 (exCG 5) true exCLab2 (defaultOpts 1) (fun _ => 1) (.initParse 0 :: bodyCalls exCO2 (runAll exCO2 9 (World.new 0) exDOps) 0 ++ treeCalls exCO2 (runAll exCO2 9 (World.new 0) exDOps) exDF ++ [] ++ []) = .ok c ∧ "arm" ∈ allIds c ∧ "arm_0" ∈ allIds c := by
    refine ⟨_, rfl, ?_, ?_⟩
    · change "arm" ∈ ["ground", "arm_0", "tip", "arm"]; decide
    · change "arm_0" ∈ ["ground", "arm_0", "tip", "arm"]; decide
  refine ⟨_, c, hcalls, hc, h1, h2, C101_unique exD2_allowed rfl exD2_tree (lim' := 9) (by decide) ?_ ?_ hcalls hc⟩
  · intro i hi
    have := hD i hi
    simp only [List.mem_cons, List.not_mem_nil, or_false] at this
    rcases this with rfl | rfl | rfl <;> simp [labelOf, exCLab2, exCnames, exCencF, keepsName]
  · intro s J hJ hJW
    have := (List.subperm_of_subset hJ fun i hi => hD i (hJW i hi).1).length_le
    simp at this
    omega

end Arboris
