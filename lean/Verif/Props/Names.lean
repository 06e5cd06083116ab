import Verif.Model.Names

/-! # C60–C62: names -/

namespace Arboris
open Names

/-- C60: `find(name)` is all the named elements with that name, in order. -/
theorem C60_find (l : List Item) (name : Option String) :
    find l name = l.filter fun o => match o with | .named _ n => decide (n = name) | .other _ => false := by
  have key : ∀ (l r : List Item), l.foldl (fun r o => if Item.hasName name o then r ++ [o] else r) r = r ++ l.filter (Item.hasName name) := by
    intro l
    induction l with
    | nil => simp
    | cons o l ih =>
      intro r
      rw [List.foldl_cons, ih, List.filter_cons]
      split_ifs <;> simp
  unfold find
  rw [key, List.nil_append]
  apply List.filter_congr
  intro o _
  cases o with
  | named id n => simp only [Item.hasName]; exact Bool.beq_eq_decide_eq n name
  | other => rfl

/-- C60: `list[name]` returns an element exactly when it is the first one with that name … -/
theorem C60_getitem_str (l : List Item) (s : String) (o : Item) :
    getItem l (.str s) = .ok o ↔
      ∃ pre post id, l = pre ++ o :: post ∧ o = .named id (some s) ∧ ∀ id', .named id' (some s) ∉ pre := by
  change getName l s = _ ↔ _
  induction l with
  | nil => simp [getName]
  | cons x l ih =>
    unfold getName
    cases hx : x.hasName (some s) with
    | true =>
      simp only [if_true, Except.ok.injEq]
      obtain ⟨id, rfl⟩ : ∃ id, x = .named id (some s) := by
        cases x with
        | named id n => simp only [Item.hasName, beq_iff_eq] at hx; exact ⟨id, by rw [hx]⟩
        | other => simp [Item.hasName] at hx
      constructor
      · rintro rfl
        exact ⟨[], l, id, rfl, rfl, by simp⟩
      · rintro ⟨pre, post, id', h, rfl, hpre⟩
        cases pre with
        | nil => exact (List.cons.inj h).1
        | cons y pre =>
          obtain ⟨rfl, _⟩ := List.cons.inj h
          exact absurd List.mem_cons_self (hpre id)
    | false =>
      simp only [Bool.false_eq_true, if_false]
      rw [ih]
      constructor
      · rintro ⟨pre, post, id, rfl, rfl, hpre⟩
        refine ⟨x :: pre, post, id, rfl, rfl, fun id' hm => ?_⟩
        rcases List.mem_cons.mp hm with rfl | hm
        · simp [Item.hasName] at hx
        · exact hpre id' hm
      · rintro ⟨pre, post, id, h, rfl, hpre⟩
        cases pre with
        | nil =>
          obtain ⟨rfl, _⟩ := List.cons.inj h
          simp [Item.hasName] at hx
        | cons y pre =>
          obtain ⟨rfl, rfl⟩ := List.cons.inj h
          exact ⟨pre, post, id, rfl, rfl, fun id' hm => hpre id' (List.mem_cons_of_mem _ hm)⟩

/-- … and raises `KeyError` exactly when no element has that name; it raises nothing else. -/
theorem C60_keyError (l : List Item) (s : String) :
    (getItem l (.str s) = .error .keyError ↔ ∀ id, .named id (some s) ∉ l) ∧
    ∀ e, getItem l (.str s) = .error e → e = .keyError := by
  change (getName l s = _ ↔ _) ∧ ∀ e, getName l s = _ → _
  induction l with
  | nil => simp [getName]
  | cons x l ih =>
    unfold getName
    cases hx : x.hasName (some s) with
    | true =>
      obtain ⟨id, rfl⟩ : ∃ id, x = .named id (some s) := by
        cases x with
        | named id n => simp only [Item.hasName, beq_iff_eq] at hx; exact ⟨id, by rw [hx]⟩
        | other => simp [Item.hasName] at hx
      simp only [if_true, reduceCtorEq, false_iff, not_forall, not_not, false_implies, implies_true, and_true]
      exact ⟨id, List.mem_cons_self⟩
    | false =>
      simp only [Bool.false_eq_true, if_false]
      refine ⟨ih.1.trans ⟨fun h id hm => ?_, fun h id hm => h id (List.mem_cons_of_mem _ hm)⟩, ih.2⟩
      rcases List.mem_cons.mp hm with rfl | hm
      · simp [Item.hasName] at hx
      · exact h id hm

/-- C60: an integer index is list indexing, from the end when negative. -/
theorem C60_getitem_int (l : List Item) (k : ℕ) :
    (getItem l (.int k) = match l[k]? with | some o => .ok o | none => .error .indexError) ∧
    (0 < k → getItem l (.int (-(k : ℤ))) = match l.reverse[k - 1]? with | some o => .ok o | none => .error .indexError) := by
  constructor
  · unfold getItem getInt
    dsimp only
    rw [if_neg (show ¬ (k : ℤ) < 0 by omega), if_neg (show ¬ (k : ℤ) < 0 by omega), Int.toNat_natCast]
    cases l[k]? <;> rfl
  · intro hk
    unfold getItem getInt
    dsimp only
    rw [if_pos (show -(k : ℤ) < 0 by omega)]
    by_cases h : k ≤ l.length
    · rw [if_neg (by omega), show (-(k:ℤ) + l.length).toNat = l.length - k by omega,
        List.getElem?_reverse (by omega), show l.length - 1 - (k - 1) = l.length - k by omega]
      cases l[l.length - k]? <;> rfl
    · rw [if_pos (by omega), List.getElem?_eq_none (by simp; omega)]

/-- the named objects of a list that have a name, with that name -/
def Spec.namedPairs : List Item → List (String × Item)
  | [] => []
  | .named id (some n) :: l => (n, .named id (some n)) :: namedPairs l
  | _ :: l => namedPairs l

lemma dict_get?_none {d : Dict} {s : String} : Dict.get? d s = none ↔ s ∉ d.map Prod.fst := by
  unfold Dict.get?
  simp only [Option.map_eq_none_iff, List.find?_eq_none, beq_iff_eq, List.mem_map, not_exists, not_and]

lemma dict_get?_some {d : Dict} (h : (d.map Prod.fst).Nodup) {s : String} {o : Item} :
    Dict.get? d s = some o ↔ (s, o) ∈ d := by
  induction d with
  | nil => simp [Dict.get?]
  | cons p d ih =>
    obtain ⟨a, b⟩ := p
    simp only [List.map_cons, List.nodup_cons] at h
    by_cases hs : a = s
    · subst hs
      simp only [Dict.get?, List.find?_cons, beq_self_eq_true, Option.map_some, Option.some.injEq, List.mem_cons,
        Prod.mk.injEq, true_and]
      constructor
      · rintro rfl; exact Or.inl rfl
      · rintro (rfl | hm)
        · rfl
        · exact absurd (List.mem_map.mpr ⟨_, hm, rfl⟩) h.1
    · have : Dict.get? ((a, b) :: d) s = Dict.get? d s := by
        simp [Dict.get?, List.find?_cons, hs]
      rw [this, ih h.2]
      simp [Ne.symm hs]

lemma asDict_fold (l : List Item) : ∀ (d : Dict), (d.map Prod.fst).Nodup →
    (((d ++ Spec.namedPairs l).map Prod.fst).Nodup → l.foldlM asDictStep d = .ok (d ++ Spec.namedPairs l)) ∧
    (¬ ((d ++ Spec.namedPairs l).map Prod.fst).Nodup → l.foldlM asDictStep d = .error .typeError) := by
  induction l with
  | nil => intro d hd; simp [Spec.namedPairs, hd]; rfl
  | cons x l ih =>
    intro d hd
    have other : ∀ y, (asDictStep d y = .ok d) → Spec.namedPairs (y :: l) = Spec.namedPairs l →
        (((d ++ Spec.namedPairs (y :: l)).map Prod.fst).Nodup → (y :: l).foldlM asDictStep d = .ok (d ++ Spec.namedPairs (y :: l))) ∧
        (¬ ((d ++ Spec.namedPairs (y :: l)).map Prod.fst).Nodup → (y :: l).foldlM asDictStep d = .error .typeError) := by
      intro y h1 h2
      rw [List.foldlM_cons, h1, h2]
      exact ih d hd
    rcases x with ⟨id, _ | n⟩ | id
    · exact other _ rfl rfl
    · rw [List.foldlM_cons]
      simp only [asDictStep, Spec.namedPairs]
      by_cases hn : n ∈ d.map Prod.fst
      · rw [if_neg (by
          intro h
          rw [Option.isNone_iff_eq_none, dict_get?_none] at h
          exact h hn)]
        refine ⟨fun h => ?_, fun _ => rfl⟩
        exfalso
        rw [List.map_append, List.map_cons, List.nodup_append] at h
        exact h.2.2 n hn n List.mem_cons_self rfl
      · rw [if_pos (by rw [Option.isNone_iff_eq_none, dict_get?_none]; exact hn)]
        have := ih (d ++ [(n, .named id (some n))]) (by
          rw [List.map_append, List.nodup_append]
          refine ⟨hd, by simp, ?_⟩
          intro a ha b hb
          simp only [List.map_cons, List.map_nil, List.mem_singleton] at hb
          rw [hb]; rintro rfl; exact hn ha)
        rw [List.append_assoc, List.singleton_append] at this
        exact this
    · exact other _ rfl rfl

/-- the place designated by an index of a slice in a list of `n` elements: from the end when negative, and inside the list -/
def Spec.slicePlace (n : ℕ) (i : ℤ) : ℕ := if i < 0 then (i + n).toNat else min i.toNat n

lemma getElem?_filterMap_some {α β : Type} (f : α → Option β) (L : List α) (h : ∀ x ∈ L, (f x).isSome) (p : ℕ) : (L.filterMap f)[p]? = L[p]?.bind f := by
  induction L generalizing p with
  | nil => simp
  | cons x L ih =>
    obtain ⟨y, hy⟩ := Option.isSome_iff_exists.mp (h x (by simp))
    rw [List.filterMap_cons_some hy]
    cases p with
    | zero => simp [hy]
    | succ p => simpa using ih (fun z hz => h z (by simp [hz])) p

/-- C60, slices: `l[i:j:k]` with a positive step, whatever `i` and `j` (absent, negative, too large): its element number `p` is that of the list at
`i + p k`, as long as this place is before `j`.  Nothing is raised. -/
theorem C60_slice (l : List Item) (start stop : Option ℤ) {k : ℕ} (hk : 0 < k) :
    ∃ r, getSlice l start stop (some k) = .ok r ∧ ∀ p : ℕ, r[p]? =
      if (start.map (Spec.slicePlace l.length)).getD 0 + p * k < (stop.map (Spec.slicePlace l.length)).getD l.length
      then l[(start.map (Spec.slicePlace l.length)).getD 0 + p * k]? else none := by
  obtain ⟨A, hA⟩ : ∃ A, A = (start.map (Spec.slicePlace l.length)).getD 0 := ⟨_, rfl⟩
  obtain ⟨B, hB⟩ : ∃ B, B = (stop.map (Spec.slicePlace l.length)).getD l.length := ⟨_, rfl⟩
  have hBn : B ≤ l.length := by
    subst hB
    cases stop with
    | none => simp
    | some j => simp only [Option.map_some, Option.getD_some, Spec.slicePlace]; split <;> omega
  have hi : sliceIndices l.length start stop (some k) = .ok ((A : ℤ), (B : ℤ), (k : ℤ)) := by
    have h1 : ¬ (k : ℤ) = 0 := by omega
    have h2 : ¬ (k : ℤ) < 0 := by omega
    simp only [sliceIndices, Option.getD_some, if_neg h1, if_neg h2]
    subst hA hB
    congr 2
    · cases start with
      | none => rfl
      | some i => simp only [Option.map_some, Option.getD_some, Spec.slicePlace]; split <;> omega
    · congr 1
      cases stop with
      | none => rfl
      | some i => simp only [Option.map_some, Option.getD_some, Spec.slicePlace]; split <;> omega
  rw [← hA, ← hB]
  have hlen : ∀ p : ℕ, p < sliceLength A B k ↔ A + p * k < B := by
    intro p
    have h2 : ¬ (k : ℤ) < 0 := by omega
    simp only [sliceLength, if_neg h2]
    split
    · rename_i h
      have hk' : (0 : ℤ) < k := by exact_mod_cast hk
      have hq : (0 : ℤ) ≤ ((B : ℤ) - A - 1) / k := Int.ediv_nonneg (by omega) hk'.le
      have h3 := Int.le_ediv_iff_mul_le (a := (p : ℤ)) (b := (B : ℤ) - A - 1) hk'
      have h4 : (p : ℤ) * k = ((p * k : ℕ) : ℤ) := by push_cast; ring
      rw [h4] at h3
      omega
    · have : 0 ≤ p * k := Nat.zero_le _
      omega
  refine ⟨(List.range (sliceLength A B k)).filterMap fun p : ℕ => l[((A : ℤ) + p * k).toNat]?, by simp only [getSlice, hi], fun p => ?_⟩
  have hidx : ∀ p : ℕ, ((A : ℤ) + p * k).toNat = A + p * k := by
    intro p
    have h4 : (p : ℤ) * k = ((p * k : ℕ) : ℤ) := by push_cast; ring
    rw [h4]; omega
  rw [getElem?_filterMap_some]
  · by_cases h : p < sliceLength A B k
    · rw [List.getElem?_range h, if_pos ((hlen p).mp h)]
      simp only [Option.bind_some, hidx]
    · rw [List.getElem?_eq_none (by simpa using h), if_neg fun h' => h ((hlen p).mpr h')]
      rfl
  · intro x hx
    have := (hlen x).mp (List.mem_range.mp hx)
    rw [hidx, List.getElem?_eq_getElem (by omega)]
    rfl

/-- the place where a backward slice starts, or which it does not reach, in a list of `n` elements: from the end when negative; -1 is before the first element -/
def Spec.backPlace (n : ℕ) (i : ℤ) : ℤ := if i < 0 then max (i + n) (-1) else min i (n - 1)

/-- C60, slices: `l[i:j:-k]`, whatever `i` and `j`: its element number `p` is that of the list at `i - p k`, as long as this place is after `j`. -/
theorem C60_slice_back (l : List Item) (start stop : Option ℤ) {k : ℕ} (hk : 0 < k) :
    ∃ r, getSlice l start stop (some (-k)) = .ok r ∧ ∀ p : ℕ, r[p]? =
      if (stop.map (Spec.backPlace l.length)).getD (-1) < (start.map (Spec.backPlace l.length)).getD (l.length - 1) - p * k
      then l[((start.map (Spec.backPlace l.length)).getD (l.length - 1) - p * k).toNat]? else none := by
  obtain ⟨A, hA⟩ : ∃ A, A = (start.map (Spec.backPlace l.length)).getD (l.length - 1) := ⟨_, rfl⟩
  obtain ⟨B, hB⟩ : ∃ B, B = (stop.map (Spec.backPlace l.length)).getD (-1) := ⟨_, rfl⟩
  have hAn : A ≤ l.length - 1 := by
    subst hA
    cases start with
    | none => simp
    | some j => simp only [Option.map_some, Option.getD_some, Spec.backPlace]; split <;> omega
  have hBn : -1 ≤ B := by
    subst hB
    cases stop with
    | none => simp
    | some j => simp only [Option.map_some, Option.getD_some, Spec.backPlace]; split <;> omega
  have hi : sliceIndices l.length start stop (some (-k)) = .ok (A, B, (-k : ℤ)) := by
    have h1 : ¬ (-k : ℤ) = 0 := by omega
    have h2 : (-k : ℤ) < 0 := by omega
    simp only [sliceIndices, Option.getD_some, if_neg h1, if_pos h2]
    subst hA hB
    rfl
  rw [← hA, ← hB]
  have hlen : ∀ p : ℕ, p < sliceLength A B (-k) ↔ B < A - p * k := by
    intro p
    have h2 : (-k : ℤ) < 0 := by omega
    simp only [sliceLength, if_pos h2, neg_neg]
    split
    · rename_i h
      have hk' : (0 : ℤ) < k := by exact_mod_cast hk
      have hq : (0 : ℤ) ≤ (A - B - 1) / k := Int.ediv_nonneg (by omega) hk'.le
      have h3 := Int.le_ediv_iff_mul_le (a := (p : ℤ)) (b := A - B - 1) hk'
      omega
    · have : (0 : ℤ) ≤ p * k := by positivity
      omega
  refine ⟨(List.range (sliceLength A B (-k))).filterMap fun p : ℕ => l[(A + p * (-k : ℤ)).toNat]?, by simp only [getSlice, hi], fun p => ?_⟩
  have hidx : ∀ p : ℕ, A + p * (-k : ℤ) = A - p * k := fun p => by ring
  rw [getElem?_filterMap_some]
  · by_cases h : p < sliceLength A B (-k)
    · rw [List.getElem?_range h, if_pos ((hlen p).mp h)]
      simp only [Option.bind_some, hidx]
    · rw [List.getElem?_eq_none (by simpa using h), if_neg fun h' => h ((hlen p).mpr h')]
      rfl
  · intro x hx
    have := (hlen x).mp (List.mem_range.mp hx)
    have h0 : (0 : ℤ) ≤ x * k := by positivity
    rw [hidx, List.getElem?_eq_getElem (by omega)]
    rfl

/-- C60, slices: `l[i:j]`, with natural numbers, is the elements from `i` to `j`. -/
theorem C60_slice_simple (l : List Item) (i j : ℕ) : getSlice l (some i) (some j) none = .ok ((l.take j).drop i) := by
  obtain ⟨r, h1, h2⟩ := C60_slice l (some i) (some j) one_pos
  have h0 : getSlice l (some (i : ℤ)) (some j) none = getSlice l (some i) (some j) (some ((1 : ℕ) : ℤ)) := rfl
  rw [h0, h1]
  congr 1
  apply List.ext_getElem?
  intro p
  have hi : ¬ (i : ℤ) < 0 := by omega
  have hj : ¬ (j : ℤ) < 0 := by omega
  rw [h2, List.getElem?_drop, List.getElem?_take]
  simp only [Option.map_some, Option.getD_some, Spec.slicePlace, if_neg hi, if_neg hj, Int.toNat_natCast, mul_one]
  split
  · rw [if_pos (by omega), min_eq_left (by omega)]
  · split
    · exact (List.getElem?_eq_none (by omega)).symm
    · rfl

/-- C60, slices: `l[::-1]` is the list in reverse order. -/
theorem C60_slice_reverse (l : List Item) : getSlice l none none (some (-1)) = .ok l.reverse := by
  have hl : sliceLength ((l.length : ℤ) - 1) (-1) (-1) = l.length := by
    simp only [sliceLength]
    split
    · split
      · rw [neg_neg, Int.ediv_one]; omega
      · omega
    · omega
  have hi : sliceIndices l.length none none (some (-1)) = .ok ((l.length : ℤ) - 1, -1, -1) := rfl
  simp only [getSlice, hi, hl]
  congr 1
  apply List.ext_getElem?
  intro p
  have hs : ∀ x ∈ List.range l.length, (l[((l.length : ℤ) - 1 + x * -1).toNat]?).isSome := by
    intro x hx
    have := List.mem_range.mp hx
    rw [List.getElem?_eq_getElem (by omega)]
    rfl
  rw [getElem?_filterMap_some _ _ hs]
  by_cases h : p < l.length
  · rw [List.getElem?_range h, List.getElem?_reverse h, Option.bind_some]
    congr 1
    omega
  · rw [List.getElem?_eq_none (by simpa using h), List.getElem?_eq_none (by simpa using h)]
    rfl

/-- C60, slices: a null step raises `ValueError`, and only it. -/
theorem C60_slice_error (l : List Item) (start stop step : Option ℤ) (e : PyErr) :
    getSlice l start stop step = .error e ↔ step = some 0 ∧ e = .valueError := by
  by_cases h : step = some 0
  · subst h
    have : getSlice l start stop (some 0) = .error .valueError := rfl
    rw [this, Except.error.injEq]
    exact ⟨fun h => ⟨rfl, h.symm⟩, fun h => h.2.symm⟩
  · have hk : step.getD 1 ≠ 0 := by
      cases step with
      | none => simp
      | some k => simpa using h
    simp [getSlice, sliceIndices, if_neg hk, h]

/-- C60, slices: a slice is a plain list: its elements cannot be found by name. -/
theorem C60_slice_plain (l : List Item) {start stop step : Option ℤ} {r : List Item} (_ : getSlice l start stop step = .ok r) (s : String) :
    rawGetItem r (.str s) = .error .typeError := rfl

/-- the first two elements, the last one, every second one backwards -/
example (a b c : Item) : getSlice [a, b, c] none (some 2) none = .ok [a, b] ∧ getSlice [a, b, c] (some (-1)) none none = .ok [c] ∧
    getSlice [a, b, c] none none (some (-2)) = .ok [c, a] := by
  refine ⟨?_, ?_, ?_⟩ <;> norm_num [getSlice, sliceIndices, sliceLength] <;> rfl

/-- C60: with distinct names, `as_dict` succeeds and maps exactly the names of the named elements to their objects;
elements without a name are left out. -/
theorem C60_as_dict {l : List Item} (h : ((Spec.namedPairs l).map Prod.fst).Nodup) :
    ∃ d, asDict l = .ok d ∧ ∀ s o, Dict.get? d s = some o ↔ o ∈ l ∧ ∃ id, o = .named id (some s) := by
  refine ⟨Spec.namedPairs l, ?_, fun s o => ?_⟩
  · have := (asDict_fold l [] (by simp)).1 (by simpa using h)
    simpa [asDict] using this
  · rw [dict_get?_some h]
    clear h
    induction l with
    | nil => simp [Spec.namedPairs]
    | cons x l ih =>
      rcases x with ⟨id, _ | n⟩ | id
      · simp only [Spec.namedPairs, ih, List.mem_cons]
        constructor
        · rintro ⟨h1, h2⟩; exact ⟨Or.inr h1, h2⟩
        · rintro ⟨rfl | h1, h2⟩
          · obtain ⟨_, h2⟩ := h2; simp at h2
          · exact ⟨h1, h2⟩
      · simp only [Spec.namedPairs, List.mem_cons, Prod.mk.injEq, ih]
        constructor
        · rintro (⟨rfl, rfl⟩ | ⟨h1, h2⟩)
          · exact ⟨Or.inl rfl, id, rfl⟩
          · exact ⟨Or.inr h1, h2⟩
        · rintro ⟨rfl | h1, id', h2⟩
          · simp only [Item.named.injEq, Option.some.injEq] at h2
            exact Or.inl ⟨h2.2.symm, rfl⟩
          · exact Or.inr ⟨h1, id', h2⟩
      · simp only [Spec.namedPairs, ih, List.mem_cons]
        constructor
        · rintro ⟨h1, h2⟩; exact ⟨Or.inr h1, h2⟩
        · rintro ⟨rfl | h1, h2⟩
          · obtain ⟨_, h2⟩ := h2; simp at h2
          · exact ⟨h1, h2⟩

/-- C61, the claim: duplicate names make `as_dict` raise `DuplicateNameError`. -/
def C61_Claim : Prop := ∀ l : List Item, ¬ ((Spec.namedPairs l).map Prod.fst).Nodup → asDict l = .error .duplicateName

/-- C61 is false of the code: the exception is a `TypeError`. -/
theorem C61_false : ¬ C61_Claim := by
  intro h
  have := h [.named 0 (some "a"), .named 1 (some "a")] (by simp [Spec.namedPairs])
  revert this
  decide

/-- C61, what holds: `as_dict` raises exactly when two named elements share a name, and then always `TypeError`.
Missing: the type of the exception. -/
theorem C61_partial (l : List Item) :
    (asDict l = .error .typeError ↔ ¬ ((Spec.namedPairs l).map Prod.fst).Nodup) ∧ ∀ e, asDict l = .error e → e = .typeError := by
  have h := asDict_fold l [] (by simp)
  simp only [List.nil_append] at h
  by_cases hn : ((Spec.namedPairs l).map Prod.fst).Nodup
  · have := h.1 hn
    unfold asDict
    rw [this]
    simp [hn]
  · have := h.2 hn
    unfold asDict
    rw [this]
    simp only [hn, not_false_eq_true, Except.error.injEq]
    exact ⟨by simp, fun e he => he.symm⟩

/-! ### C62 -/

lemma nameLoop_apply (idStr : ℕ → String) (l : List ℕ) : ∀ (names : ℕ → Option String) (e : ℕ),
    nameLoop idStr names l e = if e ∈ l ∧ names e = none then some (idStr e) else names e := by
  induction l with
  | nil => intro names e; simp [nameLoop]
  | cons x l ih =>
    intro names e
    change nameLoop idStr (if names x = none then Function.update names x (some (idStr x)) else names) l e = _
    rw [ih]
    by_cases hx : names x = none
    · rw [if_pos hx]
      by_cases hex : e = x
      · subst hex; simp [hx]
      · rw [Function.update_of_ne hex]; simp [hex]
    · rw [if_neg hx]
      by_cases hex : e = x
      · subst hex; simp [hx]
      · simp [hex]

/-- C62: after `name_all_elements` (list or generator, with or without the check, raising or not) every element has a
name; elements that had one keep it; nothing else is renamed. -/
theorem C62_named (idStr : ℕ → String) (names : ℕ → Option String) (s : Names.Seq) (check : Bool) :
    (∀ e ∈ s.first, (nameAll idStr names s check).1 e ≠ none) ∧
    (∀ e n, names e = some n → (nameAll idStr names s check).1 e = some n) ∧
    (∀ e, e ∉ s.first → (nameAll idStr names s check).1 e = names e) := by
  simp only [nameAll]
  refine ⟨fun e he => ?_, fun e n h => ?_, fun e he => ?_⟩
  · rw [nameLoop_apply]
    split_ifs with h
    · simp
    · intro hc; exact h ⟨he, hc⟩
  · rw [nameLoop_apply, h]; simp
  · rw [nameLoop_apply]; simp [he]

lemma foldl_erase_count (d : List String) : ∀ (l : List String) (x : String), d.Nodup →
    (d.foldl List.erase l).count x = l.count x - if x ∈ d then 1 else 0 := by
  induction d with
  | nil => simp
  | cons a d ih =>
    intro l x h
    obtain ⟨h1, h2⟩ := List.nodup_cons.mp h
    rw [List.foldl_cons, ih _ _ h2]
    by_cases hx : x = a
    · subst hx; simp [h1]
    · rw [List.count_erase_of_ne hx]
      simp [hx]

/-- C62: for a list, the check raises exactly when two elements have the same name after naming, and the reported list
contains each name once less than the number of elements that bear it. -/
theorem C62_check (idStr : ℕ → String) (names : ℕ → Option String) (l : List ℕ) :
    ((nameAll idStr names (.list l) true).2 = none ↔ (l.map (nameAll idStr names (.list l) true).1).Nodup) ∧
    ∀ msg, (nameAll idStr names (.list l) true).2 = some msg →
      ∀ x, msg.count x = (l.map (nameAll idStr names (.list l) true).1).count (some x) - 1 := by
  have hsome : l.map (nameAll idStr names (.list l) true).1 =
      (l.map fun e => ((nameAll idStr names (.list l) true).1 e).getD "").map some := by
    rw [List.map_map]
    apply List.map_congr_left
    intro e he
    have := (C62_named idStr names (.list l) true).1 e he
    rw [Function.comp_apply]
    cases h : (nameAll idStr names (.list l) true).1 e with
    | none => exact absurd h this
    | some n => rfl
  rw [hsome]
  change (dupCheck (l.map fun e => ((nameAll idStr names (.list l) true).1 e).getD "") = none ↔ _) ∧
    ∀ msg, dupCheck (l.map fun e => ((nameAll idStr names (.list l) true).1 e).getD "") = some msg → _
  generalize (l.map fun e => ((nameAll idStr names (.list l) true).1 e).getD "") = L
  unfold dupCheck
  constructor
  · rw [List.nodup_map_iff (Option.some_injective _), ← List.dedup_eq_self]
    constructor
    · intro h
      have hlen : L.length = L.dedup.length := by
        by_contra hc
        rw [if_pos hc] at h
        cases h
      exact (List.dedup_sublist L).eq_of_length hlen.symm
    · intro h; rw [h]; simp
  · intro msg h x
    split_ifs at h with hc
    cases h
    rw [foldl_erase_count _ _ _ (List.nodup_dedup L), List.count_map_of_injective _ _ (Option.some_injective _)]
    by_cases hx : x ∈ L
    · simp [hx]
    · rw [List.count_eq_zero_of_not_mem hx]; simp

/-- C62, the claim for every iterable: success of the check means that the names are pairwise distinct. -/
def C62_Claim : Prop := ∀ (idStr : ℕ → String) (names : ℕ → Option String) (s : Names.Seq), Function.Injective idStr →
  (nameAll idStr names s true).2 = none → (s.first.map (nameAll idStr names s true).1).Nodup

/-- C62 is false for a generator: the check sees nothing. -/
theorem C62_false : ¬ C62_Claim := by
  intro h
  have := h (fun n => "x".pushn 'y' n) (fun _ => some "same") (.oneShot [0, 1]) (by
    intro a b hab
    have := congrArg String.length hab
    simpa using this) (by simp [nameAll, Seq.second, dupCheck])
  revert this
  simp [Seq.first, nameAll, nameLoop_apply]

/-- C62: unnamed distinct objects in a list always pass the check when nobody else is in the list. -/
theorem C62_fresh {idStr : ℕ → String} (hid : Function.Injective idStr) {names : ℕ → Option String} {l : List ℕ}
    (hn : l.Nodup) (h : ∀ e ∈ l, names e = none) : (nameAll idStr names (.list l) true).2 = none := by
  rw [(C62_check idStr names l).1]
  have : l.map (nameAll idStr names (.list l) true).1 = l.map fun e => some (idStr e) := by
    apply List.map_congr_left
    intro e he
    change nameLoop idStr names l e = _
    rw [nameLoop_apply, if_pos ⟨he, h e he⟩]
  rw [this]
  exact (List.nodup_map_iff ((Option.some_injective _).comp hid)).mpr hn

/-- a list with an unnamed element, a foreign object and a duplicate -/
example : find [.named 0 (some "a"), .other 1, .named 2 none, .named 3 (some "a")] (some "a") =
    [.named 0 (some "a"), .named 3 (some "a")] ∧
    ((Spec.namedPairs [.named 0 (some "a"), .other 1, .named 2 none, .named 3 (some "b")]).map Prod.fst).Nodup := by
  decide

end Arboris
