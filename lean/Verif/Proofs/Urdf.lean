import Verif.Spec.Urdf

/-!
# Lemmas: dictionaries, chains
-/

namespace Arboris
open Graph Build Urdf Spec

variable {α β : Type}

lemma lookup_some_iff {l : List (String × α)} (h : (l.map Prod.fst).Nodup) (k : String) (v : α) : l.lookup k = some v ↔ (k, v) ∈ l := by
  induction l with
  | nil => simp
  | cons x l ih =>
    obtain ⟨k', v'⟩ := x
    simp only [List.map_cons, List.nodup_cons] at h
    simp only [List.lookup_cons]
    by_cases e : k = k'
    · subst e
      simp only [beq_self_eq_true, Option.some.injEq, List.mem_cons, Prod.mk.injEq, true_and]
      constructor
      · intro h; exact .inl h.symm
      · rintro (h' | h')
        · exact h'.symm
        · exact absurd (List.mem_map_of_mem (f := Prod.fst) h') h.1
    · have : (k == k') = false := by simpa using e
      simp only [this, List.mem_cons, Prod.mk.injEq, e, false_and, false_or]
      exact ih h.2

lemma lookup_none_iff {l : List (String × α)} (k : String) : l.lookup k = none ↔ k ∉ l.map Prod.fst := by
  induction l with
  | nil => simp
  | cons x l ih =>
    obtain ⟨k', v'⟩ := x
    simp only [List.lookup_cons, List.map_cons, List.mem_cons, not_or]
    by_cases e : k = k'
    · subst e; simp
    · have : (k == k') = false := by simpa using e
      simp [this, ih, e]

lemma dictSet_keys (d : List (String × α)) (k : String) (v : α) :
    (dictSet d k v).map Prod.fst = if k ∈ d.map Prod.fst then d.map Prod.fst else d.map Prod.fst ++ [k] := by
  unfold dictSet
  split
  · rw [List.map_map]
    apply List.map_congr_left
    intro x _
    simp only [Function.comp]
    split
    · rename_i h; exact h.symm
    · rfl
  · simp

lemma dictSet_nodup {d : List (String × α)} (h : (d.map Prod.fst).Nodup) (k : String) (v : α) : ((dictSet d k v).map Prod.fst).Nodup := by
  rw [dictSet_keys]
  split
  · exact h
  · rename_i hk
    rw [List.nodup_append]
    refine ⟨h, by simp, ?_⟩
    intro a ha b hb; simp only [List.mem_singleton] at hb; subst hb
    rintro rfl; exact hk ha

lemma lookup_dictSet (d : List (String × α)) (k k' : String) (v : α) :
    (dictSet d k v).lookup k' = if k' = k then some v else d.lookup k' := by
  unfold dictSet
  split
  · rename_i hk
    induction d with
    | nil => simp at hk
    | cons x d ih =>
      obtain ⟨k0, v0⟩ := x
      simp only [List.map_cons, List.lookup_cons]
      by_cases e : k0 = k
      · subst e
        simp only [if_true]
        by_cases e' : k' = k0
        · subst e'; simp
        · have : (k' == k0) = false := by simpa using e'
          simp only [List.lookup_cons, this, e', if_false]
          by_cases hm : k0 ∈ d.map Prod.fst
          · rw [ih hm, if_neg e']
          · congr 1
            rw [List.map_congr_left (g := id), List.map_id]
            intro y hy
            rw [if_neg]; rfl
            rintro rfl
            exact hm (List.mem_map_of_mem (f := Prod.fst) hy)
      · simp only [e, if_false]
        have hm : k ∈ d.map Prod.fst := by
          rcases List.mem_cons.mp hk with h | h
          · exact absurd h.symm e
          · exact h
        by_cases e' : k' = k0
        · subst e'; simp [e]
        · have : (k' == k0) = false := by simpa using e'
          simp only [List.lookup_cons, this, ih hm]
  · rename_i hk
    rw [List.lookup_append]
    by_cases e : k' = k
    · subst e
      simp [(lookup_none_iff (l := d) k').mpr hk]
    · have : (k' == k) = false := by simpa using e
      simp [List.lookup_cons, this, e]

end Arboris
