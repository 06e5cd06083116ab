import Verif.Proofs.Urdf
import Verif.Props.Urdf

/-!
# C70, C71, C85: the tree of a URDF model, decorated names, tables of limits
-/

namespace Arboris
open Matrix Graph Build Urdf Spec

/-! ### C71: the tables -/

lemma mem_dictSet_new {α : Type} {d : List (String × α)} {k : String} (h : k ∉ d.map Prod.fst) (v : α) : dictSet d k v = d ++ [(k, v)] := by
  rw [dictSet, if_neg h]

/-- C71: the elements of a URDF file, in any order, with distinct link names, distinct joint names, and no link that is
the child of two joints: the model holds exactly these links and joints, and its tables agree with them. -/
theorem C71_parse {es : List (ULink ⊕ UJoint)} (hl : ((es.filterMap Sum.getLeft?).map ULink.name).Nodup)
    (hj : ((es.filterMap Sum.getRight?).map UJoint.name).Nodup) (hc : ((es.filterMap Sum.getRight?).map UJoint.child).Nodup) :
    (∀ k l, (k, l) ∈ (Robot.parse es).links ↔ .inl l ∈ es ∧ k = l.name) ∧
    (∀ k u, (k, u) ∈ (Robot.parse es).joints ↔ .inr u ∈ es ∧ k = u.name) ∧ Robot.Consistent (Robot.parse es) := by
  suffices H : ((Robot.parse es).links.map Prod.fst).Nodup ∧ ((Robot.parse es).joints.map Prod.fst).Nodup ∧
      (∀ k l, (k, l) ∈ (Robot.parse es).links ↔ .inl l ∈ es ∧ k = l.name) ∧
      (∀ k u, (k, u) ∈ (Robot.parse es).joints ↔ .inr u ∈ es ∧ k = u.name) ∧
      (∀ c j p, (Robot.parse es).parent_map.lookup c = some (j, p) ↔ ∃ u, .inr u ∈ es ∧ u.name = j ∧ u.parent = p ∧ u.child = c) ∧
      (∀ p j c, (∃ l, (Robot.parse es).child_map.lookup p = some l ∧ (j, c) ∈ l) ↔ ∃ u, .inr u ∈ es ∧ u.name = j ∧ u.parent = p ∧ u.child = c) by
    obtain ⟨h1, h2, h3, h4, h5, h6⟩ := H
    have he : ∀ p j c, Robot.Edge (Robot.parse es) p j c ↔ ∃ u, .inr u ∈ es ∧ u.name = j ∧ u.parent = p ∧ u.child = c := by
      intro p j c
      constructor
      · rintro ⟨u, hu, rfl, rfl⟩
        obtain ⟨a, b⟩ := (h4 _ _).mp hu
        exact ⟨u, a, b.symm, rfl, rfl⟩
      · rintro ⟨u, hu, rfl, rfl, rfl⟩
        exact ⟨u, (h4 _ _).mpr ⟨hu, rfl⟩, rfl, rfl⟩
    exact ⟨h3, h4, h1, h2, fun p j c => (h5 c j p).trans (he p j c).symm, fun p j c => (h6 p j c).trans (he p j c).symm⟩
  induction es using List.reverseRecOn with
  | nil => simp [Robot.parse, Robot.empty]
  | append_singleton es x ih =>
    have ep : Robot.parse (es ++ [x]) = (Robot.parse es).add x := by simp [Robot.parse]
    rw [List.filterMap_append, List.map_append, List.nodup_append] at hl hj hc
    obtain ⟨h1, h2, h3, h4, h5, h6⟩ := ih hl.1 hj.1 hc.1
    rw [ep]
    cases x with
    | inl l =>
      have hn : l.name ∉ (Robot.parse es).links.map Prod.fst := by
        intro h
        obtain ⟨⟨k, l'⟩, hm, e⟩ := List.mem_map.mp h
        obtain ⟨a, b⟩ := (h3 _ _).mp hm
        refine hl.2.2 l'.name (List.mem_map.mpr ⟨l', List.mem_filterMap.mpr ⟨_, a, rfl⟩, rfl⟩) l.name (by simp) ?_
        rw [← b, ← e]
      refine ⟨dictSet_nodup h1 _ _, h2, ?_, ?_, ?_, ?_⟩
      · intro k l'
        simp only [Robot.add, Robot.addLink, mem_dictSet_new hn, List.mem_append, List.mem_singleton, Prod.mk.injEq, h3, Sum.inl.injEq]
        constructor
        · rintro (⟨a, b⟩ | ⟨a, b⟩)
          · exact ⟨.inl a, b⟩
          · exact ⟨.inr b, by rw [a, b]⟩
        · rintro ⟨a | a, b⟩
          · exact .inl ⟨a, b⟩
          · exact .inr ⟨by rw [b, a], a⟩
      · intro k u; simp [Robot.add, Robot.addLink, h4]
      · intro c j p; simp [Robot.add, Robot.addLink, h5]
      · intro p j c; simp only [Robot.add, Robot.addLink, h6]; simp
    | inr u =>
      have hn : u.name ∉ (Robot.parse es).joints.map Prod.fst := by
        intro h
        obtain ⟨⟨k, l'⟩, hm, e⟩ := List.mem_map.mp h
        obtain ⟨a, b⟩ := (h4 _ _).mp hm
        refine hj.2.2 l'.name (List.mem_map.mpr ⟨l', List.mem_filterMap.mpr ⟨_, a, rfl⟩, rfl⟩) u.name (by simp) ?_
        rw [← b, ← e]
      have hd : ∀ v, (.inr v : ULink ⊕ UJoint) ∈ es → v.child ≠ u.child := by
        intro v hv e
        exact hc.2.2 v.child (List.mem_map.mpr ⟨v, List.mem_filterMap.mpr ⟨_, hv, rfl⟩, rfl⟩) u.child (by simp) e
      refine ⟨h1, dictSet_nodup h2 _ _, ?_, ?_, ?_, ?_⟩
      · intro k l'; simp [Robot.add, Robot.addJoint, h3]
      · intro k u'
        simp only [Robot.add, Robot.addJoint, mem_dictSet_new hn, List.mem_append, List.mem_singleton, Prod.mk.injEq, h4, Sum.inr.injEq]
        constructor
        · rintro (⟨a, b⟩ | ⟨a, b⟩)
          · exact ⟨.inl a, b⟩
          · exact ⟨.inr b, by rw [a, b]⟩
        · rintro ⟨a | a, b⟩
          · exact .inl ⟨a, b⟩
          · exact .inr ⟨by rw [b, a], a⟩
      · intro c j p
        simp only [Robot.add, Robot.addJoint, lookup_dictSet]
        by_cases e : c = u.child
        · subst e
          simp only [if_true, Option.some.injEq, Prod.mk.injEq]
          constructor
          · rintro ⟨rfl, rfl⟩; exact ⟨u, by simp, rfl, rfl, rfl⟩
          · rintro ⟨v, hv, rfl, rfl, e⟩
            rcases List.mem_append.mp hv with hv | hv
            · exact absurd e (hd v hv)
            · simp only [List.mem_singleton, Sum.inr.injEq] at hv; subst hv; exact ⟨rfl, rfl⟩
        · rw [if_neg e, h5]
          constructor
          · rintro ⟨v, hv, a⟩; exact ⟨v, List.mem_append_left _ hv, a⟩
          · rintro ⟨v, hv, a, b, c'⟩
            rcases List.mem_append.mp hv with hv | hv
            · exact ⟨v, hv, a, b, c'⟩
            · simp only [List.mem_singleton, Sum.inr.injEq] at hv; subst hv; exact absurd c'.symm e
      · intro p j c
        have key : (∃ l, ((Robot.parse es).add (.inr u)).child_map.lookup p = some l ∧ (j, c) ∈ l) ↔
            (∃ l, (Robot.parse es).child_map.lookup p = some l ∧ (j, c) ∈ l) ∨ (p = u.parent ∧ j = u.name ∧ c = u.child) := by
          simp only [Robot.add, Robot.addJoint]
          cases hq : (Robot.parse es).child_map.lookup u.parent with
          | some l0 =>
            simp only [lookup_dictSet]
            by_cases e : p = u.parent
            · subst e; simp [hq]
            · simp [e]
          | none =>
            simp only [lookup_dictSet]
            by_cases e : p = u.parent
            · subst e; simp [hq]
            · simp [e]
        rw [key, h6]
        constructor
        · rintro (⟨v, hv, a⟩ | ⟨rfl, rfl, rfl⟩)
          · exact ⟨v, List.mem_append_left _ hv, a⟩
          · exact ⟨u, by simp, rfl, rfl, rfl⟩
        · rintro ⟨v, hv, a, b, c'⟩
          rcases List.mem_append.mp hv with hv | hv
          · exact .inl ⟨v, hv, a, b, c'⟩
          · simp only [List.mem_singleton, Sum.inr.injEq] at hv; subst hv; exact .inr ⟨b.symm, a.symm, c'.symm⟩

/-! ### C71: the root -/

/-- a link that is the child of no joint -/
def Spec.Robot.IsTop (r : Robot) (x : String) : Prop := x ∈ r.links.map Prod.fst ∧ ∀ p j, ¬ Robot.Edge r p j x

lemma Spec.Robot.Consistent.mem_parent {r : Robot} (h : Robot.Consistent r) (c : String) :
    c ∈ r.parent_map.map Prod.fst ↔ ∃ p j, Robot.Edge r p j c := by
  constructor
  · intro hc
    cases hq : r.parent_map.lookup c with
    | none => exact absurd hc ((lookup_none_iff c).mp hq)
    | some x => exact ⟨x.2, x.1, (h.parent _ _ _).mp hq⟩
  · rintro ⟨p, j, e⟩
    by_contra hc
    have h1 := (h.parent _ _ _).mpr e
    rw [(lookup_none_iff c).mpr hc] at h1
    exact absurd h1 (by simp)

lemma rootFold (r : Robot) (l : List String) : ∀ o : Option String,
    l.foldlM (rootStep r) o =
      match o, l.filter (fun x => x ∉ r.parent_map.map Prod.fst) with
      | o, [] => .ok o
      | none, [x] => .ok (some x)
      | _, _ => .error .assertion := by
  induction l with
  | nil => intro o; cases o <;> rfl
  | cons x l ih =>
    intro o
    rw [List.foldlM_cons]
    by_cases hx : x ∈ r.parent_map.map Prod.fst
    · have e1 : rootStep r o x = .ok o := by rw [rootStep, if_pos hx]
      rw [e1, List.filter_cons_of_neg (by simpa using hx)]
      exact ih o
    · rw [List.filter_cons_of_pos (by simpa using hx)]
      cases o with
      | some y =>
        have e1 : rootStep r (some y) x = .error .assertion := by rw [rootStep, if_neg hx, if_neg (by simp)]
        rw [e1]
        rcases l.filter (fun x => x ∉ r.parent_map.map Prod.fst) with _ | ⟨z, zs⟩ <;> rfl
      | none =>
        have e1 : rootStep r none x = .ok (some x) := by rw [rootStep, if_neg hx, if_pos rfl]
        rw [e1]
        refine (ih (some x)).trans ?_
        rcases l.filter (fun x => x ∉ r.parent_map.map Prod.fst) with _ | ⟨z, _ | ⟨z', zs⟩⟩ <;> rfl

/-- C71: `get_root` returns the link that is the child of no joint, if there is exactly one; otherwise (none, or
several) it raises `AssertionError`.  This does not depend on the order of the dictionaries. -/
theorem C71_root {r : Robot} (h : Robot.Consistent r) :
    (∀ x, r.getRoot = .ok x ↔ (Robot.IsTop r x ∧ ∀ y, Robot.IsTop r y → y = x)) ∧
    ((¬ ∃! x, Robot.IsTop r x) → r.getRoot = .error .assertion) := by
  have hm : ∀ y, y ∈ (r.links.map Prod.fst).filter (fun x => x ∉ r.parent_map.map Prod.fst) ↔ Robot.IsTop r y := by
    intro y
    rw [List.mem_filter]
    simp only [decide_eq_true_eq, Robot.IsTop, h.mem_parent, not_exists]
  have hn : ((r.links.map Prod.fst).filter (fun x => x ∉ r.parent_map.map Prod.fst)).Nodup := h.links.filter _
  have e : r.getRoot = match (r.links.map Prod.fst).filter (fun x => x ∉ r.parent_map.map Prod.fst) with
      | [x] => .ok x
      | _ => .error .assertion := by
    unfold Robot.getRoot
    rw [rootFold]
    rcases (r.links.map Prod.fst).filter (fun x => x ∉ r.parent_map.map Prod.fst) with _ | ⟨x, _ | ⟨y, l⟩⟩ <;> rfl
  generalize (r.links.map Prod.fst).filter (fun x => x ∉ r.parent_map.map Prod.fst) = l at hm hn e
  rcases l with _ | ⟨x, _ | ⟨y, l⟩⟩
  · refine ⟨fun x => ⟨fun h => by rw [e] at h; exact absurd h (by simp), fun h => absurd ((hm x).mpr h.1) (by simp)⟩, fun _ => e⟩
  · simp only [List.mem_singleton] at hm
    refine ⟨fun z => ?_, fun hh => absurd ⟨x, (hm x).mp rfl, fun y hy => (hm y).mpr hy⟩ hh⟩
    rw [e]
    constructor
    · intro h
      injection h with h
      subst h
      exact ⟨(hm x).mp rfl, fun y hy => (hm y).mpr hy⟩
    · intro h
      rw [h.2 x ((hm x).mp rfl)]
  · refine ⟨fun z => ?_, fun _ => e⟩
    rw [e]
    constructor
    · intro h; exact absurd h (by simp)
    · intro h
      have h1 := h.2 x ((hm x).mp (by simp))
      have h2 := h.2 y ((hm y).mp (by simp))
      simp [h1, h2] at hn

/-! ### C71: chains -/

lemma Spec.Robot.Way.snoc {r : Robot} {a b c j : String} {w : List (String × String)} (h : Robot.Way r a w b) (e : Robot.Edge r b j c) :
    Robot.Way r a (w ++ [(j, c)]) c := by
  induction h with
  | nil l => exact .cons e (.nil _)
  | cons h hw ih => exact .cons h (ih e)

lemma Spec.Robot.Way.last {r : Robot} {a b : String} {w : List (String × String)} (h : Robot.Way r a w b) :
    (w = [] ∧ a = b) ∨ ∃ w' p j, w = w' ++ [(j, b)] ∧ Robot.Way r a w' p ∧ Robot.Edge r p j b := by
  induction h with
  | nil l => exact .inl ⟨rfl, rfl⟩
  | @cons p j c t w h hw ih =>
    right
    rcases ih with ⟨rfl, rfl⟩ | ⟨w', p', j', rfl, hw', he⟩
    · exact ⟨[], p, j, rfl, .nil _, h⟩
    · exact ⟨(j, c) :: w', p', j', rfl, .cons h hw', he⟩

/-- the type of a joint, by its name -/
def Spec.IsFixed (r : Robot) (j : String) : Prop := ∃ u, (j, u) ∈ r.joints ∧ u.joint_type = .fixed

lemma chainOf_snoc {isFixed : String → Prop} [DecidablePred isFixed] (joints links fixed : Bool) (root : String) (w : List (String × String)) (x : String × String) :
    chainOf isFixed joints links fixed root (w ++ [x]) = chainOf isFixed joints links fixed root w ++
      ((if joints = true ∧ (fixed = true ∨ ¬ isFixed x.1) then [x.1] else []) ++ if links then [x.2] else []) := by
  simp only [chainOf, List.flatMap_append, List.flatMap_singleton, List.append_assoc]

lemma chainLoop_way {r : Robot} (h : Robot.Consistent r) [DecidablePred (IsFixed r)] (root : String) (joints links fixed : Bool)
    (w : List (String × String)) : ∀ (tip : String) (n : ℕ) (acc : List String), w.length ≤ n → Robot.Way r root w tip → (∀ x ∈ w, x.2 ≠ root) →
      chainLoop r root joints links fixed n tip (acc ++ if links then [tip] else []) =
        some (.ok (chainOf (IsFixed r) joints links fixed root w ++ acc.reverse)) := by
  induction w using List.reverseRecOn with
  | nil =>
    intro tip n acc _ hw _
    have : tip = root := by cases hw; rfl
    subst this
    unfold chainLoop
    rw [if_pos rfl]
    cases links <;> simp [chainOf]
  | append_singleton w x ih =>
    intro tip n acc hn hw hr
    rcases hw.last with ⟨h0, _⟩ | ⟨w', p, j, e, hw', he⟩
    · simp at h0
    obtain ⟨rfl, e'⟩ := List.append_inj' e rfl
    have hx : x = (j, tip) := by simpa using e'
    subst hx
    have ht : tip ≠ root := hr (j, tip) (by simp)
    have hl := (h.parent _ _ _).mpr he
    obtain ⟨u, hu, hu1, hu2⟩ := he
    have hjl := (lookup_some_iff h.joints j u).mpr hu
    have hf : IsFixed r j ↔ u.joint_type = .fixed := by
      constructor
      · rintro ⟨v, hv, hv'⟩
        have := (lookup_some_iff h.joints j v).mpr hv
        rw [hjl] at this; injection this with this; subst this; exact hv'
      · intro h; exact ⟨u, hu, h⟩
    cases n with
    | zero => simp at hn
    | succ n =>
      have hn' : w.length ≤ n := by simpa using hn
      have step : ∀ J : List String, chainLoop r root joints links fixed n p
          (if links then (acc ++ (if links then [tip] else []) ++ J) ++ [p] else acc ++ (if links then [tip] else []) ++ J) =
          some (.ok (chainOf (IsFixed r) joints links fixed root w ++ (J.reverse ++ ((if links then [tip] else []) ++ acc.reverse)))) := by
        intro J
        have := ih p n (acc ++ (if links then [tip] else []) ++ J) hn' hw' (fun y hy => hr y (List.mem_append_left _ hy))
        have e1 : (if links then (acc ++ (if links then [tip] else []) ++ J) ++ [p] else acc ++ (if links then [tip] else []) ++ J) =
            acc ++ (if links then [tip] else []) ++ J ++ (if links then [p] else []) := by cases links <;> simp
        rw [e1, this]
        cases links <;> simp
      rw [chainOf_snoc]
      unfold chainLoop
      rw [if_neg ht]
      simp only [hl]
      cases joints with
      | false =>
        simp only [Bool.false_eq_true, if_false, false_and, List.nil_append]
        have := step []
        simp only [List.append_nil, List.reverse_nil, List.nil_append] at this
        rw [this, List.append_assoc]
      | true =>
        cases fixed with
        | true =>
          simp only [if_true, true_and, true_or]
          have := step [j]
          simp only [List.reverse_singleton] at this
          rw [this]; simp
        | false =>
          simp only [if_true, true_and, Bool.false_eq_true, if_false, false_or, hjl]
          by_cases hq : u.joint_type = .fixed
          · have := step []
            simp only [List.append_nil, List.reverse_nil, List.nil_append] at this
            rw [if_pos hq, this, if_neg (not_not.mpr (hf.mpr hq))]; simp
          · have := step [j]
            simp only [List.reverse_singleton] at this
            rw [if_neg hq, this, if_pos (fun hh => hq (hf.mp hh))]; simp

/-- C71: if the joints lead from `root` to `tip` along the way `w` (which does not come back to `root`), then
`get_chain(root, tip)` ends and lists the links and joints of this way, from the root to the tip; the options leave
out the joints, the links or the fixed joints. -/
theorem C71_chain {r : Robot} (h : Robot.Consistent r) [DecidablePred (IsFixed r)] {root tip : String} {w : List (String × String)}
    (hw : Robot.Way r root w tip) (hr : ∀ x ∈ w, x.2 ≠ root) (joints links fixed : Bool) {n : ℕ} (hn : w.length ≤ n) :
    r.getChain n root tip joints links fixed = some (.ok (chainOf (IsFixed r) joints links fixed root w)) := by
  have := chainLoop_way h root joints links fixed w tip n [] hn hw hr
  simpa [Robot.getChain] using this

lemma chainLoop_error {r : Robot} (h : Robot.Consistent r) (root : String) (joints links fixed : Bool) {rank : String → ℕ}
    (hrank : ∀ p j c, Robot.Edge r p j c → rank p < rank c) : ∀ (n : ℕ) (tip : String) (acc : List String), rank tip < n →
      (¬ ∃ w, Robot.Way r root w tip) → chainLoop r root joints links fixed n tip acc = some (.error .keyError) := by
  intro n
  induction n with
  | zero => intro tip acc h; omega
  | succ n ih =>
    intro tip acc hn hw
    have ht : tip ≠ root := by rintro rfl; exact hw ⟨[], .nil _⟩
    unfold chainLoop
    rw [if_neg ht]
    cases hl : r.parent_map.lookup tip with
    | none => rfl
    | some x =>
      obtain ⟨j, p⟩ := x
      have he := (h.parent _ _ _).mp hl
      have hp : ∀ acc, chainLoop r root joints links fixed n p acc = some (.error .keyError) := by
        intro acc
        refine ih p acc (by have := hrank _ _ _ he; omega) ?_
        rintro ⟨w, hw'⟩
        exact hw ⟨_, hw'.snoc he⟩
      obtain ⟨u, hu, _, _⟩ := he
      have hjl := (lookup_some_iff h.joints j u).mpr hu
      simp only [hp, hjl, ite_self]

/-- C71: in a model without cycle (there is a `rank` that grows from parent to child), if no way leads from `root` to
`tip`, `get_chain` raises `KeyError`. -/
theorem C71_no_chain {r : Robot} (h : Robot.Consistent r) {rank : String → ℕ} (hrank : ∀ p j c, Robot.Edge r p j c → rank p < rank c)
    {root tip : String} (hw : ¬ ∃ w, Robot.Way r root w tip) (joints links fixed : Bool) {n : ℕ} (hn : rank tip < n) :
    r.getChain n root tip joints links fixed = some (.error .keyError) :=
  chainLoop_error h root joints links fixed hrank n tip _ hn hw

/-- C71: in a consistent model the way from `root` to `tip` is unique, if it does not come back to `root`. -/
theorem C71_unique {r : Robot} (h : Robot.Consistent r) {root : String} {w : List (String × String)} : ∀ {tip : String} {w' : List (String × String)},
    Robot.Way r root w tip → Robot.Way r root w' tip → (∀ x ∈ w, x.2 ≠ root) → (∀ x ∈ w', x.2 ≠ root) → w = w' := by
  induction w using List.reverseRecOn with
  | nil =>
    intro tip w' h1 h2 _ hr
    rcases h2.last with ⟨rfl, _⟩ | ⟨w'', p, j, rfl, _, _⟩
    · rfl
    · cases h1
      exact absurd rfl (hr (j, root) (by simp))
  | append_singleton w x ih =>
    intro tip w' h1 h2 hr hr'
    rcases h1.last with ⟨h0, _⟩ | ⟨v, p, j, e, hv, he⟩
    · simp at h0
    obtain ⟨rfl, e'⟩ := List.append_inj' e rfl
    have hx : x = (j, tip) := by simpa using e'
    subst hx
    rcases h2.last with ⟨rfl, rfl⟩ | ⟨v', p', j', rfl, hv', he'⟩
    · exact absurd rfl (hr (j, root) (by simp))
    · have q1 := (h.parent _ _ _).mpr he
      have q2 := (h.parent _ _ _).mpr he'
      rw [q1] at q2
      injection q2 with q2
      injection q2 with q2 q3
      subst q2 q3
      rw [ih hv hv' (fun y hy => hr y (List.mem_append_left _ hy)) (fun y hy => hr' y (List.mem_append_left _ hy))]

/-! a model with three links and two joints, given in any order -/

section sanity

private def l (n : String) : ULink := ⟨n, none, none, none⟩
private def j (n p c : String) (t : UType) : UJoint := ⟨n, p, c, t, some ![0, 0, 1], none, none⟩
private def es : List (ULink ⊕ UJoint) :=
  [.inr (j "j2" "b" "c" .fixed), .inl (l "c"), .inl (l "a"), .inr (j "j1" "a" "b" .revolute), .inl (l "b")]

example : Robot.Consistent (Robot.parse es) := (C71_parse (by decide) (by decide) (by decide)).2.2

example : Robot.Way (Robot.parse es) "a" [("j1", "b"), ("j2", "c")] "c" :=
  .cons ⟨j "j1" "a" "b" .revolute, by simp [Robot.parse, es, Robot.add, Robot.addJoint, Robot.addLink, Robot.empty, dictSet, j, l], rfl, rfl⟩
    (.cons ⟨j "j2" "b" "c" .fixed, by simp [Robot.parse, es, Robot.add, Robot.addJoint, Robot.addLink, Robot.empty, dictSet, j, l], rfl, rfl⟩ (.nil _))

end sanity

/-! ### C85: tables of limits -/

lemma deco_inj {pre suf a b : String} (h : pre ++ a ++ suf = pre ++ b ++ suf) : a = b := by
  have h' := congrArg String.toList h
  simp only [String.toList_append] at h'
  exact String.toList_inj.mp (List.append_cancel_left (List.append_cancel_right h'))

section tables
variable {α : Type} {pre suf : String} {step : List (String × α) → String × UJoint → Except PyErr (List (String × α))} {g : ULimit → Option α}

lemma table_error (herr : ∀ d x, x.2.limits = none → step d x = .error .attributeError) (hok : ∀ d x L, x.2.limits = some L → ∃ d', step d x = .ok d')
    {js : List (String × UJoint)} (h : ∃ x ∈ js, x.2.limits = none) : ∀ d, js.foldlM step d = .error .attributeError := by
  induction js with
  | nil => simp at h
  | cons x js ih =>
    intro d
    rw [List.foldlM_cons]
    cases hx : x.2.limits with
    | none => rw [herr d x hx]; rfl
    | some L =>
      obtain ⟨d', e⟩ := hok d x L hx
      rw [e]
      obtain ⟨y, hy, hy'⟩ := h
      rcases List.mem_cons.mp hy with rfl | hy
      · rw [hx] at hy'; exact absurd hy' (by simp)
      · exact ih ⟨y, hy, hy'⟩ d'

lemma table_ok (hok : ∀ d x L, x.2.limits = some L → step d x = .ok (match g L with
      | some v => dictSet d (pre ++ x.1 ++ suf) v
      | none => d))
    (js : List (String × UJoint)) : (∀ x ∈ js, x.2.limits ≠ none) → (js.map Prod.fst).Nodup →
    ∃ d, js.foldlM step [] = .ok d ∧ (d.map Prod.fst).Nodup ∧
      ∀ k v, d.lookup k = some v ↔ ∃ x ∈ js, ∃ L, x.2.limits = some L ∧ k = pre ++ x.1 ++ suf ∧ g L = some v := by
  induction js using List.reverseRecOn with
  | nil => intro _ _; exact ⟨[], rfl, by simp, by simp⟩
  | append_singleton js x ih =>
    intro hl hn
    rw [List.map_append, List.nodup_append] at hn
    obtain ⟨d, e, hd, hk⟩ := ih (fun y hy => hl y (List.mem_append_left _ hy)) hn.1
    obtain ⟨L, hL⟩ := Option.ne_none_iff_exists'.mp (hl x (by simp))
    rw [List.foldlM_append, e]
    have hlast : List.foldlM step d [x] = step d x := by rw [List.foldlM_cons]; cases step d x <;> rfl
    refine ⟨_, hlast.trans (hok d x L hL), ?_, ?_⟩
    · cases g L with
      | none => exact hd
      | some v => exact dictSet_nodup hd _ _
    · have hne : ∀ y ∈ js, pre ++ y.1 ++ suf ≠ pre ++ x.1 ++ suf := by
        intro y hy e
        exact hn.2.2 y.1 (List.mem_map_of_mem (f := Prod.fst) hy) x.1 (by simp) (deco_inj e)
      intro k v
      have hr : (∃ y ∈ js ++ [x], ∃ L', y.2.limits = some L' ∧ k = pre ++ y.1 ++ suf ∧ g L' = some v) ↔
          (∃ y ∈ js, ∃ L', y.2.limits = some L' ∧ k = pre ++ y.1 ++ suf ∧ g L' = some v) ∨ (k = pre ++ x.1 ++ suf ∧ g L = some v) := by
        constructor
        · rintro ⟨y, hy, L', a, b⟩
          rcases List.mem_append.mp hy with hy | hy
          · exact .inl ⟨y, hy, L', a, b⟩
          · simp only [List.mem_singleton] at hy; subst hy
            rw [hL] at a; injection a with a; subst a; exact .inr b
        · rintro (⟨y, hy, b⟩ | b)
          · exact ⟨y, List.mem_append_left _ hy, b⟩
          · exact ⟨x, by simp, L, hL, b⟩
      rw [hr]
      cases hg : g L with
      | none => simp only [hk]; simp
      | some v0 =>
        simp only [lookup_dictSet]
        by_cases ek : k = pre ++ x.1 ++ suf
        · rw [if_pos ek]
          constructor
          · intro h; exact .inr ⟨ek, h⟩
          · rintro (⟨y, hy, L', a, b, c⟩ | h)
            · exact absurd (b.symm.trans ek) (hne y hy)
            · exact h.2
        · rw [if_neg ek, hk]
          constructor
          · exact .inl
          · rintro (h | h)
            · exact h
            · exact absurd h.1 ek

end tables

/-- C85: a table has, for each joint that has the values, an entry under its decorated name, and nothing else. -/
def Spec.IsTable {α : Type} (pre suf : String) (r : Robot) (value : ULimit → Option α) (d : List (String × α)) : Prop :=
  (d.map Prod.fst).Nodup ∧ ∀ k v, d.lookup k = some v ↔ ∃ j u L, (j, u) ∈ r.joints ∧ u.limits = some L ∧ k = pre ++ j ++ suf ∧ value L = some v

/-- lower and upper limit, when both are given -/
def Spec.range (L : ULimit) : Option (ℝ × ℝ) := L.lower.bind fun lo => L.upper.map fun up => (lo, up)

/-- C85, as one would expect it: `get_joint_limits`, `get_effort_limits` and `get_velocity_limits` return the limits of
the joints that have some. -/
def C85_Claim : Prop := ∀ (pre suf : String) (r : Robot), Robot.Consistent r →
  (∃ d, getJointLimits pre suf r = .ok d ∧ IsTable pre suf r range d) ∧
  (∃ d, getEffortLimits pre suf r = .ok d ∧ IsTable pre suf r (fun L => some L.effort) d) ∧
  (∃ d, getVelocityLimits pre suf r = .ok d ∧ IsTable pre suf r (fun L => some L.velocity) d)

/-- C85: as soon as one joint has no `<limit>` (a fixed joint, say), the three functions raise `AttributeError`. -/
theorem C85_errors {r : Robot} (h : ∃ x ∈ r.joints, x.2.limits = none) (pre suf : String) :
    getJointLimits pre suf r = .error .attributeError ∧ getEffortLimits pre suf r = .error .attributeError ∧
    getVelocityLimits pre suf r = .error .attributeError := by
  refine ⟨table_error ?_ ?_ h [], table_error ?_ ?_ h [], table_error ?_ ?_ h []⟩
  · intro d x hx; simp only [limitsOf, hx, bind, Except.bind]
  · intro d x L hx
    simp only [limitsOf, hx, bind, Except.bind]
    cases L.lower <;> cases L.upper <;> exact ⟨_, rfl⟩
  · intro d x hx; simp only [limitsOf, hx, bind, Except.bind]
  · intro d x L hx; simp only [limitsOf, hx, bind, Except.bind]; exact ⟨_, rfl⟩
  · intro d x hx; simp only [limitsOf, hx, bind, Except.bind]
  · intro d x L hx; simp only [limitsOf, hx, bind, Except.bind]; exact ⟨_, rfl⟩

theorem C85_false : ¬ C85_Claim := by
  intro h
  have hc := (C71_parse (es := [.inr ⟨"j", "a", "b", .fixed, none, none, none⟩]) (by decide) (by decide) (by decide)).2.2
  obtain ⟨⟨d, e, _⟩, _⟩ := h "" "" _ hc
  have := (C85_errors (r := Robot.parse [.inr ⟨"j", "a", "b", .fixed, none, none, none⟩])
    ⟨("j", ⟨"j", "a", "b", .fixed, none, none, none⟩), by simp [Robot.parse, Robot.add, Robot.addJoint, Robot.empty, dictSet], rfl⟩ "" "").1
  rw [this] at e
  exact absurd e (by simp)

/-- C85: when all the joints have a `<limit>`, the tables are right.  (Missing: models with a joint without `<limit>`,
see `C85_errors`.) -/
theorem C85_limits_partial {r : Robot} (hc : Robot.Consistent r) (h : ∀ x ∈ r.joints, x.2.limits ≠ none) (pre suf : String) :
    (∃ d, getJointLimits pre suf r = .ok d ∧ IsTable pre suf r range d) ∧
    (∃ d, getEffortLimits pre suf r = .ok d ∧ IsTable pre suf r (fun L => some L.effort) d) ∧
    (∃ d, getVelocityLimits pre suf r = .ok d ∧ IsTable pre suf r (fun L => some L.velocity) d) := by
  have tr : ∀ {α : Type} {g : ULimit → Option α} {d : List (String × α)}, ((d.map Prod.fst).Nodup ∧
      ∀ k v, d.lookup k = some v ↔ ∃ x ∈ r.joints, ∃ L, x.2.limits = some L ∧ k = pre ++ x.1 ++ suf ∧ g L = some v) → IsTable pre suf r g d := by
    rintro α g d ⟨h1, h2⟩
    refine ⟨h1, fun k v => (h2 k v).trans ?_⟩
    constructor
    · rintro ⟨⟨j, u⟩, hx, L, a⟩; exact ⟨j, u, L, hx, a⟩
    · rintro ⟨j, u, L, hx, a⟩; exact ⟨(j, u), hx, L, a⟩
  refine ⟨?_, ?_, ?_⟩
  · obtain ⟨d, e, k⟩ := table_ok (pre := pre) (suf := suf) (g := range) (step := fun d x => do
      let L ← limitsOf x.2
      match L.lower, L.upper with
      | some lo, some up => .ok (dictSet d (pre ++ x.1 ++ suf) (lo, up))
      | _, _ => .ok d) (by
        intro d x L hx
        simp only [limitsOf, hx, bind, Except.bind, range]
        cases L.lower <;> cases L.upper <;> rfl) r.joints h hc.joints
    exact ⟨d, e, tr k⟩
  · obtain ⟨d, e, k⟩ := table_ok (pre := pre) (suf := suf) (g := fun L => some L.effort) (step := fun d x => do
      let L ← limitsOf x.2
      .ok (dictSet d (pre ++ x.1 ++ suf) L.effort)) (by
        intro d x L hx
        simp only [limitsOf, hx, bind, Except.bind]) r.joints h hc.joints
    exact ⟨d, e, tr k⟩
  · obtain ⟨d, e, k⟩ := table_ok (pre := pre) (suf := suf) (g := fun L => some L.velocity) (step := fun d x => do
      let L ← limitsOf x.2
      .ok (dictSet d (pre ++ x.1 ++ suf) L.velocity)) (by
        intro d x L hx
        simp only [limitsOf, hx, bind, Except.bind]) r.joints h hc.joints
    exact ⟨d, e, tr k⟩

/-! ### C70: decorated names -/

lemma prog_bind_ok {α β : Type} {p : Prog α} {q : α → Prog β} {S S'' : RS} {b : β} (h : (p >>= q) S = .ok (b, S'')) :
    ∃ a S', p S = .ok (a, S') ∧ q a S' = .ok (b, S'') := by
  cases hp : p S with
  | error e =>
    have : (p >>= q) S = .error e := by
      show StateT.bind p q S = _
      simp only [StateT.bind, hp, bind, Except.bind]
    rw [this] at h; exact absurd h (by simp)
  | ok x =>
    obtain ⟨a, S'⟩ := x
    refine ⟨a, S', rfl, ?_⟩
    have : (p >>= q) S = q a S' := by
      show StateT.bind p q S = _
      simp only [StateT.bind, hp, bind, Except.bind]
    rw [← this]; exact h

lemma byName_ok {l : List (String × ℕ)} {n : String} {S S' : RS} {x : ℕ} (h : byName l n S = .ok (x, S')) : n ∈ l.map Prod.fst := by
  by_contra hn
  rw [← lookup_none_iff] at hn
  simp [byName, hn, fail] at h

lemma loadLink_key {pre suf : String} {l : String × ULink} {S S' : RS} {x : String × ℕ} (h : loadLink pre suf l S = .ok (x, S')) :
    x.1 = pre ++ l.1 ++ suf := by
  unfold loadLink at h
  obtain ⟨b, S1, _, h⟩ := prog_bind_ok h
  obtain ⟨M, S2, _, h⟩ := prog_bind_ok h
  obtain ⟨_, S3, _, h⟩ := prog_bind_ok h
  obtain ⟨_, S4, _, h⟩ := prog_bind_ok h
  have : (pre ++ l.1 ++ suf, b) = x ∧ S4 = S' := by simpa [pure, StateT.pure, Except.pure] using h
  rw [← this.1]

lemma loadLinks_keys {pre suf : String} {ls : List (String × ULink)} : ∀ {S S' : RS} {bs : List (String × ℕ)}, loadLinks pre suf ls S = .ok (bs, S') →
    bs.map Prod.fst = ls.map fun l => pre ++ l.1 ++ suf := by
  induction ls with
  | nil =>
    intro S S' bs h
    have : [] = bs ∧ S = S' := by simpa [loadLinks, pure, StateT.pure, Except.pure] using h
    rw [← this.1]; rfl
  | cons l ls ih =>
    intro S S' bs h
    unfold loadLinks at h
    obtain ⟨x, S1, h1, h⟩ := prog_bind_ok h
    obtain ⟨xs, S2, h2, h⟩ := prog_bind_ok h
    have : x :: xs = bs ∧ S2 = S' := by simpa [pure, StateT.pure, Except.pure] using h
    rw [← this.1, List.map_cons, List.map_cons, loadLink_key h1, ih h2]

lemma loadJoints_children {sort : Vec3 → Equiv.Perm (Fin 3)} {pre suf : String} {save : Bool} {bodies : List (String × ℕ)} {js : List (String × UJoint)} :
    ∀ {S S' : RS} {ls : List (ℕ × ℝ × ℝ)}, loadJoints sort pre suf save bodies js S = .ok (ls, S') → ∀ x ∈ js, x.2.child ∈ bodies.map Prod.fst := by
  induction js with
  | nil => intro S S' ls _ x hx; simp at hx
  | cons y js ih =>
    intro S S' ls h x hx
    unfold loadJoints at h
    obtain ⟨a, S1, h1, h⟩ := prog_bind_ok h
    obtain ⟨b, S2, h2, h⟩ := prog_bind_ok h
    rcases List.mem_cons.mp hx with rfl | hx
    · unfold loadJoint at h1
      obtain ⟨d, S3, h3, h1⟩ := prog_bind_ok h1
      obtain ⟨p, S4, h4, h1⟩ := prog_bind_ok h1
      obtain ⟨c, S5, h5, h1⟩ := prog_bind_ok h1
      have hd : d.child = x.2.child := by
        have h3' : toJoint sort x.2 = .ok d := by
          cases e : toJoint sort x.2 with
          | error _ => simp [liftE, e] at h3
          | ok d' => simp [liftE, e] at h3; rw [h3.1]
        simp only [toJoint, bind, Except.bind] at h3'
        cases e1 : toPose x.2.origin with
        | error _ => simp [e1] at h3'
        | ok H =>
          simp only [e1] at h3'
          cases e2 : x.2.axis with
          | none => simp [e2] at h3'
          | some ax =>
            simp only [e2] at h3'
            cases e3 : typeCase sort ax x.2.joint_type with
            | error _ => simp [e3] at h3'
            | ok t => simp only [e3] at h3'; injection h3' with h3'; rw [← h3']
      rw [← hd]
      exact byName_ok h5
    · exact ih h2 x hx

/-- C70, as one would expect it: a model can be loaded with a prefix or a suffix whenever it can be loaded without. -/
def C70_Claim : Prop := ∀ (sort : Vec3 → Equiv.Perm (Fin 3)) (lim : ℕ) (opt : Options) (r : Robot) (S : RS), Robot.Consistent r →
  (∃ a S', load sort lim { opt with pre := "", suf := "" } r S = .ok (a, S')) → ∃ a S', load sort lim opt r S = .ok (a, S')

/-- C70: with a prefix or a suffix, no model at all can be loaded: the bodies are listed under their decorated names,
but looked up under their plain names. -/
theorem C70_never (sort : Vec3 → Equiv.Perm (Fin 3)) (lim : ℕ) {opt : Options} (ho : opt.pre ≠ "" ∨ opt.suf ≠ "") {r : Robot}
    (hc : Robot.Consistent r) (S : RS) : ∃ e, load sort lim opt r S = .error e := by
  cases hr : load sort lim opt r S with
  | error e => exact ⟨e, rfl⟩
  | ok a =>
    exfalso
    obtain ⟨a, S'⟩ := a
    unfold load at hr
    obtain ⟨bs, S1, h1, hr⟩ := prog_bind_ok hr
    obtain ⟨ls, S2, h2, hr⟩ := prog_bind_ok hr
    obtain ⟨root, S3, h3, hr⟩ := prog_bind_ok hr
    obtain ⟨b, S4, h4, hr⟩ := prog_bind_ok hr
    have hroot : r.getRoot = .ok root := by
      cases e : r.getRoot with
      | error _ => simp [liftE, e] at h3
      | ok x => simp [liftE, e] at h3; rw [h3.1]
    obtain ⟨ht, hu⟩ := ((C71_root hc).1 root).mp hroot
    have hk := loadLinks_keys h1
    have hex : ∃ n, ∃ x ∈ r.links.map Prod.fst, x.length = n := ⟨_, root, ht.1, rfl⟩
    classical
    obtain ⟨x, hx, hxl⟩ := Nat.find_spec hex
    have hmin : ∀ y ∈ r.links.map Prod.fst, x.length ≤ y.length := by
      intro y hy
      rw [hxl]
      exact Nat.find_min' hex ⟨y, hy, rfl⟩
    have hpos : 0 < opt.pre.length + opt.suf.length := by
      rcases ho with h | h
      · have : opt.pre.length ≠ 0 := fun e => h (String.length_eq_zero_iff.mp e)
        omega
      · have : opt.suf.length ≠ 0 := fun e => h (String.length_eq_zero_iff.mp e)
        omega
    have hnot : x ∉ bs.map Prod.fst := by
      rw [hk]
      intro h
      obtain ⟨l, hl, e⟩ := List.mem_map.mp h
      have := congrArg String.length e
      simp only [String.length_append] at this
      have := hmin l.1 (List.mem_map_of_mem (f := Prod.fst) hl)
      omega
    by_cases hch : ∃ p j, Robot.Edge r p j x
    · obtain ⟨p, j, u, hu', _, rfl⟩ := hch
      exact hnot (loadJoints_children h2 _ hu')
    · push Not at hch
      have : x = root := hu x ⟨hx, hch⟩
      subst this
      exact hnot (byName_ok h4)

end Arboris
