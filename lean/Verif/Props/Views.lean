import Verif.Model.Views

/-!
# C31: `joint.gvel` is a live window on the world's velocity after `init`

Everything is stated with what a program can read: `joint.gvel[i]` (`readJoint`) and `world.gvel[k]` (`readWorld`, which
goes through the copy returned by the property).
-/

namespace Arboris

open Views

namespace Views

/-- the program reads `joint.gvel[i]` -/
noncomputable def readJoint (s : St) (j i : ℕ) : ℝ := s.get (s.gvel j) i

/-- the program reads `world.gvel[k]` -/
noncomputable def readWorld (s : St) (k : ℕ) : ℝ := (worldGvel s).2.get (worldGvel s).1 k

/-- what a program can do with the velocities: write `joint.gvel[i] = x` (or `joint.gvel[:] = x`), write into the array
got from `world.gvel`, call `integrate` (with any admittance, mass and force: `new` is the new velocity as a function of
the old one), call `init`, and rebind `joint.gvel = x` -/
inductive Act where
  | setJoint (j i : ℕ) (x : ℝ)
  | fillJoint (j : ℕ) (x : ℕ → ℝ)
  | setWorldCopy (k : ℕ) (x : ℝ)
  | integrate (new : (ℕ → ℝ) → ℕ → ℝ)
  | init
  | rebind (j n : ℕ) (x : ℕ → ℝ)

/-- the effect of an action on the velocities (an exception leaves no later state) -/
noncomputable def Act.run (ndof : ℕ → ℕ) (js : List ℕ) (s : St) : Act → Except PyErr St
  | .setJoint j i x => if i < (s.gvel j).len then .ok (s.set (s.gvel j) i x) else .error .indexError
  | .fillJoint j x => .ok (s.fill (s.gvel j) x)
  | .setWorldCopy k x =>
    if k < s.world.len then .ok ((worldGvel s).2.set (worldGvel s).1 k x) else .error .indexError
  | .integrate new => .ok (Views.integrate ndof js s new)
  | .init => Views.init ndof js s
  | .rebind j n x => .ok (assign s j n x)

/-- actions other than rebinding a `gvel` attribute -/
def Act.inPlace : Act → Prop
  | .rebind .. => False
  | _ => True

/-- the actions of a program, one after the other -/
noncomputable def runActs (ndof : ℕ → ℕ) (js : List ℕ) (s : St) (l : List Act) : Except PyErr St :=
  l.foldlM (Act.run ndof js) s

/-- every array a joint or the world refers to exists -/
structure Alive (s : St) (js : List ℕ) : Prop where
  joints : ∀ j ∈ js, (s.gvel j).buf < s.fresh
  world : s.world.buf < s.fresh

/-- a state before `init`: the joints `js` have velocity arrays of the right size -/
structure Ready (ndof : ℕ → ℕ) (js : List ℕ) (s : St) : Prop where
  alive : Alive s js
  len : ∀ j ∈ js, (s.gvel j).len = ndof j

/-- the internal invariant behind the theorems -/
structure Linked (ndof : ℕ → ℕ) (js : List ℕ) (s : St) : Prop where
  nodup : js.Nodup
  buf : s.world.buf < s.fresh
  at0 : s.world.start = 0
  len : s.world.len = total ndof js
  view : ∀ pre j post, js = pre ++ j :: post →
    s.gvel j = ⟨s.world.buf, total ndof pre, ndof j⟩ ∧ s.start j = total ndof pre

lemma total_append (ndof : ℕ → ℕ) (a b : List ℕ) : total ndof (a ++ b) = total ndof a + total ndof b := by
  simp [total]

lemma total_cons (ndof : ℕ → ℕ) (a : ℕ) (b : List ℕ) : total ndof (a :: b) = ndof a + total ndof b := by
  simp [total]

lemma Linked.ready {ndof : ℕ → ℕ} {js : List ℕ} {s : St} (h : Linked ndof js s) : Ready ndof js s where
  alive := ⟨fun j hj => by
    obtain ⟨pre, post, e⟩ := List.append_of_mem hj
    rw [(h.view pre j post e).1]; exact h.buf, h.buf⟩
  len := fun j hj => by
    obtain ⟨pre, post, e⟩ := List.append_of_mem hj
    rw [(h.view pre j post e).1]

/-- the loop of `init` -/
lemma bindAll_spec (ndof : ℕ → ℕ) : ∀ (js : List ℕ) (s : St) (a : ℕ), js.Nodup → s.world.start = 0 →
    (∀ j ∈ js, (s.gvel j).buf ≠ s.world.buf) → (∀ j ∈ js, (s.gvel j).len = ndof j) →
    ∃ s', bindAll ndof s a js = .ok s' ∧ s'.fresh = s.fresh ∧ s'.world = s.world ∧
      (∀ b k, b ≠ s.world.buf → s'.mem b k = s.mem b k) ∧
      (∀ k, k < a → s'.mem s.world.buf k = s.mem s.world.buf k) ∧
      (∀ j, j ∉ js → s'.gvel j = s.gvel j ∧ s'.start j = s.start j) ∧
      (∀ pre j post, js = pre ++ j :: post →
        s'.gvel j = ⟨s.world.buf, a + total ndof pre, ndof j⟩ ∧ s'.start j = a + total ndof pre ∧
        ∀ i < ndof j, s'.mem s.world.buf (a + total ndof pre + i) = s.get (s.gvel j) i) := by
  intro js
  induction js with
  | nil =>
    intro s a _ _ _ _
    exact ⟨s, rfl, rfl, rfl, fun _ _ _ => rfl, fun _ _ => rfl, fun _ _ => ⟨rfl, rfl⟩, by simp⟩
  | cons j js ih =>
    intro s a hn h0 hb hl
    have hj := hl j List.mem_cons_self
    obtain ⟨hjn, hn'⟩ := List.nodup_cons.mp hn
    obtain ⟨s1, hs1⟩ : ∃ s1, bindStep ndof s j a = .ok s1 ∧ s1.fresh = s.fresh ∧ s1.world = s.world ∧
        s1.gvel = Function.update s.gvel j ⟨s.world.buf, a, ndof j⟩ ∧ s1.start = Function.update s.start j a ∧
        s1.mem = fun b k => if b = s.world.buf ∧ a ≤ k ∧ k < a + ndof j then s.get (s.gvel j) (k - a) else s.mem b k := by
      refine ⟨{ s.fill ⟨s.world.buf, s.world.start + a, ndof j⟩ (s.get (s.gvel j)) with
        gvel := Function.update s.gvel j ⟨s.world.buf, s.world.start + a, ndof j⟩,
        start := Function.update s.start j a }, ?_, rfl, rfl, ?_, rfl, ?_⟩
      · unfold bindStep; rw [if_pos hj]
      · simp [h0]
      · simp [h0, St.fill]
    obtain ⟨e1, f1, w1, g1, st1, m1⟩ := hs1
    have hne : ∀ k ∈ js, k ≠ j := fun k hk e => hjn (e ▸ hk)
    have hg : ∀ k ∈ js, s1.gvel k = s.gvel k := by
      intro k hk; rw [g1, Function.update_of_ne (hne k hk)]
    have hmem : ∀ k ∈ js, ∀ i, s1.get (s1.gvel k) i = s.get (s.gvel k) i := by
      intro k hk i
      rw [hg k hk]
      unfold St.get
      rw [m1]
      simp only
      rw [if_neg]
      exact fun h => hb k (List.mem_cons_of_mem _ hk) h.1
    obtain ⟨s', e', f', w', o', l', n', v'⟩ := ih s1 (a + ndof j) hn' (by rw [w1]; exact h0)
      (fun k hk => by rw [hg k hk, w1]; exact hb k (List.mem_cons_of_mem _ hk))
      (fun k hk => by rw [hg k hk]; exact hl k (List.mem_cons_of_mem _ hk))
    rw [w1] at o' l' v'
    refine ⟨s', ?_, by rw [f', f1], by rw [w', w1], ?_, ?_, ?_, ?_⟩
    · simp only [bindAll, e1, bind, Except.bind]
      exact e'
    · intro b k hbk
      rw [o' b k hbk, m1]
      simp only
      rw [if_neg (fun h => hbk h.1)]
    · intro k hk
      rw [l' k (by omega), m1]
      simp only
      rw [if_neg (by omega)]
    · intro k hk
      rw [List.mem_cons, not_or] at hk
      obtain ⟨h1, h2⟩ := n' k hk.2
      rw [h1, h2, g1, st1, Function.update_of_ne hk.1, Function.update_of_ne hk.1]
      exact ⟨rfl, rfl⟩
    · intro pre k post hp
      cases pre with
      | nil =>
        simp only [List.nil_append, List.cons.injEq] at hp
        obtain ⟨rfl, rfl⟩ := hp
        obtain ⟨h1, h2⟩ := n' j hjn
        rw [h1, h2, g1, st1]
        simp only [Function.update_self, total, List.map_nil, List.sum_nil, add_zero, true_and]
        intro i hi
        rw [l' (a + i) (by omega), m1]
        simp only
        rw [if_pos (by simp [hi])]
        simp
      | cons x pre =>
        simp only [List.cons_append, List.cons.injEq] at hp
        obtain ⟨rfl, rfl⟩ := hp
        obtain ⟨h1, h2, h3⟩ := v' pre k post rfl
        rw [total_cons, ← add_assoc]
        refine ⟨h1, h2, fun i hi => ?_⟩
        rw [h3 i hi]
        exact hmem k (by simp) i

lemma init_spec {ndof : ℕ → ℕ} {js : List ℕ} {s : St} (hn : js.Nodup) (h : Ready ndof js s) :
    ∃ s', Views.init ndof js s = .ok s' ∧ Linked ndof js s' ∧
      ∀ j ∈ js, ∀ i < ndof j, readJoint s' j i = readJoint s j i := by
  have hf : ∀ j ∈ js, (s.gvel j).buf ≠ s.fresh := fun j hj => (h.alive.joints j hj).ne
  obtain ⟨s', e, f, w, _, _, _, v⟩ := bindAll_spec ndof js
    { (s.alloc (total ndof js)).2 with world := (s.alloc (total ndof js)).1 } 0 hn rfl
    (fun j hj => hf j hj) (fun j hj => h.len j hj)
  have hw : s'.world = ⟨s.fresh, 0, total ndof js⟩ := w
  have hfr : s'.fresh = s.fresh + 1 := f
  refine ⟨s', e, ⟨hn, by rw [hw, hfr]; simp, by rw [hw], by rw [hw], ?_⟩, ?_⟩
  · intro pre j post hp
    obtain ⟨h1, h2, _⟩ := v pre j post hp
    rw [zero_add] at h1 h2
    rw [hw]
    exact ⟨h1, h2⟩
  · intro j hj i hi
    obtain ⟨pre, post, hp⟩ := List.append_of_mem hj
    obtain ⟨h1, _, h3⟩ := v pre j post hp
    have := h3 i hi
    unfold readJoint
    rw [h1]
    unfold St.get
    refine this.trans ?_
    exact if_neg (hf j hj)

/-- `world.gvel[k]` is element `k` of the internal vector -/
lemma readWorld_eq {s : St} {k : ℕ} (hk : k < s.world.len) :
    readWorld s k = s.get s.world k := by
  unfold readWorld worldGvel St.alloc St.fill St.get
  simp [hk]

lemma Linked.act {ndof : ℕ → ℕ} {js : List ℕ} {s s' : St} (h : Linked ndof js s) {a : Act} (ha : a.inPlace)
    (hs : a.run ndof js s = .ok s') : Linked ndof js s' := by
  cases a with
  | setJoint j i x =>
    unfold Act.run at hs
    dsimp only at hs
    split_ifs at hs
    cases hs
    exact ⟨h.nodup, h.buf, h.at0, h.len, h.view⟩
  | fillJoint j x =>
    cases hs
    exact ⟨h.nodup, h.buf, h.at0, h.len, h.view⟩
  | setWorldCopy k x =>
    unfold Act.run at hs
    dsimp only at hs
    split_ifs at hs
    cases hs
    exact ⟨h.nodup, Nat.lt_succ_of_lt h.buf, h.at0, h.len, h.view⟩
  | integrate new =>
    cases hs
    refine ⟨h.nodup, h.buf, h.at0, h.len, ?_⟩
    intro pre j post hp
    obtain ⟨h1, h2⟩ := h.view pre j post hp
    have hj : j ∈ js := by rw [hp]; simp
    refine ⟨?_, h2⟩
    change (if j ∈ js then (⟨s.world.buf, s.world.start + s.start j, ndof j⟩ : View) else s.gvel j) = _
    rw [if_pos hj, h.at0, h2, zero_add]
    rfl
  | init =>
    obtain ⟨s1, e, hl, _⟩ := init_spec h.nodup h.ready
    have : s1 = s' := by
      have h := e.symm.trans hs
      exact Except.ok.inj h
    exact this ▸ hl
  | rebind => exact ha.elim

lemma Linked.runActs {ndof : ℕ → ℕ} {js : List ℕ} {l : List Act} : ∀ {s s' : St}, Linked ndof js s →
    (∀ a ∈ l, a.inPlace) → runActs ndof js s l = .ok s' → Linked ndof js s' := by
  induction l with
  | nil => intro s s' h _ e; cases e; exact h
  | cons a l ih =>
    intro s s' h ha e
    unfold Views.runActs at e
    rw [List.foldlM_cons] at e
    cases hr : a.run ndof js s with
    | error x => rw [hr] at e; cases e
    | ok s1 =>
      rw [hr] at e
      exact ih (h.act (ha a List.mem_cons_self) hr) (fun b hb => ha b (List.mem_cons_of_mem _ hb)) e

end Views

/-- C31 (init).  `init` carries every joint's velocity over, whatever arrays the joints had (also from an earlier
`init`, also when two joints shared one array). -/
theorem C31_init {ndof : ℕ → ℕ} {js : List ℕ} {s : St} (hn : js.Nodup) (h : Ready ndof js s) :
    ∃ s', Act.run ndof js s .init = .ok s' ∧
      (∀ pre j post, js = pre ++ j :: post → ∀ i < ndof j,
        readJoint s' j i = readJoint s j i ∧ readWorld s' (total ndof pre + i) = readJoint s j i) := by
  obtain ⟨s', e, hl, hr⟩ := init_spec hn h
  refine ⟨s', e, fun pre j post hp i hi => ?_⟩
  have hj : j ∈ js := by rw [hp]; simp
  refine ⟨hr j hj i hi, ?_⟩
  rw [← hr j hj i hi, readWorld_eq (by rw [hl.len, hp, total_append, total_cons]; omega)]
  unfold readJoint
  rw [(hl.view pre j post hp).1]
  unfold St.get
  simp [hl.at0]

/-- C31 (live view).  After `init` and any history of in-place writes to joints, writes into the array returned by
`world.gvel`, `integrate`s and further `init`s: `joint.gvel[i]` is `world.gvel[start + i]` where `start` is the number of
dofs of the joints before it, and `joint.gvel` has its `ndof` elements. -/
theorem C31_live {ndof : ℕ → ℕ} {js : List ℕ} {s s' : St} (hn : js.Nodup) (h : Ready ndof js s) {l : List Act}
    (hl : ∀ a ∈ l, a.inPlace) (he : runActs ndof js s (.init :: l) = .ok s') :
    (∀ pre j post, js = pre ++ j :: post → (s'.gvel j).len = ndof j ∧
      ∀ i < ndof j, readJoint s' j i = readWorld s' (total ndof pre + i)) := by
  have hL : Linked ndof js s' := by
    obtain ⟨s1, e, h1, _⟩ := init_spec hn h
    unfold runActs at he
    rw [List.foldlM_cons] at he
    change (Views.init ndof js s >>= _) = _ at he
    rw [e] at he
    exact h1.runActs hl he
  intro pre j post hp
  have hv := (hL.view pre j post hp).1
  refine ⟨by rw [hv], fun i hi => ?_⟩
  rw [readWorld_eq (by rw [hL.len, hp, total_append, total_cons]; omega)]
  unfold readJoint
  rw [hv]
  unfold St.get
  simp [hL.at0]

/-- C31 (exactness of a write).  After such a history, `joint.gvel[i] = x` changes exactly `world.gvel[start + i]`, and no
velocity of another joint. -/
theorem C31_write {ndof : ℕ → ℕ} {js : List ℕ} {s s1 : St} (hn : js.Nodup) (h : Ready ndof js s) {l : List Act}
    (hl : ∀ a ∈ l, a.inPlace) (he : runActs ndof js s (.init :: l) = .ok s1) {pre post : List ℕ} {j i : ℕ} (x : ℝ)
    (hp : js = pre ++ j :: post) (hi : i < ndof j) :
    ∃ s2, Act.run ndof js s1 (.setJoint j i x) = .ok s2 ∧
      (∀ k < total ndof js, readWorld s2 k = if k = total ndof pre + i then x else readWorld s1 k) ∧
      (∀ j' ∈ js, ∀ i' < ndof j', readJoint s2 j' i' = if j' = j ∧ i' = i then x else readJoint s1 j' i') := by
  have hL : Linked ndof js s1 := by
    obtain ⟨s1, e, h1, _⟩ := init_spec hn h
    unfold runActs at he
    rw [List.foldlM_cons] at he
    change (Views.init ndof js s >>= _) = _ at he
    rw [e] at he
    exact h1.runActs hl he
  have hv := (hL.view pre j post hp).1
  have hw : ∀ k < total ndof js, readWorld (s1.set (s1.gvel j) i x) k =
      if k = total ndof pre + i then x else readWorld s1 k := by
    intro k hk
    rw [readWorld_eq (by change k < s1.world.len; rw [hL.len]; exact hk), readWorld_eq (by rw [hL.len]; exact hk)]
    change (if s1.world.buf = (s1.gvel j).buf ∧ s1.world.start + k = (s1.gvel j).start + i then x
      else s1.mem s1.world.buf (s1.world.start + k)) = _
    rw [hv, hL.at0]
    simp [St.get, hL.at0]
  refine ⟨s1.set (s1.gvel j) i x, by unfold Act.run; dsimp only; rw [if_pos (by rw [hv]; exact hi)], hw, ?_⟩
  intro j' hj' i' hi'
  obtain ⟨pre', post', hp'⟩ := List.append_of_mem hj'
  have hv' := (hL.view pre' j' post' hp').1
  change (if (s1.gvel j').buf = (s1.gvel j).buf ∧ (s1.gvel j').start + i' = (s1.gvel j).start + i then x
      else s1.mem (s1.gvel j').buf ((s1.gvel j').start + i')) = if j' = j ∧ i' = i then x else
      s1.mem (s1.gvel j').buf ((s1.gvel j').start + i')
  refine if_congr ?_ rfl rfl
  rw [hv, hv']
  simp only [true_and]
  constructor
  · intro hs
    -- slices of different joints do not overlap
    have sums : ∀ (p q : List ℕ), p <+: q → total ndof p ≤ total ndof q := by
      rintro p q ⟨r, rfl⟩; rw [total_append]; omega
    have hsum : ∀ (p : List ℕ) (y : ℕ), total ndof (p ++ [y]) = total ndof p + ndof y := by
      intro p y; rw [total_append]; simp [total]
    have hlen : ∀ {p q : List ℕ} {y z : ℕ}, p ++ [y] <+: q ++ [z] → (p = q ∧ y = z) ∨ p ++ [y] <+: q := by
      intro p q y z h
      rcases List.prefix_concat_iff.mp h with h | h
      · left
        have := List.append_inj' h rfl
        simpa using this
      · right; exact h
    rcases List.prefix_or_prefix_of_prefix (l₁ := pre ++ [j]) (l₂ := pre' ++ [j']) (l₃ := js)
      ⟨post, by rw [hp]; simp⟩ ⟨post', by rw [hp']; simp⟩ with hc | hc
    · rcases hlen hc with ⟨rfl, rfl⟩ | hc
      · exact ⟨rfl, by omega⟩
      · have := sums _ _ hc
        rw [hsum] at this; omega
    · rcases hlen hc with ⟨rfl, rfl⟩ | hc
      · exact ⟨rfl, by omega⟩
      · have := sums _ _ hc
        rw [hsum] at this; omega
  · rintro ⟨rfl, rfl⟩
    have : pre = pre' := by
      have hn' := hn
      rw [hp] at hp' hn'
      rcases List.append_eq_append_iff.mp hp' with ⟨r, h1, h2⟩ | ⟨r, h1, h2⟩
      · cases r with
        | nil => simpa using h1.symm
        | cons y r =>
          simp only [List.cons_append, List.cons.injEq] at h2
          obtain ⟨rfl, h2⟩ := h2
          rw [h2] at hn'
          simp [List.nodup_append] at hn'
      · cases r with
        | nil => simpa using h1
        | cons y r =>
          simp only [List.cons_append, List.cons.injEq] at h2
          obtain ⟨rfl, h2⟩ := h2
          rw [h1] at hn'
          simp [List.nodup_append] at hn'
    rw [this]

/-- C31 (the copy).  Writing into the array returned by `world.gvel` changes nothing that can be read later. -/
theorem C31_copy {ndof : ℕ → ℕ} {js : List ℕ} {s s' : St} (h : Alive s js) {k : ℕ} {x : ℝ}
    (he : Act.run ndof js s (.setWorldCopy k x) = .ok s') :
    (∀ j ∈ js, ∀ i, readJoint s' j i = readJoint s j i) ∧ ∀ k < s.world.len, readWorld s' k = readWorld s k := by
  unfold Act.run at he
  dsimp only at he
  split_ifs at he
  cases he
  have hm : ∀ b n, b ≠ s.fresh → ((worldGvel s).2.set (worldGvel s).1 k x).mem b n = s.mem b n := by
    intro b n hb
    unfold worldGvel St.alloc St.fill St.set
    simp [hb]
  refine ⟨fun j hj i => hm _ _ (h.joints j hj).ne, fun k' hk => ?_⟩
  rw [readWorld_eq hk, readWorld_eq (by exact hk)]
  exact hm _ _ h.world.ne

/-- C31 (integrate).  After such a history, `integrate` makes `world.gvel` the new velocity and every `joint.gvel` its
part of it. -/
theorem C31_integrate {ndof : ℕ → ℕ} {js : List ℕ} {s s1 : St} (hn : js.Nodup) (h : Ready ndof js s) {l : List Act}
    (hl : ∀ a ∈ l, a.inPlace) (he : runActs ndof js s (.init :: l) = .ok s1) (new : (ℕ → ℝ) → ℕ → ℝ)
    (hnew : ∀ u v : ℕ → ℝ, (∀ k < total ndof js, u k = v k) → ∀ k < total ndof js, new u k = new v k) :
    ∃ s2, Act.run ndof js s1 (.integrate new) = .ok s2 ∧
      (∀ k < total ndof js, readWorld s2 k = new (readWorld s1) k) ∧
      (∀ pre j post, js = pre ++ j :: post → ∀ i < ndof j,
        readJoint s2 j i = new (readWorld s1) (total ndof pre + i)) := by
  have hL : Linked ndof js s1 := by
    obtain ⟨s1, e, h1, _⟩ := init_spec hn h
    unfold runActs at he
    rw [List.foldlM_cons] at he
    change (Views.init ndof js s >>= _) = _ at he
    rw [e] at he
    exact h1.runActs hl he
  have hL2 : Linked ndof js (Views.integrate ndof js s1 new) := hL.act (a := .integrate new) trivial rfl
  have hw : ∀ k < total ndof js, readWorld (Views.integrate ndof js s1 new) k = new (readWorld s1) k := by
    intro k hk
    rw [readWorld_eq (by rw [hL2.len]; exact hk)]
    change (if s1.world.buf = s1.world.buf ∧ s1.world.start ≤ s1.world.start + k ∧
      s1.world.start + k < s1.world.start + s1.world.len then new (s1.get s1.world) (s1.world.start + k - s1.world.start)
      else _) = _
    rw [if_pos (by rw [hL.len]; simp [hk]), Nat.add_sub_cancel_left]
    exact hnew _ _ (fun k' hk' => (readWorld_eq (by rw [hL.len]; exact hk')).symm) k hk
  refine ⟨_, rfl, hw, fun pre j post hp i hi => ?_⟩
  have hlt : total ndof pre + i < total ndof js := by rw [hp, total_append, total_cons]; omega
  rw [← hw _ hlt, readWorld_eq (by rw [hL2.len]; exact hlt)]
  unfold readJoint
  rw [(hL2.view pre j post hp).1]
  unfold St.get
  rw [hL2.at0, zero_add]

/-- C31 (rebinding detaches).  `joint.gvel = x` after `init` is not seen by the world, and the next `integrate` throws it
away: it gives every velocity the value it would have had without the assignment. -/
theorem C31_rebind {ndof : ℕ → ℕ} {js : List ℕ} {s s1 : St} (hn : js.Nodup) (h : Ready ndof js s) {l : List Act}
    (hl : ∀ a ∈ l, a.inPlace) (he : runActs ndof js s (.init :: l) = .ok s1) (j n : ℕ) (x : ℕ → ℝ) :
    ∃ s2, Act.run ndof js s1 (.rebind j n x) = .ok s2 ∧
      (∀ i < n, readJoint s2 j i = x i) ∧
      (∀ k < total ndof js, readWorld s2 k = readWorld s1 k) ∧
      ∀ new, ∀ j' ∈ js, ∀ i < ndof j',
        readJoint (Views.integrate ndof js s2 new) j' i = readJoint (Views.integrate ndof js s1 new) j' i := by
  have hL : Linked ndof js s1 := by
    obtain ⟨s1, e, h1, _⟩ := init_spec hn h
    unfold runActs at he
    rw [List.foldlM_cons] at he
    change (Views.init ndof js s >>= _) = _ at he
    rw [e] at he
    exact h1.runActs hl he
  have hm : ∀ b k, b ≠ s1.fresh → (assign s1 j n x).mem b k = s1.mem b k := by
    intro b k hb
    unfold assign St.alloc St.fill
    simp [hb]
  have hworld : (assign s1 j n x).get (assign s1 j n x).world = s1.get s1.world := by
    funext k
    exact hm _ _ hL.buf.ne
  refine ⟨_, rfl, ?_, ?_, ?_⟩
  · intro i hi
    unfold readJoint assign St.alloc St.fill St.get
    simp [hi]
  · intro k hk
    rw [readWorld_eq (by change k < s1.world.len; rw [hL.len]; exact hk), readWorld_eq (by rw [hL.len]; exact hk)]
    exact congrFun hworld k
  · intro new j' hj' i hi
    unfold readJoint Views.integrate rebindAll St.get
    simp only [if_pos hj']
    change (if s1.world.buf = s1.world.buf ∧ _ ∧ _ then new ((assign s1 j n x).get (assign s1 j n x).world) _ else
      (assign s1 j n x).mem s1.world.buf _) = if s1.world.buf = s1.world.buf ∧ _ ∧ _ then new (s1.get s1.world) _ else
      s1.mem s1.world.buf _
    rw [hworld, hm _ _ hL.buf.ne]
    rfl

/-- Two joints of 1 and 2 dofs sharing one velocity array before `init`: the hypotheses of the theorems hold, and a write
through the first joint is seen by the world at index 0 only. -/
example : Ready (fun j => j + 1) [0, 1]
    ⟨fun _ _ => 3, 2, ⟨1, 0, 0⟩, fun j => ⟨0, 0, j + 1⟩, fun _ => 0⟩ ∧ [0, 1].Nodup ∧
    ∀ a ∈ [Act.setJoint 0 0 5, Act.integrate (fun u k => u k + 1), Act.init], a.inPlace := by
  refine ⟨⟨⟨by simp, by simp⟩, by simp⟩, by simp, ?_⟩
  simp [Act.inPlace]

end Arboris
