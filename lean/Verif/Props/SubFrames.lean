import Verif.Model.SubFrames
import Verif.Proofs.Rigid

/-! # C26: is a `SubFrame`'s `bpose` constant? -/

namespace Arboris
open SubFrames Spec

/-- C26, the claim: once a `SubFrame` exists its `bpose` never changes, whatever the program does. -/
def C26_Claim : Prop := ∀ (pre post : List Op) (f : ℕ) (a : ℕ), (runAll .empty pre).frame f = some (false, a) →
  (runAll .empty (pre ++ post)).bpose f = (runAll .empty pre).bpose f

lemma ishom_one : ishomogeneousmatrix (1 : Mat4) := isRigid_one.ishom

/-- C26 is false of the code: writing to the array passed to the constructor moves the frame; so does moving a
`MovingSubFrame` built on the same array. -/
theorem C26_false : ¬ C26_Claim := by
  intro h
  have h1 : runAll St.empty [.newArray 1, .make false 0] =
      { St.empty with
        mem := Function.update St.empty.mem 0 1, held := Function.update St.empty.held 0 true, fresh := 1,
        frame := Function.update St.empty.frame 0 (some (false, 0)), nframes := 1 } := by
    simp only [runAll, List.foldl_cons, List.foldl_nil, Op.run]
    simp [St.empty, ishom_one]
  have := h [.newArray 1, .make false 0] [.write 0 0] 0 0 (by rw [h1]; simp)
  rw [runAll, List.foldl_append] at this
  change (runAll (runAll St.empty _) _).bpose 0 = _ at this
  rw [h1] at this
  simp only [runAll, List.foldl_cons, List.foldl_nil, Op.run, St.bpose] at this
  simp at this

/-- the moving sub-frame half of the counterexample -/
theorem C26_moving_false : ∃ (H : Mat4), IsRigid H ∧ H ≠ 1 ∧
    (runAll .empty [.newArray 1, .make false 0, .make true 0]).bpose 0 = some 1 ∧
    (runAll .empty [.newArray 1, .make false 0, .make true 0, .assign 1 H]).bpose 0 = some H := by
  have hr : IsRigid (mkH 1 ![1, 0, 0]) := isRigid_mkH IsRotation.one
  refine ⟨mkH 1 ![1, 0, 0], hr, ?_, ?_, ?_⟩
  · intro h
    have := congrFun (congrFun h 0) 3
    simp [mkH] at this
  · simp only [runAll, List.foldl_cons, List.foldl_nil, Op.run]
    simp [St.empty, ishom_one, St.bpose]
  · simp only [runAll, List.foldl_cons, List.foldl_nil, Op.run]
    simp [St.empty, ishom_one, St.bpose, hr.ishom]

/-- the references are to existing arrays, and only existing arrays are held; frames are numbered below `nframes` -/
structure SubFrames.WF (s : St) : Prop where
  held : ∀ a, s.held a → a < s.fresh
  ref : ∀ f m a, s.frame f = some (m, a) → a < s.fresh
  num : ∀ f, s.nframes ≤ f → s.frame f = none

/-- array `a` backs the frame `f` and no `MovingSubFrame`; and the program does not hold it, or will not write it -/
structure SubFrames.Safe (s : St) (f a : ℕ) : Prop where
  here : s.frame f = some (false, a)
  only : ∀ g b, s.frame g = some (true, b) → b ≠ a

lemma wf_run {s s' : St} {op : Op} (h : WF s) (he : op.run s = .ok s') : WF s' := by
  cases op with
  | newArray H =>
    cases he
    refine ⟨fun a ha => ?_, fun f m a hf => Nat.lt_succ_of_lt (h.ref f m a hf), h.num⟩
    simp only at ha
    by_cases hc : a = s.fresh
    · subst hc; simp
    · rw [Function.update_of_ne hc] at ha; exact Nat.lt_succ_of_lt (h.held a ha)
  | write a H =>
    simp only [Op.run] at he
    split_ifs at he
    cases he
    exact ⟨h.held, h.ref, h.num⟩
  | makeDefault m =>
    cases he
    refine ⟨fun a ha => Nat.lt_succ_of_lt (h.held a ha), fun f m' a hf => ?_, fun f hf => ?_⟩
    · simp only at hf
      by_cases hc : f = s.nframes
      · subst hc
        simp only [Function.update_self, Option.some.injEq, Prod.mk.injEq] at hf
        rw [← hf.2]; simp
      · rw [Function.update_of_ne hc] at hf; exact Nat.lt_succ_of_lt (h.ref f m' a hf)
    · simp only at hf ⊢
      rw [Function.update_of_ne (by omega)]
      exact h.num f (by omega)
  | make m a =>
    simp only [Op.run] at he
    split_ifs at he with h1 h2
    cases he
    refine ⟨h.held, fun f m' b hf => ?_, fun f hf => ?_⟩
    · simp only at hf
      by_cases hc : f = s.nframes
      · subst hc
        simp only [Function.update_self, Option.some.injEq, Prod.mk.injEq] at hf
        rw [← hf.2]; exact h.held a h1
      · rw [Function.update_of_ne hc] at hf; exact h.ref f m' b hf
    · simp only at hf ⊢
      rw [Function.update_of_ne (by omega)]
      exact h.num f (by omega)
  | read f =>
    simp only [Op.run] at he
    split at he
    · cases he
    · cases he
      refine ⟨fun a ha => ?_, fun f m a hf => Nat.lt_succ_of_lt (h.ref f m a hf), h.num⟩
      simp only at ha
      by_cases hc : a = s.fresh
      · subst hc; simp
      · rw [Function.update_of_ne hc] at ha; exact Nat.lt_succ_of_lt (h.held a ha)
  | assign f H =>
    simp only [Op.run] at he
    split at he
    · cases he
    · cases he
    · split_ifs at he
      cases he
      exact ⟨h.held, h.ref, h.num⟩

lemma wf_runAll (l : List Op) : ∀ {s : St}, WF s → WF (runAll s l) := by
  induction l with
  | nil => intro s h; exact h
  | cons op l ih =>
    intro s h
    change WF (runAll (match op.run s with | .ok s' => s' | .error _ => s) l)
    apply ih
    cases he : op.run s with
    | error e => exact h
    | ok s' => exact wf_run h he

lemma wf_empty : WF St.empty := ⟨by simp [St.empty], by simp [St.empty], by simp [St.empty]⟩

/-- an operation that neither writes the array `a` nor makes a `MovingSubFrame` on it keeps the frame where it is -/
lemma safe_run {s s' : St} {op : Op} {f a : ℕ} (hw : WF s) (h : Safe s f a) (he : op.run s = .ok s')
    (h1 : (∃ H, op = .write a H) → ¬ s.held a) (h2 : op = .make true a → ¬ s.held a) :
    Safe s' f a ∧ s'.mem a = s.mem a ∧ (¬ s.held a → ¬ s'.held a) := by
  have ha : a < s.fresh := hw.ref f false a h.here
  have hfn : f ≠ s.nframes := by
    intro hc
    have := hw.num f (by omega)
    rw [h.here] at this
    cases this
  cases op with
  | newArray H =>
    cases he
    refine ⟨⟨h.here, h.only⟩, ?_, ?_⟩
    · simp only; rw [Function.update_of_ne ha.ne]
    · simp only; rw [Function.update_of_ne ha.ne]; exact id
  | write b H =>
    simp only [Op.run] at he
    split_ifs at he with hb
    cases he
    have : a ≠ b := by
      rintro rfl
      exact h1 ⟨H, rfl⟩ hb
    exact ⟨⟨h.here, h.only⟩, Function.update_of_ne this .., id⟩
  | makeDefault m =>
    cases he
    refine ⟨⟨?_, ?_⟩, ?_, id⟩
    · simp only; rw [Function.update_of_ne hfn]; exact h.here
    · intro g b hg
      simp only at hg
      by_cases hc : g = s.nframes
      · subst hc
        simp only [Function.update_self, Option.some.injEq, Prod.mk.injEq] at hg
        rw [← hg.2]; exact ha.ne'
      · rw [Function.update_of_ne hc] at hg; exact h.only g b hg
    · simp only; rw [Function.update_of_ne ha.ne]
  | make m b =>
    simp only [Op.run] at he
    split_ifs at he with hb hh
    cases he
    refine ⟨⟨?_, ?_⟩, rfl, id⟩
    · simp only; rw [Function.update_of_ne hfn]; exact h.here
    · intro g c hg
      simp only at hg
      by_cases hc : g = s.nframes
      · subst hc
        simp only [Function.update_self, Option.some.injEq, Prod.mk.injEq] at hg
        obtain ⟨rfl, rfl⟩ := hg
        rintro rfl
        exact h2 rfl hb
      · rw [Function.update_of_ne hc] at hg; exact h.only g c hg
  | read g =>
    simp only [Op.run] at he
    split at he
    · cases he
    · cases he
      refine ⟨⟨h.here, h.only⟩, ?_, ?_⟩
      · simp only; rw [Function.update_of_ne ha.ne]
      · simp only; rw [Function.update_of_ne ha.ne]; exact id
  | assign g H =>
    simp only [Op.run] at he
    split at he
    · cases he
    · cases he
    · rename_i b hg
      split_ifs at he
      cases he
      exact ⟨⟨h.here, h.only⟩, Function.update_of_ne (h.only g b hg).symm .., id⟩

lemma safe_runAll (l : List Op) : ∀ {s : St} {f a : ℕ}, WF s → Safe s f a →
    ((∀ H, .write a H ∉ l) ∧ .make true a ∉ l ∨ ¬ s.held a) → (runAll s l).bpose f = s.bpose f := by
  induction l with
  | nil => intro s f a _ _ _; rfl
  | cons op l ih =>
    intro s f a hw h hc
    change (runAll (match op.run s with | .ok s' => s' | .error _ => s) l).bpose f = _
    cases he : op.run s with
    | error e =>
      refine ih hw h ?_
      rcases hc with ⟨h1, h2⟩ | hc
      · exact Or.inl ⟨fun H hm => h1 H (List.mem_cons_of_mem _ hm), fun hm => h2 (List.mem_cons_of_mem _ hm)⟩
      · exact Or.inr hc
    | ok s' =>
      obtain ⟨hs, hm, hh⟩ := safe_run hw h he (by
          rintro ⟨H, rfl⟩
          rcases hc with ⟨h1, _⟩ | hc
          · exact absurd List.mem_cons_self (h1 H)
          · exact hc) (by
          rintro rfl
          rcases hc with ⟨_, h2⟩ | hc
          · exact absurd List.mem_cons_self h2
          · exact hc)
      have := ih (wf_run hw he) hs (by
        rcases hc with ⟨h1, h2⟩ | hc
        · exact Or.inl ⟨fun H hm => h1 H (List.mem_cons_of_mem _ hm), fun hm => h2 (List.mem_cons_of_mem _ hm)⟩
        · exact Or.inr (hh hc))
      simp only
      rw [this]
      unfold St.bpose
      rw [hs.here, h.here]
      simp [hm]

/-- C26, first part that holds: a `SubFrame` built on the array `a` keeps its `bpose` as long as nobody writes into `a`
and no `MovingSubFrame` is (or was) built on it.  Missing: sharing of `a`, where it is false. -/
theorem C26_partial (pre post : List Op) (f a : ℕ) (h : (runAll .empty pre).frame f = some (false, a))
    (hm : ∀ g b, (runAll .empty pre).frame g = some (true, b) → b ≠ a) (hw : ∀ H, .write a H ∉ post)
    (hmk : .make true a ∉ post) : (runAll .empty (pre ++ post)).bpose f = (runAll .empty pre).bpose f := by
  rw [runAll, List.foldl_append]
  exact safe_runAll post (wf_runAll pre wf_empty) ⟨h, hm⟩ (Or.inl ⟨hw, hmk⟩)

/-- C26, second part: `SubFrame(body)` built without a `bpose` stays at the identity whatever the program does
(including writing into arrays returned by `bpose`). -/
theorem C26_default_partial (pre post : List Op) :
    (runAll .empty (pre ++ .makeDefault false :: post)).bpose (runAll .empty pre).nframes = some 1 := by
  have hw := wf_runAll pre wf_empty
  generalize hs : runAll .empty pre = s at hw
  have e : runAll .empty (pre ++ .makeDefault false :: post) =
      runAll { s with
        mem := Function.update s.mem s.fresh 1, fresh := s.fresh + 1,
        frame := Function.update s.frame s.nframes (some (false, s.fresh)), nframes := s.nframes + 1 } post := by
    rw [← hs, runAll, List.foldl_append]; rfl
  rw [e, safe_runAll (a := s.fresh) post (wf_run (op := .makeDefault false) hw rfl)]
  · simp [St.bpose]
  · refine ⟨by simp, fun g b hg => ?_⟩
    simp only at hg
    by_cases hc : g = s.nframes
    · subst hc; simp at hg
    · rw [Function.update_of_ne hc] at hg
      exact (hw.ref g true b hg).ne
  · right
    simp only
    intro hh
    exact lt_irrefl _ (hw.held _ hh)

/-- C26: a program that copies before constructing is safe: the hypotheses of `C26_partial` are met by a history with
several frames, moves and writes. -/
example : let pre : List Op := [.newArray 1, .newArray 1, .make false 0, .make true 1, .makeDefault true]
    (runAll .empty pre).frame 0 = some (false, 0) ∧
    (∀ g b, (runAll .empty pre).frame g = some (true, b) → b ≠ 0) ∧
    (∀ H, Op.write 0 H ∉ [Op.write 1 0, .read 0, .write 3 0, .assign 1 1]) := by
  have h1 : (runAll .empty [.newArray 1, .newArray 1, .make false 0, .make true 1, .makeDefault true]).frame =
      Function.update (Function.update (Function.update (fun _ : ℕ => none) 0 (some (false, 0))) 1 (some (true, 1))) 2
        (some (true, 2)) := by
    simp only [runAll, List.foldl_cons, List.foldl_nil, Op.run]
    simp [St.empty, ishom_one]
  simp only [h1]
  refine ⟨by simp [Function.update], fun g b => ?_, by simp⟩
  unfold Function.update
  split_ifs <;> simp <;> omega

end Arboris
