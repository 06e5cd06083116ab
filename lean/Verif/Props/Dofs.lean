import Verif.Model.Views
import Verif.Props.Replace

/-!
# C30: numbering of the degrees of freedom; C31: `joint.gvel` and `world.gvel`
-/

namespace Arboris.Graph

/-- the value of `JointsList.dof`: a slice, or a list of indices -/
inductive DofIdx
  | slice (start stop : ℕ)
  | list (l : List ℕ)
  deriving DecidableEq, Repr

/-- core.py:301-313: one turn of `JointsList._init_dof`, on the joint's slice `s` -/
def jointsListStep (d : DofIdx) (s : ℕ × ℕ) : DofIdx :=
  match d with
  | .slice a b => if b = s.1 then .slice a s.2 else .list (List.range' a (b - a) ++ List.range' s.1 (s.2 - s.1))
  | .list l => .list (l ++ List.range' s.1 (s.2 - s.1))

/-- core.py:293-317 `JointsList(joints).dof`; `Joint.dof` raises `ValueError` before `World.init` (core.py:227-230) -/
def jointsListDof (w : World) (js : List ℕ) : Except PyErr DofIdx :=
  js.foldlM (fun d j => match (w.joint j).dof with
    | none => .error .valueError
    | some s => .ok (jointsListStep d s)) (.slice 0 0)

end Arboris.Graph

namespace Arboris
open Graph Spec

/-- the indices selected by a `JointsList.dof` -/
def DofIdx.indices : DofIdx → List ℕ
  | .slice a b => List.range' a (b - a)
  | .list l => l

/-- sum of the joints' ndof -/
def ndofSum (o : Objs) (js : List ℕ) : ℕ := (js.map o.ndof).sum

lemma numbering (o : Objs) (js : List ℕ) (hn : js.Nodup) (w : World) :
    (js.foldl (numberStep o) w).ndof = w.ndof + ndofSum o js ∧
    (∀ j ∉ js, ((js.foldl (numberStep o) w).joint j).dof = (w.joint j).dof) ∧
    (∀ pre j post, js = pre ++ j :: post → ((js.foldl (numberStep o) w).joint j).dof =
      some (w.ndof + ndofSum o pre, w.ndof + ndofSum o pre + o.ndof j)) := by
  induction js generalizing w with
  | nil => simp [ndofSum]
  | cons a l ih =>
    obtain ⟨ha, hl⟩ := List.nodup_cons.mp hn
    obtain ⟨h1, h2, h3⟩ := ih hl (numberStep o w a)
    refine ⟨?_, ?_, ?_⟩
    · rw [List.foldl_cons, h1]; simp [numberStep, ndofSum]; omega
    · intro j hj
      simp only [List.mem_cons, not_or] at hj
      rw [List.foldl_cons, h2 j hj.2]
      simp [numberStep, hj.1]
    · intro pre j post h
      cases pre with
      | nil =>
        simp only [List.nil_append, List.cons.injEq] at h
        obtain ⟨rfl, rfl⟩ := h
        rw [List.foldl_cons, h2 a ha]
        simp [numberStep, ndofSum]
      | cons b pre =>
        simp only [List.cons_append, List.cons.injEq] at h
        obtain ⟨rfl, h⟩ := h
        rw [List.foldl_cons, h3 pre j post h]
        simp [numberStep, ndofSum]
        omega

/-- C30.  `init` succeeds on a tree and gives the joints, in depth-first order, consecutive slices of indices
starting at 0; `ndof` is the sum of the joints' ndof.  The tree itself is not changed. -/
theorem C30_slices {o : Objs} {w : World} {F : Forest (FrameRef × ℕ × FrameRef) ℕ} (hF : IsTree o w F) {lim : ℕ}
    (hl : depth F < lim) :
    ∃ w', Graph.init o w lim = (w', .ok ()) ∧ w'.ndof = ndofSum o (joints F) ∧ IsTree o w' F ∧
      ∀ pre j post, joints F = pre ++ j :: post →
        (w'.joint j).dof = some (ndofSum o pre, ndofSum o pre + o.ndof j) := by
  have hj := (C54_iter hF hl).2.1
  have he : Graph.init o w lim = ((joints F).foldl (numberStep o) { w with ndof := 0 }, .ok ()) := by
    unfold Graph.init; rw [hj]
  obtain ⟨h1, _, h3⟩ := numbering o (joints F) hF.joints_nodup { w with ndof := 0 }
  obtain ⟨s1, s2, s3, s4, _⟩ := numbering_structure o { w with ndof := 0 } (joints F)
  refine ⟨_, he, by simpa using h1, ?_, fun pre j post h => by simpa using h3 pre j post h⟩
  have hu : ∀ {b js G}, Unfolds o w b js G →
      Unfolds o ((joints F).foldl (numberStep o) { w with ndof := 0 }) b js G := by
    intro b js G hG
    induction hG with
    | nil => exact .nil _
    | cons h0 h1 hb hpar hch hsib ihc ihs =>
      exact .cons (by rw [s3]; exact h0) (by rw [s4]; exact h1) hb (by rw [s1]; exact hpar) (by rw [s1]; exact ihc) ihs
  refine ⟨?_, ?_, ?_, hF.joints_nodup⟩
  · rw [s2, s1]; exact hu hF.unfolds
  · rw [s2, s1]; exact hF.root
  · rw [s2]; exact hF.bodies_nodup

/-- C30.  The slices partition `0 … ndof-1`: every index belongs to exactly one joint. -/
theorem C30_partition {o : Objs} {w : World} {F : Forest (FrameRef × ℕ × FrameRef) ℕ} (hF : IsTree o w F) {lim : ℕ}
    (hl : depth F < lim) {k : ℕ} (hk : k < (Graph.init o w lim).1.ndof) :
    ∃! j, j ∈ joints F ∧ ∃ a b, ((Graph.init o w lim).1.joint j).dof = some (a, b) ∧ a ≤ k ∧ k < b := by
  obtain ⟨w', he, hn, _, hs⟩ := C30_slices hF hl
  rw [he] at hk ⊢
  simp only [hn] at hk ⊢
  have find : ∀ (js : List ℕ) (k : ℕ), k < ndofSum o js →
      ∃ pre j post, js = pre ++ j :: post ∧ ndofSum o pre ≤ k ∧ k < ndofSum o pre + o.ndof j := by
    intro js
    induction js with
    | nil => intro k hk; simp [ndofSum] at hk
    | cons a l ih =>
      intro k hk
      by_cases hka : k < o.ndof a
      · exact ⟨[], a, l, rfl, by simp [ndofSum], by simpa [ndofSum] using hka⟩
      · obtain ⟨pre, j, post, h1, h2, h3⟩ := ih (k - o.ndof a) (by simp [ndofSum] at hk ⊢; omega)
        refine ⟨a :: pre, j, post, by rw [h1]; rfl, ?_, ?_⟩
        · simp [ndofSum] at h2 ⊢; omega
        · simp [ndofSum] at h3 ⊢; omega
  obtain ⟨pre, j, post, h1, h2, h3⟩ := find _ k hk
  refine ⟨j, ⟨by rw [h1]; simp, _, _, hs pre j post h1, h2, h3⟩, ?_⟩
  rintro j' ⟨hj', a, b, hab, ha, hb⟩
  obtain ⟨pre', post', h1'⟩ := List.append_of_mem hj'
  rw [hs pre' j' post' h1'] at hab
  simp only [Option.some.injEq, Prod.mk.injEq] at hab
  obtain ⟨rfl, rfl⟩ := hab
  -- two splits at different places have disjoint slices
  have sums : ∀ (p q : List ℕ), p <+: q → ndofSum o p ≤ ndofSum o q := by
    rintro p q ⟨r, rfl⟩
    simp [ndofSum]
  have hsum : ∀ (p : List ℕ) (x : ℕ), ndofSum o (p ++ [x]) = ndofSum o p + o.ndof x := by
    intro p x; simp [ndofSum]
  have hcmp := List.prefix_or_prefix_of_prefix (l₁ := pre ++ [j]) (l₂ := pre' ++ [j']) (l₃ := joints F)
    ⟨post, by rw [h1]; simp⟩ ⟨post', by rw [h1']; simp⟩
  have hlen : ∀ {p q : List ℕ} {x y : ℕ}, p ++ [x] <+: q ++ [y] → (p = q ∧ x = y) ∨ p ++ [x] <+: q := by
    intro p q x y h
    rcases List.prefix_concat_iff.mp h with h | h
    · left
      have := List.append_inj' h rfl
      simpa using this
    · right; exact h
  rcases hcmp with h | h
  · rcases hlen h with ⟨_, h⟩ | h
    · exact h.symm
    · have := sums _ _ h
      rw [hsum] at this
      omega
  · rcases hlen h with ⟨_, h⟩ | h
    · exact h
    · have := sums _ _ h
      rw [hsum] at this
      omega

/-- C30.  `JointsList(joints).dof` selects exactly the joints' indices, in the order of the list; before `init` (no
slice assigned) it raises `ValueError`. -/
theorem C30_jointsList {w : World} {js : List ℕ} {sl : ℕ → ℕ × ℕ} (h : ∀ j ∈ js, (w.joint j).dof = some (sl j))
    (hle : ∀ j ∈ js, (sl j).1 ≤ (sl j).2) :
    ∃ d, jointsListDof w js = .ok d ∧
      DofIdx.indices d = js.flatMap fun j => List.range' (sl j).1 ((sl j).2 - (sl j).1) := by
  have key : ∀ (js : List ℕ) (d : DofIdx), (∀ j ∈ js, (w.joint j).dof = some (sl j)) → (∀ j ∈ js, (sl j).1 ≤ (sl j).2) →
      (∀ a b, d = .slice a b → a ≤ b) →
      ∃ d', js.foldlM (fun d j => match (w.joint j).dof with
        | none => (.error .valueError : Except PyErr DofIdx)
        | some s => .ok (jointsListStep d s)) d = .ok d' ∧
        DofIdx.indices d' = DofIdx.indices d ++ js.flatMap fun j => List.range' (sl j).1 ((sl j).2 - (sl j).1) := by
    intro js
    induction js with
    | nil => intro d _ _ _; exact ⟨d, rfl, by simp⟩
    | cons j js ih =>
      intro d h hle hd
      have hj := h j List.mem_cons_self
      have hlj := hle j List.mem_cons_self
      have step : DofIdx.indices (jointsListStep d (sl j)) =
          DofIdx.indices d ++ List.range' (sl j).1 ((sl j).2 - (sl j).1) ∧
          (∀ a b, jointsListStep d (sl j) = .slice a b → a ≤ b) := by
        cases d with
        | slice a b =>
          have := hd a b rfl
          unfold jointsListStep
          simp only
          split_ifs with hb
          · subst hb
            refine ⟨?_, ?_⟩
            · simp only [DofIdx.indices]
              obtain ⟨m, hm⟩ : ∃ m, (sl j).1 = a + m := ⟨(sl j).1 - a, by omega⟩
              obtain ⟨n, hn⟩ : ∃ n, (sl j).2 = a + m + n := ⟨(sl j).2 - (sl j).1, by omega⟩
              rw [hm, hn, Nat.add_sub_cancel_left, Nat.add_sub_cancel_left,
                show a + m + n - a = m + n by omega]
              exact (List.range'_append_1 ..).symm
            · intro x y hxy
              simp only [DofIdx.slice.injEq] at hxy
              omega
          · exact ⟨rfl, fun x y hxy => by simp at hxy⟩
        | list l => exact ⟨rfl, fun x y hxy => by simp [jointsListStep] at hxy⟩
      obtain ⟨d', e, he⟩ := ih (jointsListStep d (sl j)) (fun k hk => h k (List.mem_cons_of_mem _ hk))
        (fun k hk => hle k (List.mem_cons_of_mem _ hk)) step.2
      refine ⟨d', ?_, ?_⟩
      · rw [List.foldlM_cons, hj]
        exact e
      · rw [he, step.1]; simp
  obtain ⟨d, h1, h2⟩ := key js (.slice 0 0) h hle (by simp)
  exact ⟨d, h1, by simpa [DofIdx.indices] using h2⟩

/-- C30.  After `init`, `world.getjoints().dof` is the plain slice of all dofs. -/
theorem C30_all_joints {o : Objs} {w : World} {F : Forest (FrameRef × ℕ × FrameRef) ℕ} (hF : IsTree o w F) {lim : ℕ}
    (hl : depth F < lim) :
    jointsListDof (Graph.init o w lim).1 (joints F) = .ok (.slice 0 (Graph.init o w lim).1.ndof) := by
  obtain ⟨w', he, hn, _, hs⟩ := C30_slices hF hl
  rw [he]
  simp only [hn]
  have key : ∀ (pre js : List ℕ), joints F = pre ++ js →
      js.foldlM (fun d j => match (w'.joint j).dof with
        | none => (.error .valueError : Except PyErr DofIdx)
        | some s => .ok (jointsListStep d s)) (.slice 0 (ndofSum o pre)) = .ok (.slice 0 (ndofSum o (pre ++ js))) := by
    intro pre js
    induction js generalizing pre with
    | nil => intro _; simp; rfl
    | cons j js ih =>
      intro h
      rw [List.foldlM_cons, hs pre j js h]
      have := ih (pre ++ [j]) (by rw [h]; simp)
      have hsum : ndofSum o (pre ++ [j]) = ndofSum o pre + o.ndof j := by simp [ndofSum]
      rw [hsum] at this
      simp only [jointsListStep, if_true, List.append_assoc, List.singleton_append] at this ⊢
      exact this
  have := key [] (joints F) rfl
  simpa [ndofSum, jointsListDof] using this

/-- before `init`, `getjoints()` on a non-empty world raises `ValueError` -/
theorem C30_before_init {w : World} {j : ℕ} {js : List ℕ} (h : (w.joint j).dof = none) :
    jointsListDof w (j :: js) = .error .valueError := by
  unfold jointsListDof
  rw [List.foldlM_cons, h]
  rfl

example : ∃ w', Graph.init plainObjs (runAll plainObjs 9 (World.new 0) [.addLink [.frame (.body 0), .joint 7,
    .frame (.body 1), .frame (.body 1), .joint 3, .frame (.body 2)]]) 9 = (w', .ok ()) ∧
    (w'.joint 3).dof = some (1, 2) ∧ w'.ndof = 2 := ⟨_, rfl, rfl, rfl⟩

end Arboris
