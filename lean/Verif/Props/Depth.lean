import Verif.Props.Robots

/-!
# C81: deep trees exceed the recursion limit
-/

namespace Arboris
open Graph Spec Build

lemma iterJoints_deep {o : Objs} {w : World} {b js F} (h : Unfolds o w b js F) (k : ℕ) (hk : k < depth F) :
    (js.mapM fun j => do
        let b' ← frame1Body o w j
        let l ← iterDescJoints o w k b'
        pure (j :: l)) = .error .recursionError := by
  induction h generalizing k with
  | nil => simp [depth] at hk
  | @cons b j js f0 f1 ch sib h0 h1 hb hpar hch hsib ihc ihs =>
    simp only [depth, lt_max_iff] at hk
    have hf : frame1Body o w j = .ok (o.bodyOf f1) := by simp only [frame1Body, h1]
    rw [List.mapM_cons, hf]
    by_cases hc : k < depth ch + 1
    · have : iterDescJoints o w k (o.bodyOf f1) = .error .recursionError := by
        cases k with
        | zero => rfl
        | succ k =>
          rw [iterDescJoints, ihc k (by omega)]
          rfl
      simp only [bind, Except.bind, this]
    · obtain ⟨l, hl⟩ : ∃ l, iterDescJoints o w k (o.bodyOf f1) = .ok l := ⟨_, Unfolds.iterDescJoints hch (by omega)⟩
      have hs := ihs k (hk.resolve_left hc)
      simp only [bind, Except.bind] at hs ⊢
      rw [hl]
      simp only [pure, Except.pure] at hs ⊢
      rw [hs]

/-- C81: on a world that is a tree, `iterjoints` and `init` succeed exactly when the tree is less deep than the recursion limit;
otherwise they raise `RecursionError`. -/
theorem C81_limit {o : Objs} {w : World} {F : Forest (FrameRef × ℕ × FrameRef) ℕ} (hF : IsTree o w F) (lim : ℕ) :
    (depth F < lim → ∃ w', Graph.init o w lim = (w', .ok ())) ∧
    (lim ≤ depth F → (Graph.init o w lim).2 = .error .recursionError ∧ iterJoints o w lim = .error .recursionError) := by
  refine ⟨fun h => ?_, fun h => ?_⟩
  · obtain ⟨w', e, _⟩ := C30_slices hF h
    exact ⟨w', e⟩
  · have : iterJoints o w lim = .error .recursionError := by
      rw [iterJoints]
      cases lim with
      | zero => rfl
      | succ k =>
        rw [iterDescJoints, iterJoints_deep hF.unfolds k (by omega)]
        rfl
    refine ⟨?_, this⟩
    unfold Graph.init
    rw [this]

/-- C81: a snake with as many links as the recursion limit cannot be built: `add_snake` raises `RecursionError`. -/
theorem C81_snake {S : RS} {F : Forest (FrameRef × ℕ × FrameRef) ℕ} (hg : Good S F) {ls ms qs dqs : List ℝ} {n lim : ℕ}
    (h1 : ls.length = n) (h2 : ms.length = n) (h3 : qs.length = n) (h4 : dqs.length = n)
    (hl : ∀ x ∈ ls, 0 < x) (hm : ∀ x ∈ ms, 0 < x) (hn : lim ≤ n) :
    addSnake lim n (some ls) (some ms) (some qs) (some dqs) true S = .error .recursionError := by
  have hz := zip4 h1 h2 h3 h4
  obtain ⟨S1, r1, g1, k1, b1, j1, s1, sh1, facts⟩ := snakeLoop_runs (F := F) (xs := []) (fr := .body S.w.ground)
    (ls.zip (ms.zip (qs.zip dqs))) (S := S) (by simpa [Forest.chain, Forest.append_nil] using hg) hg.ground (.inl ⟨rfl, rfl⟩) (by
      intro it hit
      obtain ⟨a, b⟩ := List.of_mem_zip (a := it.1) (b := it.2) hit
      exact ⟨hl _ a, hm _ (List.of_mem_zip (a := it.2.1) (b := it.2.2) b).1⟩)
  rw [hz] at g1
  obtain ⟨w2, r2, g2, k2, -, kn⟩ := regFrame_runs g1 (if ls.zip (ms.zip (qs.zip dqs)) = [] then .body S.w.ground else .sub (S.ns + (ls.zip (ms.zip (qs.zip dqs))).length - 1))
  have hlim := ((C81_limit g2.tree lim).2 (by rw [depth_append, depth_chain, List.length_append, serial_length]; simp; omega)).1
  unfold addSnake
  refine (Runs.check h1.symm S).bind_error ((Runs.check h2.symm S).bind_error ((Runs.check h3.symm S).bind_error ((Runs.check h4.symm S).bind_error ?_)))
  refine (Runs.ground S).bind_error (r1.bind_error (r2.bind_error ?_))
  simp only [Build.init]
  generalize hx : Graph.init _ _ lim = x at hlim ⊢
  obtain ⟨w, e⟩ := x
  simp only at hlim
  subst hlim
  rfl

/-- the hypotheses are met: a snake of 1000 links on a new world, with the limit of CPython -/
example : addSnake 1000 1000 none none none none true RS.new = .error .recursionError := by
  rw [C73_snake_defaults]
  exact C81_snake good_new List.length_replicate List.length_replicate List.length_replicate List.length_replicate
    (by intro x hx; obtain ⟨_, rfl⟩ := List.mem_replicate.mp hx; norm_num) (by intro x hx; obtain ⟨_, rfl⟩ := List.mem_replicate.mp hx; norm_num) le_rfl

end Arboris
