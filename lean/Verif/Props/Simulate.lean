import Verif.Spec.Simulate

/-!
# C45–C47: `simulate` and the recorders
-/

universe u v

namespace Arboris
open Sim Spec

variable {W : Type u}

lemma call_ok_iff {α : Type u} {tr : List (Ev W)} {e : Ev W} {r : Except PyErr α}
    {k : List (Ev W) → α → List (Ev W) × Except PyErr (W × ℝ)} {tr' : List (Ev W)} {x : W × ℝ} :
    call tr e r k = (tr', .ok x) ↔ ∃ a, r = .ok a ∧ k (tr ++ [e]) a = (tr', .ok x) := by
  cases r with
  | error y => simp [call]
  | ok a => simp [call]

/-- a loop that ends well is a sequence of steps -/
lemma loop_ok_iff (E : Engine W) (n : ℕ) : ∀ (rest : List ℝ) (tr : List (Ev W)) (w : W) (t : ℝ) (tr' : List (Ev W)) (w' : W) (t' : ℝ),
    loop E n rest tr w t = (tr', .ok (w', t')) ↔
      (t :: rest).Pairwise (· < ·) ∧ ∃ obs, Steps E (t :: rest) w obs w' ∧ tr' = tr ++ obs.flatMap (stepCalls n) ∧
        t' = (t :: rest).getLast (by simp) := by
  intro rest
  induction rest with
  | nil =>
    intro tr w t tr' w' t'
    simp only [loop, Prod.mk.injEq, Except.ok.injEq, List.pairwise_cons, List.not_mem_nil, false_implies, implies_true,
      List.Pairwise.nil, and_self, true_and, List.getLast_singleton]
    constructor
    · rintro ⟨rfl, rfl, rfl⟩
      exact ⟨[], .done _ _, by simp, rfl⟩
    · rintro ⟨obs, h, rfl, rfl⟩
      cases h
      simp
  | cons next rest ih =>
    intro tr w t tr' w' t'
    have hpw : (t :: next :: rest).Pairwise (· < ·) ↔ t < next ∧ (next :: rest).Pairwise (· < ·) := by
      simp only [List.pairwise_cons, List.mem_cons, forall_eq_or_imp]
      constructor
      · rintro ⟨⟨h1, h2⟩, h3⟩; exact ⟨h1, h3⟩
      · rintro ⟨h1, h3⟩; exact ⟨⟨h1, fun a ha => h1.trans (h3.1 a ha)⟩, h3⟩
    rw [hpw]
    simp only [loop, call_ok_iff, ih]
    rw [show t + (next - t) = next by ring]
    constructor
    · rintro ⟨a, ha, b, hb, c, hc, d, hd, hp, obs, hs, rfl, rfl⟩
      have hdt : 0 < next - t := by
        by_contra hn
        rw [if_neg hn] at hb
        cases hb
      rw [if_pos hdt] at hb hd
      exact ⟨⟨by linarith, hp⟩, _, .step ha hb hc hd hs, by simp [stepCalls], by simp⟩
    · rintro ⟨⟨hlt, hp⟩, obs, hs, rfl, rfl⟩
      have hdt : 0 < next - t := by linarith
      cases hs with
      | step ha hb hc hd hrest =>
        exact ⟨_, ha, _, by rw [if_pos hdt]; exact hb, _, hc, _, by rw [if_pos hdt]; exact hd, hp, _, hrest, by simp [stepCalls], by simp⟩

/-- the times and `dt`s of a run are those of the timeline -/
lemma Spec.Steps.times {E : Engine W} : ∀ {ts : List ℝ} {w w' : W} {obs : List (ℝ × ℝ × W)}, Steps E ts w obs w' →
    obs.map (fun o => (o.1, o.2.1)) = (ts.zip ts.tail).map fun p => (p.1, p.2 - p.1) := by
  intro ts w w' obs h
  induction h with
  | done t w => rfl
  | step _ _ _ _ _ ih =>
    simp only [List.map_cons, List.tail_cons, List.zip_cons_cons, ih]

/-- C45.  `simulate` with a list of `n` observers returns normally exactly when the timeline is not empty and strictly
increasing and no operation of the world raises; the calls are then exactly: `world.init`, `init` of every observer, for
each pair of successive times `t, t'` the dynamic, controllers and constraints updates with `dt = t' - t`, then `update(dt)`
of every observer with the world still at `t`, then `integrate(dt)`; finally `finish` of every observer.  At the end the
world's time is the last time. -/
theorem C45_run (E : Engine W) (w : W) (tl : List ℝ) (n : ℕ) (tr : List (Ev W)) (w' : W) (t' : ℝ) :
    simulate E w tl (.list n) = (tr, .ok (w', t')) ↔
      ∃ (t0 : ℝ) (rest : List ℝ) (w0 : W) (obs : List (ℝ × ℝ × W)), tl = t0 :: rest ∧ tl.Pairwise (· < ·) ∧
        E.init w = .ok w0 ∧ Steps E tl w0 obs w' ∧ tr = runCalls n t0 w0 tl obs ∧ tl.getLast? = some t' := by
  cases tl with
  | nil => simp [simulate]
  | cons t0 rest =>
    have hfin : ∀ (r : List (Ev W) × Except PyErr (W × ℝ)),
        (match r with
          | (tr, .error x) => (tr, .error x)
          | (tr, .ok r) => (tr ++ (List.range n).map fun i => Ev.obsFinish i, Except.ok r)) = (tr, Except.ok (w', t')) ↔
        ∃ tr1, r = (tr1, .ok (w', t')) ∧ tr = tr1 ++ (List.range n).map fun i => Ev.obsFinish i := by
      rintro ⟨a, b | b⟩ <;> simp
      tauto
    simp only [simulate, Observers.first, Observers.later]
    rw [call_ok_iff]
    constructor
    · rintro ⟨w0, hw0, h⟩
      obtain ⟨tr1, h1, rfl⟩ := (hfin _).mp h
      obtain ⟨hp, obs, hs, rfl, rfl⟩ := (loop_ok_iff E n ..).mp h1
      exact ⟨t0, rest, w0, obs, rfl, hp, hw0, hs, by simp [runCalls], by rw [List.getLast?_eq_getLast_of_ne_nil]⟩
    · rintro ⟨t1, rest1, w0, obs, he, hp, hw0, hs, rfl, hl⟩
      obtain ⟨rfl, rfl⟩ := List.cons.inj he
      refine ⟨w0, hw0, (hfin _).mpr ⟨_, (loop_ok_iff E n ..).mpr ⟨hp, obs, hs, rfl, ?_⟩, ?_⟩⟩
      · rw [List.getLast?_eq_getLast_of_ne_nil (by simp)] at hl
        exact (Option.some.inj hl).symm
      · simp [runCalls]

/-- C45: the successive `(time, dt)` seen by the observers are the timeline's times (but the last) and differences. -/
theorem C45_times {E : Engine W} {tl : List ℝ} {w w' : W} {obs : List (ℝ × ℝ × W)} (h : Steps E tl w obs w') :
    obs.map (fun o => (o.1, o.2.1)) = (tl.zip tl.tail).map fun p => (p.1, p.2 - p.1) := h.times

/-- C45: observers given as a one-shot iterator are initialised, but never updated nor finished. -/
theorem C45_oneShot (E : Engine W) (w : W) (tl : List ℝ) (n : ℕ) :
    ∀ e ∈ (simulate E w tl (.oneShot n)).1, ∀ i, (∀ dt t s, e ≠ .obsUpdate i dt t s) ∧ e ≠ .obsFinish i := by
  have hcall : ∀ {α : Type u} (P : Ev W → Prop) (tr : List (Ev W)) (e : Ev W) (r : Except PyErr α)
      (k : List (Ev W) → α → List (Ev W) × Except PyErr (W × ℝ)), (∀ x ∈ tr, P x) → P e →
      (∀ tr' a, (∀ x ∈ tr', P x) → ∀ x ∈ (k tr' a).1, P x) → ∀ x ∈ (call tr e r k).1, P x := by
    intro α P tr e r k htr he hk
    have h1 : ∀ x ∈ tr ++ [e], P x := by
      intro x hx
      rcases List.mem_append.mp hx with hx | hx
      · exact htr x hx
      · rw [List.mem_singleton.mp hx]; exact he
    cases r with
    | error y => exact h1
    | ok a => exact hk _ a h1
  have hloop : ∀ (rest : List ℝ) (tr : List (Ev W)) (w : W) (t : ℝ),
      (∀ e ∈ tr, ∀ i, (∀ dt t s, e ≠ .obsUpdate i dt t s) ∧ e ≠ .obsFinish i) →
      ∀ e ∈ (loop E 0 rest tr w t).1, ∀ i, (∀ dt t s, e ≠ .obsUpdate i dt t s) ∧ e ≠ .obsFinish i := by
    intro rest
    induction rest with
    | nil => intro tr w t h; exact h
    | cons next rest ih =>
      intro tr w t h
      refine hcall _ _ _ _ _ h (by simp) fun tr a h => ?_
      refine hcall _ _ _ _ _ h (by simp) fun tr a h => ?_
      refine hcall _ _ _ _ _ h (by simp) fun tr a h => ?_
      refine hcall _ _ _ _ _ ?_ (by simp) fun tr a h => ?_
      · simpa using h
      · exact ih _ _ _ h
  cases tl with
  | nil => simp [simulate]
  | cons t0 rest =>
    refine hcall (fun e => ∀ i, (∀ dt t s, e ≠ .obsUpdate i dt t s) ∧ e ≠ .obsFinish i) _ _ _ _ (by simp) (by simp)
      fun tr a h => ?_
    have hl := hloop rest (tr ++ (List.range n).map fun i => Ev.obsInit i t0 a (t0 :: rest)) a t0 (by
      intro e he
      rcases List.mem_append.mp he with he | he
      · exact h e he
      · obtain ⟨j, _, rfl⟩ := List.mem_map.mp he
        simp)
    simp only [Observers.first, Observers.later]
    revert hl
    rcases loop E 0 rest (tr ++ (List.range n).map fun i => Ev.obsInit i t0 a (t0 :: rest)) a t0 with ⟨tr', e | r⟩
    · exact fun h => h
    · intro h; simpa using h

/-- a loop over `rest ++ more` is the loop over `rest` followed by the loop over `more` -/
lemma loop_append (E : Engine W) (n : ℕ) : ∀ (rest more : List ℝ) (tr : List (Ev W)) (w : W) (t : ℝ) (tr' : List (Ev W)) (w' : W) (t' : ℝ),
    loop E n rest tr w t = (tr', .ok (w', t')) → loop E n (rest ++ more) tr w t = loop E n more tr' w' t' := by
  intro rest
  induction rest with
  | nil =>
    intro more tr w t tr' w' t' h
    simp only [loop, Prod.mk.injEq, Except.ok.injEq] at h
    obtain ⟨rfl, rfl, rfl⟩ := h
    rfl
  | cons next rest ih =>
    intro more tr w t tr' w' t' h
    simp only [loop, call_ok_iff] at h
    obtain ⟨a, ha, b, hb, c, hc, d, hd, h⟩ := h
    have := ih more _ _ _ _ _ _ h
    simp only [List.cons_append, loop, call, ha, hb, hc, hd]
    exact this

/-- C46.  A timeline whose part up to `a` can be simulated, followed by a time `b ≤ a`: the run performs exactly the steps
up to `a`, the dynamic update of the next step, and stops in `update_controllers` with `AssertionError`; no `finish`. -/
theorem C46_not_increasing (E : Engine W) (w : W) (pre post : List ℝ) (a b : ℝ) (n : ℕ) (tr : List (Ev W)) (w' : W) (s : W)
    (hpre : simulate E w (pre ++ [a]) (.list n) = (tr, .ok (w', a))) (hb : b ≤ a) (hdyn : E.dynamic w' = .ok s) :
    ∃ t0 w0 obs, Steps E (pre ++ [a]) w0 obs w' ∧
      simulate E w (pre ++ a :: b :: post) (.list n) =
        ([.worldInit] ++ (List.range n).map (fun i => .obsInit i t0 w0 (pre ++ a :: b :: post)) ++ obs.flatMap (stepCalls n) ++
          [.dynamic a, .controllers (b - a)], .error .assertion) := by
  obtain ⟨t0, rest, w0, obs, he, hp, hw0, hs, rfl, hl⟩ := (C45_run ..).mp hpre
  refine ⟨t0, w0, obs, hs, ?_⟩
  have e2 : pre ++ a :: b :: post = t0 :: (rest ++ b :: post) := by
    have : pre ++ a :: b :: post = (pre ++ [a]) ++ (b :: post) := by simp
    rw [this, he]; rfl
  rw [e2]
  simp only [simulate, Observers.first, Observers.later, call, hw0]
  have hloop := (loop_ok_iff E n rest ([] ++ [Ev.worldInit] ++ (List.range n).map fun i =>
    Ev.obsInit i t0 w0 (t0 :: (rest ++ b :: post))) w0 t0 _ w' a).mpr
    ⟨he ▸ hp, obs, he ▸ hs, rfl, by
      rw [he, List.getLast?_eq_getLast_of_ne_nil (by simp)] at hl
      exact (Option.some.inj hl).symm⟩
  rw [loop_append E n _ _ _ _ _ _ _ _ hloop]
  have hneg : ¬ 0 < b - a := by linarith
  simp only [loop, call, hdyn, if_neg hneg]
  simp

/-- C46: an empty timeline is an `IndexError`, before anything is called. -/
theorem C46_empty (E : Engine W) (w : W) (obs : Observers) : simulate E w [] obs = ([], .error .indexError) := rfl

/-- C46: whatever the reason of a failure, no observer is finished. -/
theorem C46_no_finish (E : Engine W) (w : W) (tl : List ℝ) (obs : Observers) (e : PyErr)
    (h : (simulate E w tl obs).2 = .error e) : ∀ x ∈ (simulate E w tl obs).1, ∀ i, x ≠ .obsFinish i := by
  have hcall : ∀ {α : Type u} (P : Ev W → Prop) (tr : List (Ev W)) (e : Ev W) (r : Except PyErr α)
      (k : List (Ev W) → α → List (Ev W) × Except PyErr (W × ℝ)), (∀ x ∈ tr, P x) → P e →
      (∀ tr' a, (∀ x ∈ tr', P x) → r = .ok a → ∀ x ∈ (k tr' a).1, P x) → ∀ x ∈ (call tr e r k).1, P x := by
    intro α P tr e r k htr he hk
    have h1 : ∀ x ∈ tr ++ [e], P x := by
      intro x hx
      rcases List.mem_append.mp hx with hx | hx
      · exact htr x hx
      · rw [List.mem_singleton.mp hx]; exact he
    cases r with
    | error y => exact h1
    | ok a => exact hk _ a h1 rfl
  have hloop : ∀ (n : ℕ) (rest : List ℝ) (tr : List (Ev W)) (w : W) (t : ℝ),
      (∀ e ∈ tr, ∀ i, e ≠ .obsFinish i) → ∀ e ∈ (loop E n rest tr w t).1, ∀ i, e ≠ .obsFinish i := by
    intro n rest
    induction rest with
    | nil => intro tr w t h; exact h
    | cons next rest ih =>
      intro tr w t h
      refine hcall (fun e => ∀ i, e ≠ .obsFinish i) _ _ _ _ h (by simp) fun tr a h _ => ?_
      refine hcall (fun e => ∀ i, e ≠ .obsFinish i) _ _ _ _ h (by simp) fun tr a h _ => ?_
      refine hcall (fun e => ∀ i, e ≠ .obsFinish i) _ _ _ _ h (by simp) fun tr a h _ => ?_
      refine hcall (fun e => ∀ i, e ≠ .obsFinish i) _ _ _ _ ?_ (by simp) fun tr a h _ => ?_
      · intro e he
        rcases List.mem_append.mp he with he | he
        · exact h e he
        · obtain ⟨j, _, rfl⟩ := List.mem_map.mp he
          simp
      · exact ih _ _ _ h
  cases tl with
  | nil => simp [simulate]
  | cons t0 rest =>
    revert h
    simp only [simulate]
    cases hi : E.init w with
    | error y => simp [call]
    | ok a =>
      simp only [call]
      have hl := hloop obs.later rest ([] ++ [Ev.worldInit] ++ (List.range obs.first).map fun i => Ev.obsInit i t0 a (t0 :: rest)) a t0 (by
        intro e he
        simp only [List.nil_append, List.mem_append, List.mem_singleton, List.mem_map] at he
        rcases he with rfl | ⟨j, _, rfl⟩ <;> simp)
      revert hl
      rcases loop E obs.later rest ([] ++ [Ev.worldInit] ++ (List.range obs.first).map fun i => Ev.obsInit i t0 a (t0 :: rest)) a t0 with ⟨tr', x | r⟩
      · exact fun h _ => h
      · intro _ h; simp at h

/-! ### C47 -/

lemma foldlM_other {α : Type v} (f : W → α) (i : ℕ) (r : Recorder α) (l : List (Ev W)) (h : ∀ e ∈ l, ∀ r, Recorder.on f i r e = .ok r) :
    l.foldlM (Recorder.on f i) r = .ok r := by
  induction l with
  | nil => rfl
  | cons e l ih =>
    rw [List.foldlM_cons, h e List.mem_cons_self]
    exact ih fun e he => h e (List.mem_cons_of_mem _ he)

lemma foldlM_range {α : Type v} (f : W → α) (i n : ℕ) (hi : i < n) (r : Recorder α) (g : ℕ → Ev W) (r' : Except PyErr (Recorder α))
    (hg : ∀ j ≠ i, ∀ r, Recorder.on f i r (g j) = .ok r) (hr : Recorder.on f i r (g i) = r') :
    ((List.range n).map g).foldlM (Recorder.on f i) r = r' := by
  have hsplit : List.range n = List.range i ++ i :: (List.range' (i+1) (n - (i+1))) := by
    rw [List.range_eq_range', List.range_eq_range']
    obtain ⟨m, rfl⟩ : ∃ m, n = i + (m + 1) := ⟨n - i - 1, by omega⟩
    rw [← List.range'_append_1 (s := 0) (m := i) (n := m+1), List.range'_succ]
    simp only [zero_add]
    rw [show i + (m+1) - (i+1) = m by omega]
  rw [hsplit, List.map_append, List.foldlM_append, foldlM_other]
  · change List.foldlM _ r _ = _
    rw [List.map_cons, List.foldlM_cons, hr]
    cases r' with
    | error e => rfl
    | ok a =>
      refine foldlM_other f i a _ ?_
      intro e he
      obtain ⟨j, hj, rfl⟩ := List.mem_map.mp he
      exact hg j (by rw [List.mem_range'_1] at hj; omega)
  · intro e he
    obtain ⟨j, hj, rfl⟩ := List.mem_map.mp he
    exact hg j (by rw [List.mem_range] at hj; omega)

lemma recorder_steps {α : Type v} (f : W → α) (i n : ℕ) (hi : i < n) (obs : List (ℝ × ℝ × W)) :
    ∀ (pre : List (Option α)) , (obs.flatMap (stepCalls n)).foldlM (Recorder.on f i)
      ⟨pre ++ List.replicate obs.length none, pre.length⟩ =
      .ok ⟨pre ++ obs.map fun o => some (f o.2.2), pre.length + obs.length⟩ := by
  induction obs with
  | nil => intro pre; simp; rfl
  | cons o obs ih =>
    intro pre
    rw [List.flatMap_cons, List.foldlM_append]
    have h1 : (stepCalls n o).foldlM (Recorder.on f i) ⟨pre ++ List.replicate (o :: obs).length none, pre.length⟩ =
        .ok ⟨(pre ++ [some (f o.2.2)]) ++ List.replicate obs.length none, (pre ++ [some (f o.2.2)]).length⟩ := by
      unfold stepCalls
      rw [List.foldlM_append, List.foldlM_append]
      rw [foldlM_other f i _ [_, _, _] (by simp [Recorder.on])]
      change ((List.foldlM _ _ _ : Except PyErr (Recorder α)) >>= _) = _
      rw [foldlM_range f i n hi _ _ _ (by intro j hj r; simp [Recorder.on, hj]) rfl]
      simp only [Recorder.on, if_true, Recorder.save]
      rw [if_pos (by simp)]
      change List.foldlM _ _ _ = _
      rw [foldlM_other f i _ [_] (by simp [Recorder.on])]
      simp [List.replicate_succ]
    rw [h1]
    have := ih (pre ++ [some (f o.2.2)])
    change List.foldlM _ _ _ = _
    rw [this]
    simp
    omega

/-- C47.  After any run that returns normally, the recorder in position `i` of the list (its earlier content does not
matter) has raised nothing and holds exactly one value per step: the value of the observed quantity in the state shown to
the observers at that step, in order; no entry is `None`. -/
theorem C47_record {α : Type v} (E : Engine W) (w : W) (tl : List ℝ) (n : ℕ) (tr : List (Ev W)) (w' : W) (t' : ℝ)
    (h : simulate E w tl (.list n) = (tr, .ok (w', t'))) (f : W → α) (i : ℕ) (hi : i < n) (r : Recorder α) :
    ∃ w0 obs r', E.init w = .ok w0 ∧ Steps E tl w0 obs w' ∧ tr.foldlM (Recorder.on f i) r = .ok r' ∧
      r'.record = obs.map (fun o => some (f o.2.2)) ∧ r'.record.length = tl.length - 1 := by
  obtain ⟨t0, rest, w0, obs, rfl, hp, hw0, hs, rfl, hl⟩ := (C45_run ..).mp h
  have hlen : obs.length = rest.length := by
    have := congrArg List.length hs.times
    simpa using this
  refine ⟨w0, obs, ⟨obs.map fun o => some (f o.2.2), obs.length⟩, hw0, hs, ?_, rfl, by simp [hlen]⟩
  unfold runCalls
  rw [List.foldlM_append, List.foldlM_append, List.foldlM_append]
  rw [foldlM_other f i r [_] (by simp [Recorder.on])]
  change ((((List.foldlM _ _ _ : Except PyErr (Recorder α)) >>= _) >>= _)) = _
  rw [foldlM_range f i n hi _ _ _ (by intro j hj r; simp [Recorder.on, hj]) rfl]
  simp only [Recorder.on, if_true]
  change ((List.foldlM _ _ _ : Except PyErr (Recorder α)) >>= _) = _
  have := recorder_steps f i n hi obs []
  simp only [List.nil_append, List.length_nil, zero_add, hlen] at this
  unfold Recorder.init
  simp only [List.length_cons, Nat.add_sub_cancel]
  rw [this]
  change List.foldlM _ _ _ = _
  rw [foldlM_other f i _ _ (by
    intro e he r
    obtain ⟨j, _, rfl⟩ := List.mem_map.mp he
    rfl), hlen]

/-- the state is a counter of integrations; three steps with two observers -/
example : ∃ tr, simulate (W := ℕ) ⟨fun _ => .ok 0, .ok, fun _ => .ok, fun _ => .ok, fun _ w => .ok (w + 1)⟩ 7 [0, 1, 3, 4] (.list 2) =
    (tr, .ok (3, 4)) := by
  refine ⟨_, (C45_run _ _ _ _ _ _ _).mpr ⟨0, [1, 3, 4], 0, [(0, 1 - 0, 0), (1, 3 - 1, 1), (3, 4 - 3, 2)], rfl,
    by norm_num, rfl, ?_, rfl, rfl⟩⟩
  exact .step rfl rfl rfl rfl (.step rfl rfl rfl rfl (.step rfl rfl rfl rfl (.done _ _)))

end Arboris
