import Verif.Model.Perf
import Verif.Spec.Perf
import Verif.Props.Logger

/-! # C103: `PerfMonitor` -/

universe u

namespace Arboris
open Sim Spec

variable {W : Type u}

lemma gaps_cons_append (a : ℝ) (l : List ℝ) (b : ℝ) : gaps (a :: (l ++ [b])) = gaps (a :: l) ++ [b - (a :: l).getLast (by simp)] := by
  induction l generalizing a with
  | nil => simp [gaps]
  | cons c l ih =>
    simp only [List.cons_append, gaps, ih c]
    simp

lemma gaps_length (l : List ℝ) : (gaps l).length = l.length - 1 := by
  induction l with
  | nil => rfl
  | cons a l ih =>
    cases l with
    | nil => rfl
    | cons b l => simp only [gaps, List.length_cons, ih]; rfl

lemma gaps_sum (a : ℝ) (l : List ℝ) : (gaps (a :: l)).sum = (a :: l).getLast (by simp) - a := by
  induction l generalizing a with
  | nil => simp [gaps]
  | cons b l ih =>
    simp only [gaps, List.sum_cons, ih b]
    rw [List.getLast_cons (by simp : b :: l ≠ [])]
    ring

lemma gaps_nonneg {l : List ℝ} (h : l.Pairwise (· ≤ ·)) : ∀ x ∈ gaps l, 0 ≤ x := by
  induction l with
  | nil => simp [gaps]
  | cons a l ih =>
    cases l with
    | nil => simp [gaps]
    | cons b l =>
      intro x hx
      obtain ⟨h1, h2⟩ := List.pairwise_cons.mp h
      rcases List.mem_cons.mp hx with rfl | hx
      · have := h1 b List.mem_cons_self; linarith
      · exact ih h2 x hx

/-- the times shown to the observer in position `i` -/
def Spec.timesSeen (i : ℕ) : List (Ev W) → List ℝ :=
  List.filterMap fun e => match e with
    | .obsUpdate j _ t _ => if j = i then some t else none
    | _ => none

lemma perf_on_quiet {clk : ℕ → ℝ} {i : ℕ} {p : Perf} {e : Ev W} {k : ℕ} (h : wakes i e = false) : Perf.on clk i p (e, k) = .ok p := by
  cases e <;> simp_all [wakes, Perf.on]

lemma timesSeen_quiet {i : ℕ} {e : Ev W} (L : List (Ev W)) (h : wakes i e = false) : timesSeen i (e :: L) = timesSeen i L := by
  cases e <;> simp_all [wakes, timesSeen]

lemma perf_quiet (clk : ℕ → ℝ) (i : ℕ) (p : Perf) (L : List (Ev W × ℕ)) (h : ∀ e ∈ L, wakes i e.1 = false) :
    L.foldlM (Perf.on clk i) p = .ok p := by
  induction L with
  | nil => rfl
  | cons e L ih =>
    have h1 : Perf.on clk i p e = .ok p := perf_on_quiet (h e List.mem_cons_self)
    rw [List.foldlM_cons, h1]
    exact ih fun e he => h e (List.mem_cons_of_mem _ he)

lemma perf_updates (clk : ℕ → ℝ) (i : ℕ) (L : List (Ev W × ℕ)) (h : ∀ e ∈ L, ∀ t w tl, e.1 ≠ .obsInit i t w tl) (p : Perf) (l : ℝ) (hp : p.last = some l) :
    ∃ p', L.foldlM (Perf.on clk i) p = .ok p' ∧ p'.log = p.log ∧
      p'.times = p.times ++ gaps (l :: (L.filter fun ek => wakes i ek.1).map fun ek => clk ek.2) ∧
      p'.last = (l :: (L.filter fun ek => wakes i ek.1).map fun ek => clk ek.2).getLast? ∧
      p'.logged = p.logged ++ if p.log then timesSeen i (L.map Prod.fst) else [] := by
  induction L generalizing p l with
  | nil => exact ⟨p, rfl, rfl, by simp [gaps], by simp [hp], by simp [timesSeen]⟩
  | cons e L ih =>
    have hL : ∀ e ∈ L, ∀ t w tl, e.1 ≠ .obsInit i t w tl := fun e he => h e (List.mem_cons_of_mem _ he)
    have h0 := h e List.mem_cons_self
    obtain ⟨e, k⟩ := e
    rw [List.foldlM_cons]
    by_cases hw : wakes i e = true
    · cases e with
      | obsInit j t w tl =>
        simp only [wakes, decide_eq_true_eq] at hw
        subst hw
        exact absurd rfl (h0 t w tl)
      | obsUpdate j dt t w =>
        simp only [wakes, decide_eq_true_eq] at hw
        subst hw
        obtain ⟨p', h1, h2, h3, h4, h5⟩ := ih hL { p with times := p.times ++ [clk k - l], last := some (clk k), logged := if p.log then p.logged ++ [t] else p.logged } (clk k) rfl
        refine ⟨p', ?_, h2, ?_, ?_, ?_⟩
        · have : Perf.on clk j p (Ev.obsUpdate j dt t w, k) = .ok { p with times := p.times ++ [clk k - l], last := some (clk k), logged := if p.log then p.logged ++ [t] else p.logged } := by
            simp [Perf.on, Perf.update, hp]
          rw [this]
          exact h1
        · rw [h3, List.filter_cons_of_pos (by simp [wakes]), List.map_cons]
          simp [gaps]
        · rw [h4, List.filter_cons_of_pos (by simp [wakes]), List.map_cons, List.getLast?_cons_cons]
        · rw [h5]
          cases hl : p.log
          · simp
          · simp only [if_true, List.map_cons]
            simp [timesSeen]
      | worldInit | dynamic | controllers | constraints | integrate | obsFinish => simp [wakes] at hw
    · have h1 : Perf.on clk i p (e, k) = .ok p := perf_on_quiet (by simpa using hw)
      obtain ⟨p', k1, k2, k3, k4, k5⟩ := ih hL p l hp
      refine ⟨p', ?_, k2, ?_, ?_, ?_⟩
      · rw [h1]; exact k1
      · rw [k3, List.filter_cons_of_neg (by simpa using hw)]
      · rw [k4, List.filter_cons_of_neg (by simpa using hw)]
      · rw [k5]
        congr 1
        rw [List.map_cons, timesSeen_quiet _ (by simpa using hw)]

lemma range_split_at {n i : ℕ} (hi : i < n) : List.range n = List.range i ++ i :: (List.range' (i+1) (n - (i+1))) := by
  rw [List.range_eq_range', List.range_eq_range']
  obtain ⟨m, rfl⟩ : ∃ m, n = i + (m + 1) := ⟨n - i - 1, by omega⟩
  rw [← List.range'_append_1 (s := 0) (m := i) (n := m+1), List.range'_succ]
  simp only [zero_add]
  rw [show i + (m+1) - (i+1) = m by omega]

lemma run_split {i n : ℕ} (hi : i < n) (t0 : ℝ) (w0 : W) (tl : List ℝ) (obs : List (ℝ × ℝ × W)) :
    ∃ pre post, runCalls n t0 w0 tl obs = pre ++ .obsInit i t0 w0 tl :: post ∧ (∀ e ∈ pre, wakes i e = false) ∧
      (∀ e ∈ post, ∀ t w tl, e ≠ .obsInit i t w tl) ∧ timesSeen i post = obs.map Prod.fst ∧ (post.filter (wakes i)).length = obs.length := by
  refine ⟨.worldInit :: (List.range i).map (fun j => .obsInit j t0 w0 tl),
    (List.range' (i+1) (n - (i+1))).map (fun j => .obsInit j t0 w0 tl) ++ obs.flatMap (stepCalls n) ++ (List.range n).map fun j => .obsFinish j, ?_, ?_, ?_, ?_, ?_⟩
  · conv_lhs => rw [runCalls, show (List.range n).map (fun i => (.obsInit i t0 w0 tl : Ev W)) = (List.range i ++ i :: (List.range' (i+1) (n - (i+1)))).map (fun i => .obsInit i t0 w0 tl) by rw [← range_split_at hi]]
    simp
  · intro e he
    rcases List.mem_cons.mp he with rfl | he
    · rfl
    · obtain ⟨j, hj, rfl⟩ := List.mem_map.mp he
      have := List.mem_range.mp hj
      simp only [wakes, decide_eq_false_iff_not]; omega
  · intro e he t w tl'
    simp only [List.mem_append, List.mem_map, List.mem_flatMap, stepCalls] at he
    rcases he with (⟨j, hj, rfl⟩ | ⟨o, -, ho⟩) | ⟨j, -, rfl⟩
    · rw [List.mem_range'_1] at hj
      simp only [ne_eq, Ev.obsInit.injEq, not_and]; omega
    · rcases ho with (ho | ⟨j, -, rfl⟩) | ho
      · simp only [List.mem_cons, List.not_mem_nil, or_false] at ho
        rcases ho with rfl | rfl | rfl <;> simp
      · simp
      · simp only [List.mem_cons, List.not_mem_nil, or_false] at ho
        subst ho; simp
    · simp
  · have hz1 : timesSeen i ((List.range' (i+1) (n - (i+1))).map fun j => (Ev.obsInit j t0 w0 tl : Ev W)) = [] := by
      rw [timesSeen, List.filterMap_eq_nil_iff]
      intro x hx
      obtain ⟨j, _, rfl⟩ := List.mem_map.mp hx
      rfl
    have hz2 : timesSeen i ((List.range n).map fun j => (Ev.obsFinish j : Ev W)) = [] := by
      rw [timesSeen, List.filterMap_eq_nil_iff]
      intro x hx
      obtain ⟨j, _, rfl⟩ := List.mem_map.mp hx
      rfl
    have hz3 : timesSeen i (obs.flatMap (stepCalls n)) = obs.map Prod.fst := by
      induction obs with
      | nil => rfl
      | cons o obs ih =>
        have : timesSeen i (stepCalls n o) = [o.1] := by
          have hr : ((List.range n).map (fun j => (Ev.obsUpdate j o.2.1 o.1 o.2.2 : Ev W))).filterMap (fun e => match e with
              | .obsUpdate j _ t _ => if j = i then some t else none
              | _ => none) = [o.1] := by
            rw [range_split_at hi, List.map_append, List.filterMap_append, List.map_cons, List.filterMap_cons]
            rw [List.filterMap_eq_nil_iff.mpr, List.filterMap_eq_nil_iff.mpr]
            · simp
            · intro x hx
              obtain ⟨j, hj, rfl⟩ := List.mem_map.mp hx
              rw [List.mem_range'_1] at hj
              simp; omega
            · intro x hx
              obtain ⟨j, hj, rfl⟩ := List.mem_map.mp hx
              have := List.mem_range.mp hj
              simp; omega
          unfold timesSeen stepCalls
          rw [List.filterMap_append, List.filterMap_append, hr]
          rfl
        rw [List.flatMap_cons, timesSeen, List.filterMap_append]
        change timesSeen i _ ++ timesSeen i _ = _
        rw [this, ih]; rfl
    unfold timesSeen at hz1 hz2 hz3 ⊢
    rw [List.filterMap_append, List.filterMap_append, hz1, hz2, hz3]
    simp
  · have hz1 : ((List.range' (i+1) (n - (i+1))).map fun j => (Ev.obsInit j t0 w0 tl : Ev W)).filter (wakes i) = [] := by
      rw [List.filter_eq_nil_iff]
      intro x hx
      obtain ⟨j, hj, rfl⟩ := List.mem_map.mp hx
      rw [List.mem_range'_1] at hj
      simp [wakes]; omega
    have hz2 : ((List.range n).map fun j => (Ev.obsFinish j : Ev W)).filter (wakes i) = [] := by
      rw [List.filter_eq_nil_iff]
      intro x hx
      obtain ⟨j, _, rfl⟩ := List.mem_map.mp hx
      simp [wakes]
    have hz3 : ((obs.flatMap (stepCalls n)).filter (wakes i)).length = obs.length := by
      induction obs with
      | nil => rfl
      | cons o obs ih =>
        have hr : ((List.range n).map (fun j => (Ev.obsUpdate j o.2.1 o.1 o.2.2 : Ev W))).filter (wakes i) = [.obsUpdate i o.2.1 o.1 o.2.2] := by
          rw [range_split_at hi, List.map_append, List.filter_append, List.map_cons, List.filter_cons_of_pos (by simp [wakes])]
          rw [List.filter_eq_nil_iff.mpr, List.filter_eq_nil_iff.mpr]
          · simp
          · intro x hx
            obtain ⟨j, hj, rfl⟩ := List.mem_map.mp hx
            rw [List.mem_range'_1] at hj
            simp [wakes]; omega
          · intro x hx
            obtain ⟨j, hj, rfl⟩ := List.mem_map.mp hx
            have := List.mem_range.mp hj
            simp [wakes]; omega
        rw [List.flatMap_cons, List.filter_append, List.length_append, ih]
        unfold stepCalls
        rw [List.filter_append, List.filter_append, hr]
        simp [wakes]; omega
    rw [List.filter_append, List.filter_append, hz1, hz2, List.nil_append, List.append_nil, hz3]

lemma steps_starts {E : Engine W} {t0 : ℝ} {rest : List ℝ} {w w' : W} {obs : List (ℝ × ℝ × W)} (hs : Steps E (t0 :: rest) w obs w') :
    obs.map Prod.fst = (t0 :: rest).dropLast := by
  have := congrArg (List.map Prod.fst) hs.times
  rw [List.map_map, List.map_map] at this
  rw [show obs.map Prod.fst = obs.map (Prod.fst ∘ fun o => (o.1, o.2.1)) from rfl, this]
  clear * -
  induction rest generalizing t0 with
  | nil => rfl
  | cons a rest ih =>
    simp only [List.tail_cons, List.zip_cons_cons, List.map_cons, List.dropLast_cons₂]
    exact congrArg _ (ih (t0 := a))

/-- C103: after any run that returns normally, whatever the clock and the earlier use of the monitor, its list has been extended by one
duration per step: the times elapsed between the successive calls of its methods, from `init` on.  Nothing is raised.  If it logs, it
has written the start times of the steps. -/
theorem C103_times (E : Engine W) (w : W) (tl : List ℝ) (n : ℕ) (tr : List (Ev W)) (w' : W) (t' : ℝ)
    (h : simulate E w tl (.list n) = (tr, .ok (w', t'))) (clk : ℕ → ℝ) (i : ℕ) (hi : i < n) (p : Perf) :
    (stamps clk i tr).length = tl.length ∧
    ∃ p', tr.zipIdx.foldlM (Perf.on clk i) p = .ok p' ∧ p'.log = p.log ∧ p'.times = p.times ++ gaps (stamps clk i tr) ∧
      p'.logged = p.logged ++ if p.log then tl.dropLast else [] := by
  obtain ⟨t0, rest, w0, obs, rfl, hp, hw0, hs, rfl, hl⟩ := (C45_run ..).mp h
  obtain ⟨pre, post, h1, h2, h3, h4, h5⟩ := run_split hi t0 w0 (t0 :: rest) obs
  have hlen : obs.length = rest.length := by
    have := congrArg List.length hs.times
    simpa using this
  rw [h1]
  have hmem : ∀ {l : List (Ev W)} {k : ℕ} {e : Ev W × ℕ}, e ∈ l.zipIdx k → e.1 ∈ l := by
    intro l k e he
    obtain ⟨-, -, h⟩ := List.mem_zipIdx (x := e.1) (i := e.2) he
    rw [h]; exact List.getElem_mem _
  have hst : stamps clk i (pre ++ .obsInit i t0 w0 (t0 :: rest) :: post) =
      clk pre.length :: ((post.zipIdx (pre.length + 1)).filter fun ek => wakes i ek.1).map fun ek => clk ek.2 := by
    rw [stamps, List.zipIdx_append, List.filter_append, List.filter_eq_nil_iff.mpr, List.nil_append, List.zipIdx_cons,
      List.filter_cons_of_pos (by simp [wakes])]
    · simp
    · intro e he
      rw [h2 _ (hmem he)]; simp
  constructor
  · rw [hst, List.length_cons, List.length_map, List.length_cons]
    congr 1
    have : ∀ (l : List (Ev W)) (k : ℕ), ((l.zipIdx k).filter fun ek => wakes i ek.1).length = (l.filter (wakes i)).length := by
      intro l
      induction l with
      | nil => intro k; rfl
      | cons e l ih =>
        intro k
        rw [List.zipIdx_cons, List.filter_cons, List.filter_cons]
        by_cases he : wakes i e = true
        · simp only [he, if_true, List.length_cons, ih]
        · simp only [he]; exact ih _
    rw [this, h5, hlen]
  · obtain ⟨p', k1, k2, k3, -, k5⟩ := perf_updates clk i (post.zipIdx (pre.length + 1)) (fun e he => h3 _ (hmem he)) (p.init (clk pre.length)) _ rfl
    refine ⟨p', ?_, k2, ?_, ?_⟩
    · rw [List.zipIdx_append, List.foldlM_append, perf_quiet clk i p _ (fun e he => h2 _ (hmem he)), List.zipIdx_cons]
      change List.foldlM _ p _ = _
      rw [List.foldlM_cons]
      have : Perf.on clk i p ((Ev.obsInit i t0 w0 (t0 :: rest) : Ev W), 0 + pre.length) = .ok (p.init (clk pre.length)) := by
        simp [Perf.on]
      rw [this, Nat.zero_add]
      exact k1
    · rw [k3, hst]; rfl
    · rw [k5, List.zipIdx_map_fst, h4, steps_starts hs]; rfl

/-- C103: the durations add up to the time elapsed from the call of `init` to the last `update`; they are not negative if the clock
does not go back. -/
theorem C103_elapsed (clk : ℕ → ℝ) (i : ℕ) (tr : List (Ev W)) (hne : stamps clk i tr ≠ []) :
    (gaps (stamps clk i tr)).sum = (stamps clk i tr).getLast hne - (stamps clk i tr).head hne ∧
    (gaps (stamps clk i tr)).length = (stamps clk i tr).length - 1 ∧
    (Monotone clk → ∀ x ∈ gaps (stamps clk i tr), 0 ≤ x) := by
  refine ⟨?_, gaps_length _, fun hm => gaps_nonneg ?_⟩
  · generalize stamps clk i tr = s at hne
    cases s with
    | nil => exact absurd rfl hne
    | cons a l => exact gaps_sum a l
  · unfold stamps
    rw [List.pairwise_map]
    refine List.Pairwise.filter _ ?_
    have : (tr.zipIdx.map Prod.snd).Pairwise (· < ·) := by
      rw [List.zipIdx_map_snd]
      exact List.pairwise_lt_range'
    rw [List.pairwise_map] at this
    exact this.imp fun h => hm h.le

lemma pyMin_spec (x : ℝ) (l : List ℝ) : pyMin x l ∈ x :: l ∧ ∀ y ∈ x :: l, pyMin x l ≤ y := by
  induction l generalizing x with
  | nil => simp [pyMin]
  | cons b l ih =>
    have he : pyMin x (b :: l) = pyMin (if b < x then b else x) l := rfl
    obtain ⟨h1, h2⟩ := ih (if b < x then b else x)
    rw [he]
    refine ⟨?_, ?_⟩
    · rcases List.mem_cons.mp h1 with h | h
      · rw [h]; split_ifs <;> simp
      · exact List.mem_cons_of_mem _ (List.mem_cons_of_mem _ h)
    · intro y hy
      have h3 := h2 _ List.mem_cons_self
      rcases List.mem_cons.mp hy with rfl | hy
      · refine h3.trans ?_
        split_ifs with hb
        · exact hb.le
        · exact le_rfl
      · rcases List.mem_cons.mp hy with rfl | hy
        · refine h3.trans ?_
          split_ifs with hb
          · exact le_rfl
          · exact not_lt.mp hb
        · exact h2 y (List.mem_cons_of_mem _ hy)

lemma pyMax_spec (x : ℝ) (l : List ℝ) : pyMax x l ∈ x :: l ∧ ∀ y ∈ x :: l, y ≤ pyMax x l := by
  induction l generalizing x with
  | nil => simp [pyMax]
  | cons b l ih =>
    have he : pyMax x (b :: l) = pyMax (if x < b then b else x) l := rfl
    obtain ⟨h1, h2⟩ := ih (if x < b then b else x)
    rw [he]
    refine ⟨?_, ?_⟩
    · rcases List.mem_cons.mp h1 with h | h
      · rw [h]; split_ifs <;> simp
      · exact List.mem_cons_of_mem _ (List.mem_cons_of_mem _ h)
    · intro y hy
      have h3 := h2 _ List.mem_cons_self
      rcases List.mem_cons.mp hy with rfl | hy
      · refine le_trans ?_ h3
        split_ifs with hb
        · exact hb.le
        · exact le_rfl
      · rcases List.mem_cons.mp hy with rfl | hy
        · refine le_trans ?_ h3
          split_ifs with hb
          · exact le_rfl
          · exact not_lt.mp hb
        · exact h2 y (List.mem_cons_of_mem _ hy)

lemma foldl_add_sum (l : List ℝ) (a : ℝ) : l.foldl (· + ·) a = a + l.sum := by
  induction l generalizing a with
  | nil => simp
  | cons b l ih => rw [List.foldl_cons, ih, List.sum_cons]; ring

lemma sum_between {l : List ℝ} {a b : ℝ} (h : ∀ y ∈ l, a ≤ y ∧ y ≤ b) : l.length * a ≤ l.sum ∧ l.sum ≤ l.length * b := by
  induction l with
  | nil => simp
  | cons x l ih =>
    obtain ⟨h1, h2⟩ := ih fun y hy => h y (List.mem_cons_of_mem _ hy)
    obtain ⟨h3, h4⟩ := h x List.mem_cons_self
    simp only [List.sum_cons, List.length_cons, Nat.cast_add, Nat.cast_one]
    constructor <;> nlinarith

/-- C103: the summary of a monitor that has seen a step shows the sum of the durations, their mean, the smallest and the largest; the
mean is between the extremes.  Before any step, `get_summary` raises `ValueError`. -/
theorem C103_summary (p : Perf) : (p.times = [] → p.summary = .error .valueError) ∧
    (p.times ≠ [] → ∃ total lo mean hi, p.summary = .ok (total, lo, mean, hi) ∧ total = p.times.sum ∧ mean * p.times.length = total ∧
      lo ∈ p.times ∧ hi ∈ p.times ∧ (∀ x ∈ p.times, lo ≤ x ∧ x ≤ hi) ∧ lo ≤ mean ∧ mean ≤ hi) := by
  refine ⟨fun h => by simp [Perf.summary, h], fun h => ?_⟩
  cases ht : p.times with
  | nil => exact absurd ht h
  | cons x l =>
    obtain ⟨a1, a2⟩ := pyMin_spec x l
    obtain ⟨b1, b2⟩ := pyMax_spec x l
    have hpos : (0 : ℝ) < (x :: l).length := by simp; positivity
    obtain ⟨c1, c2⟩ := sum_between (l := x :: l) fun y hy => ⟨a2 y hy, b2 y hy⟩
    refine ⟨(x :: l).sum, pyMin x l, (x :: l).sum / (x :: l).length, pyMax x l, ?_, rfl, div_mul_cancel₀ _ hpos.ne', a1, b1,
      fun y hy => ⟨a2 y hy, b2 y hy⟩, ?_, ?_⟩
    · simp only [Perf.summary, ht]
      rw [foldl_add_sum, zero_add]
    · rw [le_div_iff₀ hpos]; linarith
    · rw [div_le_iff₀ hpos]; linarith

/-- a monitor after two simulations of two steps and one step: three durations -/
example (clk : ℕ → ℝ) (w : ℕ) : ∃ tr, simulate (W := ℕ) ⟨.ok, .ok, fun _ => .ok, fun _ => .ok, fun _ w => .ok (w + 1)⟩ w [0, 1, 3] (.list 1) = (tr, .ok (w + 2, 3)) ∧
    ∃ p, tr.zipIdx.foldlM (Perf.on clk 0) (Perf.new true) = .ok p ∧ p.times = [clk 5 - clk 1, clk 10 - clk 5] ∧ p.logged = [0, 1] := by
  have h : simulate (W := ℕ) ⟨.ok, .ok, fun _ => .ok, fun _ => .ok, fun _ w => .ok (w + 1)⟩ w [0, 1, 3] (.list 1) = (_, .ok (w + 2, 3)) :=
    (C45_run _ _ _ _ _ _ _).mpr ⟨0, [1, 3], w, [(0, 1 - 0, w), (1, 3 - 1, w + 1)], rfl, by norm_num, rfl,
      .step rfl rfl rfl rfl (.step rfl rfl rfl rfl (.done _ _)), rfl, rfl⟩
  obtain ⟨-, p, h1, -, h3, h4⟩ := C103_times _ _ _ _ _ _ _ h clk 0 (by norm_num) (Perf.new true)
  refine ⟨_, h, p, h1, ?_, ?_⟩
  · rw [h3]; simp [Perf.new, stamps, runCalls, stepCalls, wakes, gaps, List.zipIdx]
  · rw [h4]; simp [Perf.new]

end Arboris
