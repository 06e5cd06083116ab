import Verif.Props.World

/-!
# C88: interrupting, resuming and shifting a simulation
-/

namespace Arboris
open Matrix Spec Mech Build Sim

noncomputable section

lemma number_numbered {a : ℕ} {F : Forest MLink Body} (h : Numbered a F.links) : (number a F).1 = F := by
  induction F generalizing a with
  | nil => rfl
  | cons l b ch sib ih1 ih2 =>
    simp only [Forest.links, List.cons_append, Numbered] at h
    obtain ⟨h1, h2⟩ := h
    obtain ⟨h3, h4⟩ := Numbered.append.mp h2
    have e2 := (number_spec (a + l.att.ndof) ch).2.1
    simp only [ndof] at e2
    simp only [number]
    rw [ih1 h3, e2, ih2 h4]
    subst h1
    rfl

lemma numbered_cover {a d : ℕ} {ls : List MLink} (h : Numbered a ls) (h1 : a ≤ d)
    (h2 : d < a + (ls.map fun l => l.att.ndof).sum) : ∃ l ∈ ls, l.start ≤ d ∧ d < l.start + l.att.ndof := by
  induction ls generalizing a with
  | nil => simp at h2; omega
  | cons x ls ih =>
    obtain ⟨h3, h4⟩ := h
    simp only [List.map_cons, List.sum_cons] at h2
    by_cases hd : d < a + x.att.ndof
    · exact ⟨x, by simp, by omega, by omega⟩
    · obtain ⟨l, hl, h5⟩ := ih h4 (by omega) (by omega)
      exact ⟨l, by simp [hl], h5⟩

lemma gather_hasVel {n : ℕ} {ls : List MLink} {ν : Fin n → ℝ} (h : Numbered 0 ls) (hv : ∀ l ∈ ls, HasVel ν l)
    (hn : (ls.map fun l => l.att.ndof).sum = n) : gather ls = ν := by
  funext d
  obtain ⟨l, hl, h1, h2⟩ := numbered_cover h (Nat.zero_le d.val) (by have := d.isLt; omega)
  have h3 := ((hasVel_iff ν l).mp (hv l hl)).2 (d.val - l.start) (by omega) (by have := d.isLt; omega)
  have h4 := gather_spec (n := n) h 0 hl (d.val - l.start) (by omega) (by have := d.isLt; omega)
  have e : (⟨l.start + (d.val - l.start), by have := d.isLt; omega⟩ : Fin n) = d := by
    apply Fin.ext; simp only; omega
  rw [e] at h3 h4
  rw [h3]
  exact h4

/-- `init` on a world left by a simulation: the state does not change. -/
lemma init_again {n : ℕ} {σ : Type} {w : MWorld n σ} (h : Numbered 0 w.tree.links) (hv : ∀ l ∈ w.tree.links, HasVel w.gvel l)
    (hn : ndof w.tree = n) : ∃ w0, Mech.init w = .ok w0 ∧ SameState w w0 := by
  refine ⟨_, rfl, ?_, ?_, rfl, rfl⟩
  · exact (number_numbered h).symm
  · simp only [number_numbered h]
    exact (gather_hasVel h hv hn).symm

lemma Spec.JMoved.ndof {n : ℕ} {dt : ℝ} {ν : Fin n → ℝ} {s : ℕ} {a b : JAttr} (h : JMoved dt ν s a b) : b.ndof = a.ndof := by
  cases h <;> rfl

lemma numbered_moved {n : ℕ} {dt : ℝ} {ν : Fin n → ℝ} {ls ls' : List MLink} (h : List.Forall₂ (Moved dt ν) ls ls') {a : ℕ} :
    (Numbered a ls → Numbered a ls') ∧ (ls'.map fun l => l.att.ndof).sum = (ls.map fun l => l.att.ndof).sum := by
  induction h generalizing a with
  | nil => exact ⟨id, rfl⟩
  | cons hm _ ih =>
    have e := hm.joint.ndof
    refine ⟨?_, ?_⟩
    · rintro ⟨h1, h2⟩
      refine ⟨by rw [hm.start, h1], ?_⟩
      rw [e]; exact ih.1 h2
    · simp only [List.map_cons, List.sum_cons, e, (ih (a := a)).2]

lemma evolves_numbered {n : ℕ} {σ : Type} {P : Plug n σ} {tl : List ℝ} {w w' : MWorld n σ} {obs : List (ℝ × ℝ × MWorld n σ)}
    (h : Evolves P tl w obs w') (h1 : Numbered 0 w.tree.links) (h2 : ∀ l ∈ w.tree.links, HasVel w.gvel l) (h3 : ndof w.tree = n) :
    Numbered 0 w'.tree.links ∧ (∀ l ∈ w'.tree.links, HasVel w'.gvel l) ∧ ndof w'.tree = n := by
  induction h with
  | done => exact ⟨h1, h2, h3⟩
  | step hs _ ih =>
    have hf := numbered_moved (a := 0) hs.tree.links.1
    exact ih (hf.1 h1) hs.vel (by rw [Mech.ndof, hf.2]; exact h3)

lemma steps_same {n : ℕ} {σ : Type} {P : Plug n σ} (hP : Forgetful P) {tl : List ℝ} {w w' v : MWorld n σ}
    {obs : List (ℝ × ℝ × MWorld n σ)} (h : Steps (engine P) tl w obs w') (hv : SameState w v) :
    ∃ v', Steps (engine P) tl v obs v' ∧ SameState w' v' := by
  cases h with
  | done t => exact ⟨v, .done t v, hv⟩
  | step hd hc hk hi hrest =>
    refine ⟨w', ?_, ⟨rfl, rfl, rfl, rfl⟩⟩
    obtain ⟨tree, gvel, dyn, mass, visc, nle, ctrl, cons, mem⟩ := w
    obtain ⟨tree', gvel', dyn', mass', visc', nle', ctrl', cons', mem'⟩ := v
    obtain ⟨h1, h2, h3, h4⟩ := hv
    simp only at h1 h2 h3 h4
    subst h1 h2 h3 h4
    simp only [engine, dynamic] at hd
    split at hd
    · cases hd
    · rename_i d hdy
      obtain rfl := Except.ok.inj hd
      refine .step (a := ⟨tree, gvel, d, worldMass d, worldViscosity d, worldNleffects d, ctrl', cons, mem⟩) ?_ ?_ hk hi hrest
      · simp only [engine, dynamic, hdy]
      · rw [← hc]
        have := hP ⟨tree, gvel, d, worldMass d, worldViscosity d, worldNleffects d, ctrl, cons, mem⟩ ctrl'
        simp only [engine, controllers]
        rw [← this]

lemma steps_append {W : Type*} {E : Engine W} {tl : List ℝ} {w w1 w2 : W} {t : ℝ} {tl2 : List ℝ} {obs obs2 : List (ℝ × ℝ × W)}
    (h : Steps E (tl ++ [t]) w obs w1) (h2 : Steps E (t :: tl2) w1 obs2 w2) : Steps E (tl ++ t :: tl2) w (obs ++ obs2) w2 := by
  induction tl generalizing w obs with
  | nil => cases h with | done => simpa using h2
  | cons x tl ih =>
    cases tl with
    | nil =>
      cases h with
      | step a b c d e => cases e with | done => exact .step a b c d h2
    | cons y tl =>
      cases h with
      | step a b c d e => exact .step a b c d (ih e)

lemma steps_split {W : Type*} {E : Engine W} {tl : List ℝ} {w w2 : W} {t : ℝ} {tl2 : List ℝ} {obs : List (ℝ × ℝ × W)}
    (h : Steps E (tl ++ t :: tl2) w obs w2) : ∃ w1 obs1 obs2, obs = obs1 ++ obs2 ∧ Steps E (tl ++ [t]) w obs1 w1 ∧
      Steps E (t :: tl2) w1 obs2 w2 := by
  induction tl generalizing w obs with
  | nil => exact ⟨w, [], obs, rfl, .done t w, h⟩
  | cons x tl ih =>
    cases tl with
    | nil =>
      cases h with
      | step a b c d e => exact ⟨_, _, _, rfl, .step a b c d (.done _ _), e⟩
    | cons y tl =>
      cases h with
      | step a b c d e =>
        obtain ⟨w1, o1, o2, rfl, h1, h2⟩ := ih e
        exact ⟨w1, _, o2, rfl, .step a b c d h1, h2⟩

lemma updates_runCalls {W : Type*} (k : ℕ) (t0 : ℝ) (w0 : W) (tl : List ℝ) (obs : List (ℝ × ℝ × W)) :
    updates (runCalls k t0 w0 tl obs) = obs.flatMap fun o => (List.range k).map fun i => (i, o.2.1, o.1, o.2.2) := by
  have h1 : ∀ l : List ℕ, (l.map fun i => (Ev.obsInit i t0 w0 tl : Ev W)).filterMap shownTo = [] := by
    intro l; induction l with
    | nil => rfl
    | cons a l ih => simpa [shownTo] using ih
  have h2 : ∀ l : List ℕ, (l.map fun i => (Ev.obsFinish i : Ev W)).filterMap shownTo = [] := by
    intro l; induction l with
    | nil => rfl
    | cons a l ih => simpa [shownTo] using ih
  have h3 : ∀ (l : List ℕ) (o : ℝ × ℝ × W), (l.map fun i => (Ev.obsUpdate i o.2.1 o.1 o.2.2 : Ev W)).filterMap shownTo =
      l.map fun i => (i, o.2.1, o.1, o.2.2) := by
    intro l o; induction l with
    | nil => rfl
    | cons a l ih => simpa [shownTo] using ih
  have h4 : ∀ o : ℝ × ℝ × W, (stepCalls k o).filterMap shownTo = (List.range k).map fun i => (i, o.2.1, o.1, o.2.2) := by
    intro o
    have e1 : [Ev.dynamic o.1, Ev.controllers o.2.1, (Ev.constraints o.2.1 : Ev W)].filterMap shownTo = [] := rfl
    have e2 : [(Ev.integrate o.2.1 : Ev W)].filterMap shownTo = [] := rfl
    rw [stepCalls, List.filterMap_append, List.filterMap_append, h3, e1, e2, List.nil_append, List.append_nil]
  simp only [updates, runCalls, List.filterMap_append, h1, h2, List.append_nil]
  rw [List.filterMap_flatMap]
  simp only [h4]
  rfl

/-- the hypotheses of `C88_resume` can be met -/
example : Forgetful noPlug ∧ ndof top.tree = 1 := ⟨fun _ _ => rfl, (C87_example [0] (by simp) (by simp) 0).1⟩

/-- C88: a simulation can be interrupted at any time `t` of its timeline and resumed: with controllers that do not look at the
forces of the previous step, `simulate` over `tl ++ [t]` and then over `t :: tl2` succeeds exactly when `simulate` over
`tl ++ t :: tl2` does, shows the same worlds to the observers, and ends in the same state. -/
theorem C88_resume {n : ℕ} {σ : Type} {P : Plug n σ} (hP : Forgetful P) {w : MWorld n σ} (hn : ndof w.tree = n) (tl tl2 : List ℝ)
    (t t2 : ℝ) (k : ℕ) (us : List (ℕ × ℝ × ℝ × MWorld n σ)) (v : MWorld n σ) :
    (∃ tr w2, simulate (engine P) w (tl ++ t :: tl2) (.list k) = (tr, .ok (w2, t2)) ∧ SameState w2 v ∧ updates tr = us) ↔
    ∃ tr1 w1 tr2 w2, simulate (engine P) w (tl ++ [t]) (.list k) = (tr1, .ok (w1, t)) ∧
      simulate (engine P) w1 (t :: tl2) (.list k) = (tr2, .ok (w2, t2)) ∧ SameState w2 v ∧ updates tr1 ++ updates tr2 = us := by
  constructor
  · rintro ⟨tr, w2, h, hs, hu⟩
    obtain ⟨t0, rest, w0, obs, h1, h2, h3, h4, rfl, h5⟩ := (C45_run ..).mp h
    obtain ⟨w1, o1, o2, rfl, h6, h7⟩ := steps_split h4
    obtain ⟨w0', h8, h9⟩ := init_started hn
    obtain rfl : w0' = w0 := Except.ok.inj (h8.symm.trans h3)
    have h10 := evolves_numbered (steps_evolves h6 h9.vel) h9.numbered h9.vel (by
      have := number_spec 0 w.tree
      obtain rfl := Except.ok.inj h8
      exact this.2.2.trans hn)
    obtain ⟨w1', h11, h12⟩ := init_again h10.1 h10.2.1 h10.2.2
    obtain ⟨w2', h13, h14⟩ := steps_same hP h7 h12
    obtain ⟨r, hr⟩ : ∃ r, tl ++ [t] = t0 :: r := by
      cases tl with
      | nil => simp only [List.nil_append, List.cons.injEq] at h1; exact ⟨[], by rw [h1.1]; rfl⟩
      | cons x tl => simp only [List.cons_append, List.cons.injEq] at h1; exact ⟨tl ++ [t], by rw [h1.1]; rfl⟩
    have hp := List.pairwise_append.mp h2
    refine ⟨_, w1, _, w2', (C45_run ..).mpr ⟨t0, r, w0', o1, hr, ?_, h3, h6, rfl, by simp⟩,
      (C45_run ..).mpr ⟨t, tl2, w1', o2, rfl, hp.2.1, h11, h13, rfl, ?_⟩,
      ⟨h14.tree.symm.trans hs.tree, h14.gvel.symm.trans hs.gvel, h14.cons.symm.trans hs.cons, h14.mem.symm.trans hs.mem⟩, ?_⟩
    · rw [List.pairwise_append]
      exact ⟨hp.1, by simp, fun a ha b hb => hp.2.2 a ha b (by simp at hb; simp [hb])⟩
    · rw [List.getLast?_append] at h5
      cases hl : (t :: tl2).getLast? with
      | none => simp at hl
      | some x => rw [hl] at h5; simpa using h5
    · rw [← hu, updates_runCalls, updates_runCalls, updates_runCalls, List.flatMap_append]
  · rintro ⟨tr1, w1, tr2, w2, h, h', hs, hu⟩
    obtain ⟨t0, rest, w0, obs, h1, h2, h3, h4, rfl, h5⟩ := (C45_run ..).mp h
    obtain ⟨t0', rest', w0', obs', h1', h2', h3', h4', rfl, h5'⟩ := (C45_run ..).mp h'
    obtain ⟨rfl, rfl⟩ := List.cons.inj h1'
    obtain ⟨w0'', h8, h9⟩ := init_started hn
    obtain rfl : w0'' = w0 := Except.ok.inj (h8.symm.trans h3)
    have h10 := evolves_numbered (steps_evolves h4 h9.vel) h9.numbered h9.vel (by
      have := number_spec 0 w.tree
      obtain rfl := Except.ok.inj h8
      exact this.2.2.trans hn)
    obtain ⟨w1', h11, h12⟩ := init_again h10.1 h10.2.1 h10.2.2
    obtain rfl : w1' = w0' := Except.ok.inj (h11.symm.trans h3')
    obtain ⟨w2', h13, h14⟩ := steps_same hP h4' (v := w1) ⟨h12.tree.symm, h12.gvel.symm, h12.cons.symm, h12.mem.symm⟩
    have h15 := steps_append h4 h13
    obtain ⟨r, hr⟩ : ∃ r, tl ++ t :: tl2 = t0 :: r := by
      cases tl with
      | nil => simp only [List.nil_append, List.cons.injEq] at h1; exact ⟨tl2, by rw [h1.1]; rfl⟩
      | cons x tl => simp only [List.cons_append, List.cons.injEq] at h1; exact ⟨tl ++ t :: tl2, by rw [h1.1]; rfl⟩
    have hp := List.pairwise_append.mp h2
    refine ⟨_, w2', (C45_run ..).mpr ⟨t0, r, w0'', obs ++ obs', hr, ?_, h3, h15, rfl, ?_⟩,
      ⟨h14.tree.symm.trans hs.tree, h14.gvel.symm.trans hs.gvel, h14.cons.symm.trans hs.cons, h14.mem.symm.trans hs.mem⟩, ?_⟩
    · rw [List.pairwise_append]
      refine ⟨hp.1, h2', fun a ha b hb => ?_⟩
      have hat := hp.2.2 a ha t (by simp)
      rcases List.mem_cons.mp hb with rfl | hb
      · exact hat
      · exact hat.trans ((List.pairwise_cons.mp h2').1 b hb)
    · rw [List.getLast?_append, h5']; rfl
    · rw [← hu, updates_runCalls, updates_runCalls, updates_runCalls, List.flatMap_append]

lemma steps_shift {W : Type*} {E : Engine W} {tl : List ℝ} {w w' : W} {obs : List (ℝ × ℝ × W)} (c : ℝ)
    (h : Steps E tl w obs w') : Steps E (tl.map (· + c)) w (obs.map fun o => (o.1 + c, o.2)) w' := by
  induction h with
  | done t w => exact .done _ _
  | step a b d e _ ih =>
    rename_i t t' _ _ _ _ _ _ _ _ _
    have hd : t' + c - (t + c) = t' - t := by ring
    have := Steps.step (t := t + c) (t' := t' + c) a (by rw [hd]; exact b) (by rw [hd]; exact d) (by rw [hd]; exact e) ih
    rw [hd] at this
    exact this

/-- C88: only the durations matter: for any world, `simulate` over a timeline shifted by `c` succeeds exactly when it does
over the timeline, shows the observers the same worlds with the same `dt` at times shifted by `c`, and ends in the same
state. -/
theorem C88_shift {W : Type*} (E : Engine W) (w w' : W) (tl : List ℝ) (t' c : ℝ) (k : ℕ) (us : List (ℕ × ℝ × ℝ × W)) :
    (∃ tr, simulate E w tl (.list k) = (tr, .ok (w', t')) ∧ updates tr = us) ↔
    ∃ tr, simulate E w (tl.map (· + c)) (.list k) = (tr, .ok (w', t' + c)) ∧
      updates tr = us.map fun u => (u.1, u.2.1, u.2.2.1 + c, u.2.2.2) := by
  have key : ∀ (tl : List ℝ) (t' c : ℝ) (us : List (ℕ × ℝ × ℝ × W)),
      (∃ tr, simulate E w tl (.list k) = (tr, .ok (w', t')) ∧ updates tr = us) →
      ∃ tr, simulate E w (tl.map (· + c)) (.list k) = (tr, .ok (w', t' + c)) ∧
        updates tr = us.map fun u => (u.1, u.2.1, u.2.2.1 + c, u.2.2.2) := by
    rintro tl t' c us ⟨tr, h, hu⟩
    obtain ⟨t0, rest, w0, obs, h1, h2, h3, h4, rfl, h5⟩ := (C45_run ..).mp h
    refine ⟨_, (C45_run ..).mpr ⟨t0 + c, rest.map (· + c), w0, _, by rw [h1]; rfl, ?_, h3, steps_shift c h4, rfl, ?_⟩, ?_⟩
    · rw [List.pairwise_map]
      exact h2.imp fun h => by linarith
    · rw [List.getLast?_map, h5]; rfl
    · rw [← hu, updates_runCalls, updates_runCalls, List.flatMap_map, List.map_flatMap]
      congr 1
      funext o
      rw [List.map_map]
      rfl
  refine ⟨key tl t' c us, fun h => ?_⟩
  have := key _ _ (-c) _ h
  simpa [List.map_map, Function.comp_def] using this

end
end Arboris
