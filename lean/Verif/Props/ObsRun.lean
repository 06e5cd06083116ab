import Verif.Spec.ObsRun
import Verif.Props.Resume
import Verif.Props.LimitRun

/-!
# C127: observers of a simulation; taking up a simulation that an observer has stopped
-/

namespace Arboris
open Matrix Spec Mech Build Sim

variable {W : Type*} {S : Type*}

/-! ### the observers -/

lemma eachObs_none {f : Obs W S → S → S × Option PyErr} {os os' : List (Obs W S × S)} :
    eachObs f os = (os', none) ↔ List.Forall₂ (fun x y => y.1 = x.1 ∧ f x.1 x.2 = (y.2, none)) os os' := by
  induction os generalizing os' with
  | nil => simp [eachObs, eq_comm]
  | cons x os ih =>
    obtain ⟨o, s⟩ := x
    unfold eachObs
    split
    · rename_i s' e h
      constructor
      · intro h'; cases h'
      · intro h'
        cases h' with
        | cons h1 h2 => rw [h] at h1; cases h1.2
    · rename_i s' h
      constructor
      · intro h'
        obtain ⟨h1, h2⟩ := Prod.mk.inj h'
        subst h1
        exact .cons ⟨rfl, h⟩ (ih.mp (Prod.ext rfl h2))
      · intro h'
        cases h' with
        | cons h1 h2 =>
          rename_i y ys
          have h3 := ih.mpr h2
          obtain ⟨yo, ysn⟩ := y
          obtain ⟨h4, h5⟩ := h1
          simp only at h4 h5
          rw [h] at h5
          obtain ⟨h6, -⟩ := Prod.mk.inj h5
          subst h4 h6
          rw [h3]

lemma eachObs_some {f : Obs W S → S → S × Option PyErr} {os os' : List (Obs W S × S)} {e : PyErr} (h : eachObs f os = (os', some e)) :
    ∃ A A' o s s' B, os = A ++ (o, s) :: B ∧ os' = A' ++ (o, s') :: B ∧
      List.Forall₂ (fun x y => y.1 = x.1 ∧ f x.1 x.2 = (y.2, none)) A A' ∧ f o s = (s', some e) := by
  induction os generalizing os' with
  | nil => simp [eachObs] at h
  | cons x os ih =>
    obtain ⟨o, s⟩ := x
    unfold eachObs at h
    split at h
    · rename_i s' e' h'
      obtain ⟨rfl, h2⟩ := Prod.mk.inj h
      obtain rfl := Option.some.inj h2
      exact ⟨[], [], o, s, s', os, rfl, rfl, .nil, h'⟩
    · rename_i s' h'
      obtain ⟨rfl, h2⟩ := Prod.mk.inj h
      obtain ⟨A, A', o1, s1, s1', B, rfl, h4, h5, h6⟩ := ih (Prod.ext rfl h2)
      exact ⟨(o, s) :: A, (o, s') :: A', o1, s1, s1', B, rfl, congrArg ((o, s') :: ·) h4, .cons ⟨rfl, h'⟩ h5, h6⟩

lemma Spec.Hears.append {o : Obs W S} {s s' s'' : S} {a b : List (ℝ × ℝ × W)} (h : Hears o s a s') (h' : Hears o s' b s'') :
    Hears o s (a ++ b) s'' := by
  induction h with
  | nil => exact h'
  | cons h1 _ ih => exact .cons h1 (ih h')

/-! ### the runs -/

/-- a step of the loop, seen from its outcome -/
lemma loopO_step {E : Engine W} {next : ℝ} {rest : List ℝ} {w : W} {t : ℝ} {os : List (Obs W S × S)} {r : Out W S}
    (h : loopO E (next :: rest) w t os = r) :
    (∃ e, r = .broken e) ∨ ∃ c, t < next ∧ Prepared E (next - t) w c ∧
      ((∃ os' e, eachObs (fun o s => o.update (next - t) t c s) os = (os', some e) ∧ r = .stopped .update c t os' e) ∨
       ∃ os' w', eachObs (fun o s => o.update (next - t) t c s) os = (os', none) ∧ E.integrate (next - t) c = .ok w' ∧
        r = loopO E rest w' next os') := by
  simp only [loopO] at h
  split at h
  · exact .inl ⟨_, h.symm⟩
  · rename_i a ha
    by_cases hdt : 0 < next - t
    · rw [if_pos hdt] at h
      split at h
      · exact .inl ⟨_, h.symm⟩
      · rename_i b hb
        split at h
        · exact .inl ⟨_, h.symm⟩
        · rename_i c hc
          split at h
          · rename_i os' e he
            exact .inr ⟨c, by linarith, ⟨a, b, ha, hb, hc⟩, .inl ⟨os', e, he, h.symm⟩⟩
          · rename_i os' he
            rw [if_pos hdt] at h
            split at h
            · exact .inl ⟨_, h.symm⟩
            · rename_i w' hw
              refine .inr ⟨c, by linarith, ⟨a, b, ha, hb, hc⟩, .inr ⟨os', w', he, hw, ?_⟩⟩
              rw [← h]
              congr 1
              ring
    · rw [if_neg hdt] at h
      exact .inl ⟨_, h.symm⟩

lemma loopO_ok {E : Engine W} {next : ℝ} {rest : List ℝ} {w a b c w' : W} {t : ℝ} {os os' : List (Obs W S × S)} (hdt : t < next)
    (ha : E.dynamic w = .ok a) (hb : E.controllers (next - t) a = .ok b) (hc : E.constraints (next - t) b = .ok c)
    (ho : eachObs (fun o s => o.update (next - t) t c s) os = (os', none)) (hi : E.integrate (next - t) c = .ok w') :
    loopO E (next :: rest) w t os = loopO E rest w' next os' := by
  have h0 : 0 < next - t := by linarith
  simp only [loopO, ha, if_pos h0, hb, hc, ho, hi]
  congr 1
  ring

/-- `Told shown x y`: the same observer, told the steps `shown` -/
def Told (shown : List (ℝ × ℝ × W)) (x y : Obs W S × S) : Prop := y.1 = x.1 ∧ Hears x.1 x.2 shown y.2

lemma told_nil (os : List (Obs W S × S)) : List.Forall₂ (Told []) os os := by
  induction os with
  | nil => exact .nil
  | cons x os ih => exact .cons ⟨rfl, .nil _⟩ ih

lemma forall₂_trans {α : Type*} {R Q T : α → α → Prop} (hT : ∀ x y z, R x y → Q y z → T x z) {a b c : List α} (h : List.Forall₂ R a b)
    (h' : List.Forall₂ Q b c) : List.Forall₂ T a c := by
  induction h generalizing c with
  | nil => cases h'; exact .nil
  | cons h1 _ ih => cases h' with | cons h3 h4 => exact .cons (hT _ _ _ h1 h3) (ih h4)

lemma forall₂_split {α : Type*} {R : α → α → Prop} {l a b : List α} (h : List.Forall₂ R l (a ++ b)) :
    ∃ l1 l2, List.Forall₂ R l1 a ∧ List.Forall₂ R l2 b ∧ l = l1 ++ l2 := by
  induction a generalizing l with
  | nil => exact ⟨[], l, .nil, h, rfl⟩
  | cons x a ih =>
    cases h with
    | cons h1 h2 =>
      obtain ⟨l1, l2, h3, h4, rfl⟩ := ih h2
      exact ⟨_ :: l1, l2, .cons h1 h3, h4, rfl⟩

lemma told_step {c : W} {t dt : ℝ} {shown : List (ℝ × ℝ × W)} {x y z : Obs W S × S} (h : y.1 = x.1 ∧ x.1.update dt t c x.2 = (y.2, none))
    (h' : Told shown y z) : Told ((t, dt, c) :: shown) x z :=
  ⟨h'.1.trans h.1, .cons h.2 (h.1 ▸ h'.2)⟩

lemma loopO_done {E : Engine W} {rest : List ℝ} {w w' : W} {t t' : ℝ} {os os' : List (Obs W S × S)} :
    loopO E rest w t os = .done w' t' os' ↔ (t :: rest).Pairwise (· < ·) ∧ (t :: rest).getLast? = some t' ∧
      ∃ shown, Steps E (t :: rest) w shown w' ∧
        List.Forall₂ (fun x y => y.1 = x.1 ∧ ∃ s, Told shown x (x.1, s) ∧ x.1.finish s = (y.2, none)) os os' := by
  induction rest generalizing w t os with
  | nil =>
    constructor
    · intro h
      simp only [loopO] at h
      split at h
      · cases h
      · rename_i os1 h1
        obtain ⟨rfl, rfl, rfl⟩ := Out.done.inj h
        refine ⟨by simp, by simp, [], .done _ _, ?_⟩
        exact (eachObs_none.mp h1).imp fun x y h2 => ⟨h2.1, x.2, ⟨rfl, .nil _⟩, h2.2⟩
    · rintro ⟨-, h1, shown, h2, h3⟩
      cases h2
      simp only [List.getLast?_singleton, Option.some.injEq] at h1
      subst h1
      have : eachObs (fun o s => o.finish s) os = (os', none) := by
        rw [eachObs_none]
        refine h3.imp fun x y h4 => ⟨h4.1, ?_⟩
        obtain ⟨-, s, ⟨-, h5⟩, h6⟩ := h4
        cases h5
        exact h6
      simp only [loopO, this]
  | cons next rest ih =>
    constructor
    · intro h
      obtain ⟨e, he⟩ | ⟨c, hlt, ⟨a, b, ha, hb, hc⟩, ⟨os1, e, -, he⟩ | ⟨os1, w1, h1, h2, h3⟩⟩ := loopO_step h
      · cases he
      · cases he
      · obtain ⟨h4, h5, shown, h6, h7⟩ := ih.mp h3.symm
        refine ⟨?_, by rw [List.getLast?_cons_cons]; exact h5, _, .step ha hb hc h2 h6, ?_⟩
        · rw [List.pairwise_cons]
          refine ⟨fun x hx => ?_, h4⟩
          rcases List.mem_cons.mp hx with rfl | hx
          · exact hlt
          · exact hlt.trans ((List.pairwise_cons.mp h4).1 x hx)
        · refine forall₂_trans ?_ (eachObs_none.mp h1) h7
          rintro x y z hx ⟨hz, s, hs, hf⟩
          exact ⟨hz.trans hx.1, s, ⟨rfl, (told_step hx hs).2⟩, hx.1 ▸ hf⟩
    · rintro ⟨h1, h2, shown, h3, h4⟩
      cases h3 with
      | step ha hb hc hi hrest =>
        rename_i a b c w1 sh
        have hlt : t < next := (List.pairwise_cons.mp h1).1 next (by simp)
        obtain ⟨os1, h5, h6⟩ : ∃ os1, List.Forall₂ (fun x y => y.1 = x.1 ∧ x.1.update (next - t) t c x.2 = (y.2, none)) os os1 ∧
            List.Forall₂ (fun x y => y.1 = x.1 ∧ ∃ s, Told sh x (x.1, s) ∧ x.1.finish s = (y.2, none)) os1 os' := by
          clear h1 h2 ih
          induction h4 with
          | nil => exact ⟨[], .nil, .nil⟩
          | cons hx _ ih =>
            rename_i x y _ _ _
            obtain ⟨os1, h5, h6⟩ := ih
            obtain ⟨hy, s, ⟨-, hs⟩, hf⟩ := hx
            cases hs with
            | cons hu hr =>
              rename_i s'
              exact ⟨(x.1, s') :: os1, .cons ⟨rfl, hu⟩ h5, .cons ⟨hy, s, ⟨rfl, hr⟩, hf⟩ h6⟩
        rw [loopO_ok hlt ha hb hc (eachObs_none.mpr h5) hi]
        exact ih.mpr ⟨(List.pairwise_cons.mp h1).2, by rw [← h2, List.getLast?_cons_cons], sh, hrest, h6⟩

/-- C127: `simulate` with observers returns exactly when the run without observers does and no observer raises; the world does not
depend on the observers, and each of them has been told the initial state, then every step once and in order, then the end:
what it has become does not depend on the others. -/
theorem C127_done (E : Engine W) (w w' : W) (tl : List ℝ) (t' : ℝ) (os os' : List (Obs W S × S)) :
    simulateO E w tl os = .done w' t' os' ↔
    ∃ (t0 : ℝ) (rest : List ℝ) (w0 : W) (shown : List (ℝ × ℝ × W)), tl = t0 :: rest ∧ tl.Pairwise (· < ·) ∧ E.init w = .ok w0 ∧
      Steps E tl w0 shown w' ∧ tl.getLast? = some t' ∧ List.Forall₂ (HeardAll tl t0 w0 shown) os os' := by
  cases tl with
  | nil => simp [simulateO]
  | cons t0 rest =>
    constructor
    · intro h
      simp only [simulateO] at h
      split at h
      · cases h
      · rename_i w0 hw0
        split at h
        · cases h
        · rename_i os1 h1
          obtain ⟨h2, h3, shown, h4, h5⟩ := loopO_done.mp h
          refine ⟨t0, rest, w0, shown, rfl, h2, hw0, h4, h3, forall₂_trans ?_ (eachObs_none.mp h1) h5⟩
          rintro x y z hx ⟨hz, s, hs, hf⟩
          exact ⟨hz.trans hx.1, s, ⟨rfl, y.2, hx.2, hx.1 ▸ hs.2⟩, hx.1 ▸ hf⟩
    · rintro ⟨t1, rest1, w0, shown, h1, h2, h3, h4, h5, h6⟩
      obtain ⟨rfl, rfl⟩ := List.cons.inj h1
      obtain ⟨os1, h7, h8⟩ : ∃ os1, List.Forall₂ (fun x y => y.1 = x.1 ∧ x.1.init t0 w0 (t0 :: rest) x.2 = (y.2, none)) os os1 ∧
          List.Forall₂ (fun x y => y.1 = x.1 ∧ ∃ s, Told shown x (x.1, s) ∧ x.1.finish s = (y.2, none)) os1 os' := by
        clear h4
        induction h6 with
        | nil => exact ⟨[], .nil, .nil⟩
        | cons hx _ ih =>
          rename_i x y _ _ _
          obtain ⟨os1, h5, h6⟩ := ih
          obtain ⟨hy, s, ⟨-, s0, hi, hs⟩, hf⟩ := hx
          exact ⟨(x.1, s0) :: os1, .cons ⟨rfl, hi⟩ h5, .cons ⟨hy, s, ⟨rfl, hs⟩, hf⟩ h6⟩
      have h9 := (eachObs_none (f := fun o s => o.init t0 w0 (t0 :: rest) s)).mpr h7
      simp only [simulateO, h3, h9]
      exact loopO_done.mpr ⟨h2, h5, shown, h4, h8⟩

/-- C127: the observers do not change the simulation: whatever they are, if it returns, it returns the world at the time of the
simulation without observers. -/
theorem C127_silent (E : Engine W) (w w' : W) (tl : List ℝ) (t' : ℝ) (os os' : List (Obs W S × S))
    (h : simulateO E w tl os = .done w' t' os') : ∃ tr, simulate E w tl (.list 0) = (tr, .ok (w', t')) := by
  obtain ⟨t0, rest, w0, shown, h1, h2, h3, h4, h5, -⟩ := (C127_done ..).mp h
  exact ⟨_, (C45_run ..).mpr ⟨t0, rest, w0, shown, h1, h2, h3, h4, rfl, h5⟩⟩

lemma loopO_stopped {E : Engine W} {rest : List ℝ} {w w' : W} {t t' : ℝ} {os os' : List (Obs W S × S)} {e : PyErr}
    (h : loopO E rest w t os = .stopped .update w' t' os' e) :
    ∃ pre t'' post w1 shown, t :: rest = pre ++ t' :: t'' :: post ∧ (pre ++ [t', t'']).Pairwise (· < ·) ∧
      Steps E (pre ++ [t']) w shown w1 ∧ Prepared E (t'' - t') w1 w' ∧
      ∃ A A' o s s1 s' B B', os = A ++ (o, s) :: B ∧ os' = A' ++ (o, s') :: B' ∧
        List.Forall₂ (Told (shown ++ [(t', t'' - t', w')])) A A' ∧ Hears o s shown s1 ∧ o.update (t'' - t') t' w' s1 = (s', some e) ∧
        List.Forall₂ (Told shown) B B' := by
  induction rest generalizing w t os with
  | nil =>
    simp only [loopO] at h
    split at h <;> cases h
  | cons next rest ih =>
    obtain ⟨e, he⟩ | ⟨c, hlt, hp, ⟨os1, e', h1, he⟩ | ⟨os1, w1, h1, h2, h3⟩⟩ := loopO_step h
    · cases he
    · obtain ⟨-, rfl, rfl, rfl, rfl⟩ := Out.stopped.inj he
      obtain ⟨A, A', o, s, s', B, rfl, rfl, h3, h4⟩ := eachObs_some h1
      refine ⟨[], next, rest, w, [], rfl, by simpa using hlt, .done _ _, hp, A, A', o, s, s, s', B, B, rfl, rfl, ?_, .nil _, h4, told_nil B⟩
      exact h3.imp fun x y h5 => ⟨h5.1, .cons h5.2 (.nil _)⟩
    · obtain ⟨pre, t'', post, w2, shown, h4, h5, h6, h7, A, A', o, s, s1, s', B, B', rfl, rfl, h8, h9, h10, h11⟩ := ih h3.symm
      obtain ⟨a, b, ha, hb, hc⟩ := hp
      have hh := eachObs_none.mp h1
      obtain ⟨A0, R0, hA, hR, rfl⟩ : ∃ A0 R0, List.Forall₂ (fun x y => y.1 = x.1 ∧ x.1.update (next - t) t c x.2 = (y.2, none)) A0 A ∧
          List.Forall₂ (fun x y => y.1 = x.1 ∧ x.1.update (next - t) t c x.2 = (y.2, none)) R0 ((o, s) :: B) ∧ os = A0 ++ R0 := by
        exact forall₂_split hh
      cases hR with
      | cons hx hB =>
        rename_i x0 B0
        obtain ⟨o0, s0⟩ := x0
        obtain ⟨hx1, hx2⟩ := hx
        simp only at hx1 hx2
        subst hx1
        have hpre : ∃ r, pre ++ [t'] = next :: r := by
          cases pre with
          | nil => simp only [List.nil_append, List.cons.injEq] at h4; exact ⟨[], by rw [h4.1]; rfl⟩
          | cons y pre => simp only [List.cons_append, List.cons.injEq] at h4; exact ⟨pre ++ [t'], by rw [h4.1]; rfl⟩
        obtain ⟨r, hr⟩ := hpre
        refine ⟨t :: pre, t'', post, w2, (t, next - t, c) :: shown, by rw [h4]; rfl, ?_, ?_, h7, A0, A', o, s0, s1, s', B0, B', rfl, rfl, ?_, .cons hx2 h9, h10, ?_⟩
        · rw [List.cons_append, List.pairwise_cons]
          refine ⟨fun y hy => ?_, h5⟩
          have : next ≤ y := by
            have e2 : pre ++ [t', t''] = next :: (r ++ [t'']) := by
              rw [show pre ++ [t', t''] = (pre ++ [t']) ++ [t''] by simp, hr]; rfl
            rw [e2] at hy h5
            rcases List.mem_cons.mp hy with rfl | hy
            · exact le_rfl
            · exact ((List.pairwise_cons.mp h5).1 y hy).le
          linarith
        · rw [List.cons_append, hr]
          rw [hr] at h6
          exact .step ha hb hc h2 h6
        · exact forall₂_trans (fun x y z => told_step) hA h8
        · exact forall₂_trans (fun x y z => told_step) hB h11

/-- C127: when an observer raises in its `update`, the simulation has got to some `t'` of the timeline, exactly as without observers,
and a step has been prepared but not made; `world.current_time` is `t'`.  The observers
that precede the one that raises have been told this step, the ones that follow have not, and none has been told the end. -/
theorem C127_stopped (E : Engine W) (w w' : W) (tl : List ℝ) (t' : ℝ) (os os' : List (Obs W S × S)) (e : PyErr)
    (h : simulateO E w tl os = .stopped .update w' t' os' e) :
    ∃ t0 pre t'' post w0 w1 shown, tl = pre ++ t' :: t'' :: post ∧ tl.head? = some t0 ∧ (pre ++ [t', t'']).Pairwise (· < ·) ∧
      E.init w = .ok w0 ∧ Steps E (pre ++ [t']) w0 shown w1 ∧ Prepared E (t'' - t') w1 w' ∧
      ∃ A A' x s s' B B', os = A ++ x :: B ∧ os' = A' ++ (x.1, s') :: B' ∧
        List.Forall₂ (Heard tl t0 w0 (shown ++ [(t', t'' - t', w')])) A A' ∧
        Heard tl t0 w0 shown x (x.1, s) ∧ x.1.update (t'' - t') t' w' s = (s', some e) ∧
        List.Forall₂ (Heard tl t0 w0 shown) B B' := by
  cases tl with
  | nil => simp [simulateO] at h
  | cons t0 rest =>
    simp only [simulateO] at h
    split at h
    · cases h
    · rename_i w0 hw0
      split at h
      · cases h
      · rename_i os1 h1
        obtain ⟨pre, t'', post, w1, shown, h4, h5, h6, h7, A, A', o, s, s1, s', B, B', rfl, rfl, h8, h9, h10, h11⟩ := loopO_stopped h
        obtain ⟨A0, R0, hA, hR, rfl⟩ := forall₂_split (eachObs_none.mp h1)
        have key : ∀ sh : List (ℝ × ℝ × W), ∀ x y z : Obs W S × S, (y.1 = x.1 ∧ x.1.init t0 w0 (t0 :: rest) x.2 = (y.2, none)) → Told sh y z →
            Heard (t0 :: rest) t0 w0 sh x z := by
          rintro sh x y z hx hz
          exact ⟨hz.1.trans hx.1, y.2, hx.2, hx.1 ▸ hz.2⟩
        cases hR with
        | cons hx hB =>
          rename_i x0 B0
          obtain ⟨hx1, hx2⟩ := hx
          simp only at hx1 hx2
          subst hx1
          exact ⟨t0, pre, t'', post, w0, w1, shown, h4, rfl, h5, hw0, h6, h7, A0, A', x0, s1, s', B0, B', rfl, rfl,
            forall₂_trans (key _) hA h8, ⟨rfl, s, hx2, h9⟩, h10, forall₂_trans (key _) hB h11⟩

/-- C127: when an observer raises in its `init`, the world has been initialised and nothing else. -/
theorem C127_stopped_init (E : Engine W) (w w' : W) (tl : List ℝ) (t' : ℝ) (os os' : List (Obs W S × S)) (e : PyErr)
    (h : simulateO E w tl os = .stopped .init w' t' os' e) : tl.head? = some t' ∧ E.init w = .ok w' := by
  have hl : ∀ (rest : List ℝ) (w0 : W) (t0 : ℝ) (os1 : List (Obs W S × S)), loopO E rest w0 t0 os1 ≠ .stopped .init w' t' os' e := by
    intro rest
    induction rest with
    | nil =>
      intro w0 t0 os1 h
      simp only [loopO] at h
      split at h <;> cases h
    | cons next rest ih =>
      intro w0 t0 os1 h
      obtain ⟨e, he⟩ | ⟨c, hlt, hp, ⟨os1, e', h1, he⟩ | ⟨os1, w1, h1, h2, h3⟩⟩ := loopO_step h
      · cases he
      · cases he
      · exact ih _ _ _ h3.symm
  cases tl with
  | nil => simp [simulateO] at h
  | cons t0 rest =>
    simp only [simulateO] at h
    split at h
    · cases h
    · rename_i w0 hw0
      split at h
      · obtain ⟨-, rfl, rfl, -, -⟩ := Out.stopped.inj h
        exact ⟨rfl, hw0⟩
      · exact absurd h (hl _ _ _ _)

/-- C127: when an observer raises in its `finish`, the simulation is over: the world is the one `simulate` would have returned. -/
theorem C127_stopped_finish (E : Engine W) (w w' : W) (tl : List ℝ) (t' : ℝ) (os os' : List (Obs W S × S)) (e : PyErr)
    (h : simulateO E w tl os = .stopped .finish w' t' os' e) : ∃ tr, simulate E w tl (.list 0) = (tr, .ok (w', t')) := by
  have hl : ∀ (rest : List ℝ) (w0 : W) (t0 : ℝ) (os1 : List (Obs W S × S)), loopO E rest w0 t0 os1 = .stopped .finish w' t' os' e →
      loopO E rest w0 t0 ([] : List (Obs W S × S)) = .done w' t' [] := by
    intro rest
    induction rest with
    | nil =>
      intro w0 t0 os1 h
      simp only [loopO] at h
      split at h
      · obtain ⟨-, rfl, rfl, -, -⟩ := Out.stopped.inj h
        simp [loopO, eachObs]
      · cases h
    | cons next rest ih =>
      intro w0 t0 os1 h
      obtain ⟨e, he⟩ | ⟨c, hlt, ⟨a, b, ha, hb, hc⟩, ⟨os1, e', h1, he⟩ | ⟨os1, w1, h1, h2, h3⟩⟩ := loopO_step h
      · cases he
      · cases he
      · rw [loopO_ok hlt ha hb hc (os' := []) rfl h2]
        exact ih _ _ _ h3.symm
  cases tl with
  | nil => simp [simulateO] at h
  | cons t0 rest =>
    simp only [simulateO] at h
    split at h
    · cases h
    · rename_i w0 hw0
      split at h
      · cases h
      · refine C127_silent (S := S) E w w' _ t' [] [] ?_
        simp only [simulateO, hw0, eachObs]
        exact hl _ _ _ _ h

/-! ### taking up a simulation -/

noncomputable section

/-- what a constraint has become in `update_constraints` -/
def Gone {n : ℕ} (dt : ℝ) (c d : Con n) : Prop :=
  (c.cls.enabled c.st = false ∧ d = c) ∨
  ∃ s, d = ⟨c.cls, s⟩ ∧ c.cls.enabled c.st = true ∧ Resolves c.cls dt (c.cls.update c.st dt) s

lemma solved_gone {n : ℕ} {dt : ℝ} {cs cs' : List (Con n)} {F : Fin n → ℝ} (h : Solved dt cs cs' F) : List.Forall₂ (Gone dt) cs cs' := by
  induction h with
  | nil => exact .nil
  | disabled h _ ih => exact .cons (.inl ⟨h, rfl⟩) ih
  | inactive h _ _ ih => exact .cons (.inr ⟨_, rfl, h, .refl⟩) ih
  | active h _ s hr _ ih => exact .cons (.inr ⟨s, rfl, h, hr⟩) ih

/-- the constraint is disabled and the same, or the same once updated -/
def SameUpdate {n : ℕ} (dt : ℝ) (c d : Con n) : Prop :=
  d = c ∨ (updated dt d = updated dt c ∧ d.cls.enabled d.st = c.cls.enabled c.st ∧ c.cls.enabled c.st = true)

lemma sameUpdate_active {n : ℕ} {dt : ℝ} {cs ds : List (Con n)} (h : List.Forall₂ (SameUpdate dt) cs ds) : activeCons dt ds = activeCons dt cs := by
  induction h with
  | nil => rfl
  | cons h _ ih =>
    rename_i c d _ _ _
    rw [activeCons_cons, activeCons_cons, ih]
    rcases h with rfl | ⟨h1, h2, h3⟩
    · rfl
    · rw [h2, h3]
      simp only [if_true]
      have e : d.cls.active (d.cls.update d.st dt) = c.cls.active (c.cls.update c.st dt) :=
        congrArg (fun u : Con n => u.cls.active u.st) h1
      rw [e]
      have h1' : (⟨d.cls, d.cls.update d.st dt⟩ : Con n) = ⟨c.cls, c.cls.update c.st dt⟩ := h1
      rw [h1']

lemma sameUpdate_writeBack {n : ℕ} {dt : ℝ} {cs ds solved : List (Con n)} (h : List.Forall₂ (SameUpdate dt) cs ds)
    (hl : solved.length = (activeCons dt cs).length) : writeBack dt ds solved = writeBack dt cs solved := by
  induction h generalizing solved with
  | nil => rfl
  | cons h _ ih =>
    rename_i c d cs ds _
    rw [activeCons_cons] at hl
    rcases h with rfl | ⟨h1, h2, h3⟩
    · unfold writeBack
      split
      · rename_i h4
        rw [if_pos h4] at hl
        split
        · rename_i h5
          rw [if_pos h5] at hl
          cases solved with
          | nil => simp at hl
          | cons x xs => simp only; rw [ih (by simpa using hl)]
        · rename_i h5
          rw [if_neg h5] at hl
          rw [ih hl]
      · rename_i h4
        rw [if_neg h4] at hl
        rw [ih hl]
    · have e : d.cls.active (d.cls.update d.st dt) = c.cls.active (c.cls.update c.st dt) :=
        congrArg (fun u : Con n => u.cls.active u.st) h1
      have h1' : (⟨d.cls, d.cls.update d.st dt⟩ : Con n) = ⟨c.cls, c.cls.update c.st dt⟩ := h1
      unfold writeBack
      rw [if_pos h3] at hl
      rw [h2, h3]
      simp only [if_true]
      rw [e]
      split
      · rename_i h5
        rw [if_pos h5] at hl
        cases solved with
        | nil => simp at hl
        | cons x xs => simp only; rw [ih (by simpa using hl)]
      · rename_i h5
        rw [if_neg h5] at hl
        rw [h1', ih hl]

/-- the constraints, once solved and looking at the world again -/
lemma look_again {n : ℕ} {σ : Type} {P : Plug n σ} {K : ConClass n → Prop} (hP : Repeatable P K) {w w' : MWorld n σ} (hw : Redone w w') {dt : ℝ}
    {cs ds : List (Con n)} (hK : ∀ c ∈ cs, K c.cls) (h : List.Forall₂ (Gone dt) (cs.map (P.look w)) ds) :
    List.Forall₂ (SameUpdate dt) (cs.map (P.look w)) (ds.map (P.look w')) := by
  induction cs generalizing ds with
  | nil => cases h; exact .nil
  | cons c cs ih =>
    rw [List.map_cons] at h ⊢
    cases h with
    | cons h1 h2 =>
      refine .cons ?_ (ih (fun c hc => hK c (by simp [hc])) h2)
      have hc := hK c (by simp)
      rcases h1 with ⟨-, rfl⟩ | ⟨s, rfl, he, hr⟩
      · exact .inl (hP.again w w' c hc hw)
      · have := hP.update w w' c dt s hc hw hr
        exact .inr ⟨this.1, this.2, he⟩

lemma prepared_parts {n : ℕ} {σ : Type} {P : Plug n σ} {dt : ℝ} {w c : MWorld n σ} (h : Prepared (engine P) dt w c) :
    ∃ d a m vals o b g solved, updateDynamicE (groundDyn n) (w.tree.map MLink.link id) = .ok d ∧
      a = { w with dyn := d, mass := worldMass d, viscosity := worldViscosity d, nleffects := worldNleffects d } ∧
      P.ctrl a dt = .ok (m, vals) ∧ updateControllers a.mass a.viscosity a.nleffects dt vals = .ok o ∧
      b = { a with ctrl := o, mem := m } ∧ updateConstraints b.mass b.gvel b.ctrl (b.cons.map (P.look b)) dt = .ok (g, solved) ∧
      c = { b with ctrl := { b.ctrl with gforce := g }, cons := writeBack dt (b.cons.map (P.look b)) solved } := by
  obtain ⟨a, b, ha, hb, hc⟩ := h
  simp only [engine, dynamic] at ha
  split at ha
  · cases ha
  · rename_i d hd
    simp only [engine, controllers] at hb
    split at hb
    · cases hb
    · rename_i m vals hv
      split at hb
      · cases hb
      · rename_i o ho
        simp only [engine, Mech.constraints] at hc
        split at hc
        · cases hc
        · rename_i g solved hg
          exact ⟨d, a, m, vals, o, b, g, solved, hd, (Except.ok.inj ha).symm, hv, ho, (Except.ok.inj hb).symm, hg, (Except.ok.inj hc).symm⟩

lemma updateConstraints_solved {n : ℕ} {mass : Matrix (Fin n) (Fin n) ℝ} {gvel g : Fin n → ℝ} {o : CtrlOut n} {cs solved : List (Con n)} {dt : ℝ}
    (h : updateConstraints mass gvel o cs dt = .ok (g, solved)) :
    List.Forall₂ (Gone dt) cs (writeBack dt cs solved) ∧ solved.length = (activeCons dt cs).length := by
  unfold updateConstraints at h
  split at h
  · obtain ⟨-, h3⟩ := Prod.mk.inj (Except.ok.inj h)
    have h4 := gsCons_classes (dt := dt) _ (gsRun_resolves (activeCons dt cs) o.admittance mass gvel o.gforce dt 1000 1e-4)
    rw [h3] at h4
    exact ⟨solved_gone (solved_writeBack dt _ _ h4), h4.length_eq.symm⟩
  · cases h

lemma gone_classes {n : ℕ} {σ : Type} {P : Plug n σ} {K : ConClass n → Prop} (hP : Repeatable P K) {dt : ℝ} {b : MWorld n σ} {cs ds : List (Con n)}
    (h : List.Forall₂ (Gone dt) (cs.map (P.look b)) ds) (hK : ∀ x ∈ cs, K x.cls) : ∀ x ∈ ds, K x.cls := by
  induction cs generalizing ds with
  | nil => cases h; simp
  | cons x cs ih =>
    rw [List.map_cons] at h
    cases h with
    | cons h2 h3 =>
      intro y hy
      rcases List.mem_cons.mp hy with rfl | hy
      · have e := hP.cls b x (hK x (by simp))
        have : y.cls = (P.look b x).cls := by
          rcases h2 with ⟨-, rfl⟩ | ⟨s, rfl, -, -⟩ <;> rfl
        rw [this, e]
        exact hK x (by simp)
      · exact ih h3 (fun z hz => hK z (by simp [hz])) y hy

lemma prepared_classes {n : ℕ} {σ : Type} {P : Plug n σ} {K : ConClass n → Prop} (hP : Repeatable P K) {dt : ℝ} {w c : MWorld n σ}
    (hK : ∀ x ∈ w.cons, K x.cls) (h : Prepared (engine P) dt w c) : ∀ x ∈ c.cons, K x.cls := by
  obtain ⟨d, a, m, vals, o, b, g, solved, hd, ha, hv, ho, hb, hg, hc⟩ := prepared_parts h
  have hbc : b.cons = w.cons := by rw [hb, ha]
  have h1 := gone_classes hP (updateConstraints_solved hg).1 (by rw [hbc]; exact hK)
  have h2 : c.cons = writeBack dt (b.cons.map (P.look b)) solved := by rw [hc]
  rw [h2]
  exact h1

lemma steps_det {W : Type*} {E : Engine W} {tl : List ℝ} {w a b : W} {sh sh' : List (ℝ × ℝ × W)} (h : Steps E tl w sh a) (h' : Steps E tl w sh' b) :
    sh = sh' ∧ a = b := by
  induction h generalizing sh' with
  | done => cases h'; exact ⟨rfl, rfl⟩
  | step ha hb hc hi _ ih =>
    cases h' with
    | step ha' hb' hc' hi' hr' =>
      obtain rfl := Except.ok.inj (ha.symm.trans ha')
      obtain rfl := Except.ok.inj (hb.symm.trans hb')
      obtain rfl := Except.ok.inj (hc.symm.trans hc')
      obtain rfl := Except.ok.inj (hi.symm.trans hi')
      obtain ⟨rfl, rfl⟩ := ih hr'
      exact ⟨rfl, rfl⟩

lemma steps_mem {W : Type*} {E : Engine W} {pre : List ℝ} {t' : ℝ} {w a : W} {sh : List (ℝ × ℝ × W)} (h : Steps E (pre ++ [t']) w sh a) :
    ∀ x ∈ sh, x.1 ∈ pre := by
  induction pre generalizing w sh with
  | nil => cases h; simp
  | cons t pre ih =>
    cases pre with
    | nil =>
      cases h with
      | step _ _ _ _ hr => cases hr; simp
    | cons t1 pre =>
      cases h with
      | step _ _ _ _ hr =>
        intro x hx
        rcases List.mem_cons.mp hx with rfl | hx
        · simp
        · exact List.mem_cons_of_mem _ (ih hr x hx)

lemma steps_classes {n : ℕ} {σ : Type} {P : Plug n σ} {K : ConClass n → Prop} (hP : Repeatable P K) {tl : List ℝ} {w w' : MWorld n σ}
    {shown : List (ℝ × ℝ × MWorld n σ)} (h : Steps (engine P) tl w shown w') (hK : ∀ x ∈ w.cons, K x.cls) : ∀ x ∈ w'.cons, K x.cls := by
  induction h with
  | done => exact hK
  | step ha hb hc hi _ ih =>
    refine ih ?_
    have h1 := prepared_classes hP hK ⟨_, _, ha, hb, hc⟩
    simp only [engine, Mech.integrate] at hi
    split at hi
    · cases hi
    · obtain rfl := Except.ok.inj hi
      exact h1

/-- a step that has been prepared can be prepared again, with the same result -/
lemma prepared_again {n : ℕ} {σ : Type} {P : Plug n σ} {K : ConClass n → Prop} (hP : Repeatable P K) {dt : ℝ} {w c v : MWorld n σ}
    (hK : ∀ x ∈ w.cons, K x.cls) (h : Prepared (engine P) dt w c) (hv : SameState c v) : Prepared (engine P) dt v c := by
  obtain ⟨d, a, m, vals, o, b, g, solved, hd, ha, hvl, ho, hb, hg, hc⟩ := prepared_parts h
  have hm : m = a.mem := hP.mem _ _ _ _ hvl
  have hct : c.tree = w.tree := by rw [hc, hb, ha]
  have hcv : c.gvel = w.gvel := by rw [hc, hb, ha]
  have hcm : c.mem = w.mem := by rw [hc, hb, hm, ha]
  have hcc : c.cons = writeBack dt (b.cons.map (P.look b)) solved := by rw [hc]
  set a' : MWorld n σ := { v with dyn := d, mass := worldMass d, viscosity := worldViscosity d, nleffects := worldNleffects d } with ha'
  set b' : MWorld n σ := { a' with ctrl := o } with hb'
  have hva : Redone a a' := by
    rw [ha, ha']
    exact ⟨by rw [← hct]; exact hv.tree.symm, by rw [← hcv]; exact hv.gvel.symm, rfl, rfl, rfl, rfl, by rw [← hcm]; exact hv.mem.symm⟩
  have hvb : Redone b b' := by
    rw [hb, hb']
    exact ⟨hva.tree, hva.gvel, hva.dyn, hva.mass, hva.viscosity, hva.nleffects, hva.mem.trans hm.symm⟩
  have hbc : b.cons = w.cons := by rw [hb, ha]
  have hs := updateConstraints_solved hg
  have hl := look_again hP hvb (by rw [hbc]; exact hK) hs.1
  have hb'c : b'.cons = writeBack dt (b.cons.map (P.look b)) solved := by rw [← hcc]; exact hv.cons.symm
  refine ⟨a', b', ?_, ?_, ?_⟩
  · have : v.tree = w.tree := hv.tree.symm.trans hct
    have hd' : updateDynamicE (groundDyn n) (v.tree.map MLink.link id) = .ok d := by rw [this]; exact hd
    simp only [engine, dynamic, hd']
    rfl
  · simp only [engine, controllers]
    rw [hP.ctrl a a' dt hva, hvl]
    have ho' : updateControllers a'.mass a'.viscosity a'.nleffects dt vals = .ok o := by
      rw [hva.mass, hva.viscosity, hva.nleffects]; exact ho
    have hm' : m = a'.mem := hm.trans hva.mem.symm
    simp only [ho', hm']
    rfl
  · have e1 : activeCons dt (b'.cons.map (P.look b')) = activeCons dt (b.cons.map (P.look b)) := by
      rw [hb'c]; exact sameUpdate_active hl
    have e2 : writeBack dt (b'.cons.map (P.look b')) solved = writeBack dt (b.cons.map (P.look b)) solved := by
      rw [hb'c]; exact sameUpdate_writeBack hl hs.2
    have e3 : updateConstraints b'.mass b'.gvel b'.ctrl (b'.cons.map (P.look b')) dt = .ok (g, solved) := by
      rw [← hg, hvb.mass, hvb.gvel]
      have : b'.ctrl = b.ctrl := by rw [hb]
      rw [this]
      unfold updateConstraints
      rw [e1]
    simp only [engine, Mech.constraints, e3, e2]
    rw [hc]
    congr 1
    have h1 := hvb.tree; have h2 := hvb.gvel; have h3 := hvb.dyn; have h4 := hvb.mass; have h5 := hvb.viscosity
    have h6 := hvb.nleffects; have h7 := hvb.mem
    have h8 : b'.ctrl = b.ctrl := by rw [hb]
    rw [h1, h2, h3, h4, h5, h6, h7, h8]

/-- C127: when an observer raises in its `update`, positions and velocities are those the simulation without observers reaches at
`world.current_time`. -/
theorem C127_unmoved {n : ℕ} {σ : Type} {P : Plug n σ} {w w' : MWorld n σ} {tl : List ℝ} {t' : ℝ} {os os' : List (Obs (MWorld n σ) S × S)}
    {e : PyErr} (h : simulateO (engine P) w tl os = .stopped .update w' t' os' e) :
    ∃ pre rest tr w1, tl = pre ++ t' :: rest ∧ simulate (engine P) w (pre ++ [t']) (.list 0) = (tr, .ok (w1, t')) ∧
      w'.tree = w1.tree ∧ w'.gvel = w1.gvel := by
  obtain ⟨t0, pre, t'', post, w0, w1, shown, htl, hhead, hpw, hinit, hst, hprep, -⟩ := C127_stopped _ _ _ _ _ _ _ _ h
  obtain ⟨d, a, m, vals, o, b, g, solved, hd, ha, hvl, ho, hb, hg, hc⟩ := prepared_parts hprep
  have hstart : ∃ r, pre ++ [t'] = t0 :: r := by
    cases pre with
    | nil => rw [htl] at hhead; simp at hhead; exact ⟨[], by rw [← hhead]; rfl⟩
    | cons x pre => rw [htl] at hhead; simp at hhead; exact ⟨pre ++ [t'], by rw [← hhead]; rfl⟩
  obtain ⟨r0, hr0⟩ := hstart
  have hp : (pre ++ [t']).Pairwise (· < ·) := by
    rw [show pre ++ [t', t''] = (pre ++ [t']) ++ [t''] by simp, List.pairwise_append] at hpw
    exact hpw.1
  exact ⟨pre, t'' :: post, _, w1, htl, (C45_run ..).mpr ⟨t0, r0, w0, shown, hr0, hp, hinit, hst, rfl, by simp⟩,
    by rw [hc, hb, ha], by rw [hc, hb, ha]⟩

/-- the controllers and the limits of the joints of the library meet the hypotheses -/
lemma limit_repeatable {n : ℕ} (up : Vec3) (cs : List LibCtrl) (pinv : Matrix (Fin 1) (Fin 1) ℝ → Matrix (Fin 1) (Fin 1) ℝ) (p : JLParams 1) (i : ℕ) :
    Repeatable (limitPlug (libPlug n up cs).ctrl pinv p i) (fun k => k = jointLimits n pinv p) := by
  have hlook : ∀ (w : MWorld n Unit) (s : (jointLimits n pinv p).St), limitLook pinv p i w ⟨jointLimits n pinv p, s⟩ =
      ⟨jointLimits n pinv p, { (s : JLState 1) with gpos := fun _ => jointPos w i }⟩ := by
    intro w s
    unfold limitLook
    rw [dif_pos rfl]
    rfl
  have hpos : ∀ w w' : MWorld n Unit, Redone w w' → jointPos w' i = jointPos w i := by
    intro w w' h
    unfold jointPos
    rw [h.tree]
  refine ⟨?_, fun _ _ _ _ _ => rfl, ?_, ?_, ?_⟩
  · intro w w' dt h
    have e : ∀ cs : List LibCtrl, askAll up w' dt cs = askAll up w dt cs := by
      intro cs
      induction cs with
      | nil => rfl
      | cons c cs ih =>
        have : c.update up w' dt = c.update up w dt := by
          cases c with
          | weight γ => simp only [LibCtrl.update, h.dyn]
          | pd js g => simp only [LibCtrl.update, pdRead, h.tree]
        simp only [askAll, this, ih]
    simp only [limitPlug, libPlug, e]
  · rintro w ⟨cls, s⟩ hc
    simp only at hc
    subst hc
    simp only [limitPlug, hlook]
  · rintro w w' ⟨cls, s⟩ hc h
    simp only at hc
    subst hc
    change limitLook pinv p i w' (limitLook pinv p i w _) = limitLook pinv p i w _
    rw [hlook w s]
    exact (hlook w' _).trans (by rw [hpos w w' h])
  · rintro w w' ⟨cls, s⟩ dt s1 hc h hr
    simp only at hc
    subst hc
    revert hr s1
    change ∀ s1, Resolves (limitLook pinv p i w ⟨_, s⟩).cls dt ((limitLook pinv p i w ⟨_, s⟩).cls.update (limitLook pinv p i w ⟨_, s⟩).st dt) s1 →
      updated dt (limitLook pinv p i w' ⟨(limitLook pinv p i w ⟨_, s⟩).cls, s1⟩) = updated dt (limitLook pinv p i w ⟨_, s⟩) ∧
      (limitLook pinv p i w' ⟨(limitLook pinv p i w ⟨_, s⟩).cls, s1⟩).cls.enabled (limitLook pinv p i w' ⟨(limitLook pinv p i w ⟨_, s⟩).cls, s1⟩).st =
        (limitLook pinv p i w ⟨_, s⟩).cls.enabled (limitLook pinv p i w ⟨_, s⟩).st
    rw [hlook w s]
    intro s1 hr
    have key : ∀ (a b : (jointLimits n pinv p).St), Resolves (jointLimits n pinv p) dt a b →
        JLState.enabled b = JLState.enabled a ∧ JLState.gpos b = JLState.gpos a ∧ JLState.pos0 b = JLState.pos0 a := by
      intro a b hab
      induction hab with
      | refl => exact ⟨rfl, rfl, rfl⟩
      | solve _ _ _ ih => exact ih
    obtain ⟨h1, h2, h3⟩ := key _ _ hr
    rw [hlook w' s1]
    simp only [updated]
    refine ⟨?_, h1⟩
    have e : (jointLimits n pinv p).update { (s1 : JLState 1) with gpos := fun _ => jointPos w' i } dt =
        (jointLimits n pinv p).update { (s : JLState 1) with gpos := fun _ => jointPos w i } dt := by
      change ({ enabled := s1.enabled, gpos := fun _ => jointPos w' i, pos0 := fun _ => jointPos w' i, force := 0 } : JLState 1) = _
      rw [hpos w w' h, h1]
      rfl
    rw [e]

/-- C127: a simulation that an observer has stopped in its `update` can be taken up from the world as it is, over the rest of the
timeline: with controllers without memory and constraints that start again at each update, this succeeds exactly when the simulation
without observers does, with the same final world, and the observers given to `simulate` then are shown the very same worlds, from the
interrupted step on. -/
theorem C127_resume {n : ℕ} {σ : Type} {P : Plug n σ} {K : ConClass n → Prop} (hP : Repeatable P K) {w w' : MWorld n σ}
    (hn : ndof w.tree = n) (hK : ∀ c ∈ w.cons, K c.cls) {tl : List ℝ} {t' : ℝ} {os os' : List (Obs (MWorld n σ) S × S)} {e : PyErr}
    (h : simulateO (engine P) w tl os = .stopped .update w' t' os' e) :
    ∃ pre rest, tl = pre ++ t' :: rest ∧ ∀ (k : ℕ) (w2 : MWorld n σ) (t2 : ℝ),
      ((∃ tr, simulate (engine P) w tl (.list k) = (tr, .ok (w2, t2))) ↔
        (∃ tr, simulate (engine P) w' (t' :: rest) (.list k) = (tr, .ok (w2, t2)))) ∧
      ∀ tr tr2, simulate (engine P) w tl (.list k) = (tr, .ok (w2, t2)) →
        simulate (engine P) w' (t' :: rest) (.list k) = (tr2, .ok (w2, t2)) → ∃ before, updates tr = before ++ updates tr2 ∧
          ∀ u ∈ before, u.2.2.1 < t' := by
  obtain ⟨t0, pre, t'', post, w0, w1, shown, htl, hhead, hpw, hinit, hst, hprep, -⟩ := C127_stopped _ _ _ _ _ _ _ _ h
  obtain ⟨w0', h8, h9⟩ := init_started hn
  obtain rfl : w0' = w0 := Except.ok.inj (h8.symm.trans hinit)
  have h10 := evolves_numbered (steps_evolves hst h9.vel) h9.numbered h9.vel (by
    have := number_spec 0 w.tree
    obtain rfl := Except.ok.inj h8
    exact this.2.2.trans hn)
  have hK1 : ∀ c ∈ w1.cons, K c.cls := steps_classes hP hst (by rw [h9.cons]; exact hK)
  have hp := prepared_parts hprep
  have htree : w'.tree = w1.tree := by
    obtain ⟨d, a, m, vals, o, b, g, solved, hd, ha, hvl, ho, hb, hg, hc⟩ := hp
    rw [hc, hb, ha]
  have hgvel : w'.gvel = w1.gvel := by
    obtain ⟨d, a, m, vals, o, b, g, solved, hd, ha, hvl, ho, hb, hg, hc⟩ := hp
    rw [hc, hb, ha]
  obtain ⟨v0, h11, h12⟩ := init_again (w := w') (by rw [htree]; exact h10.1) (by rw [htree, hgvel]; exact h10.2.1) (by rw [htree]; exact h10.2.2)
  have hagain := prepared_again hP hK1 hprep h12
  -- the rest of the timeline leads from `w1` and from `v0` to the same worlds
  have hsteps : ∀ sh w2, Steps (engine P) (t' :: t'' :: post) w1 sh w2 ↔ Steps (engine P) (t' :: t'' :: post) v0 sh w2 := by
    have det : ∀ {x y : MWorld n σ} {sh w2}, Prepared (engine P) (t'' - t') x w' → Prepared (engine P) (t'' - t') y w' →
        Steps (engine P) (t' :: t'' :: post) x sh w2 → Steps (engine P) (t' :: t'' :: post) y sh w2 := by
      rintro x y sh w2 ⟨a, b, ha, hb, hc⟩ ⟨a', b', ha', hb', hc'⟩ hs
      cases hs with
      | step ha1 hb1 hc1 hi hr =>
        rw [ha] at ha1
        obtain rfl := Except.ok.inj ha1
        rw [hb] at hb1
        obtain rfl := Except.ok.inj hb1
        rw [hc] at hc1
        obtain rfl := Except.ok.inj hc1
        exact .step ha' hb' hc' hi hr
    exact fun sh w2 => ⟨det hprep hagain, det hagain hprep⟩
  have hstart : ∃ r, pre ++ [t'] = t0 :: r := by
    cases pre with
    | nil => rw [htl] at hhead; simp at hhead; exact ⟨[], by rw [← hhead]; rfl⟩
    | cons x pre => rw [htl] at hhead; simp at hhead; exact ⟨pre ++ [t'], by rw [← hhead]; rfl⟩
  obtain ⟨r0, hr0⟩ := hstart
  have htl0 : tl = t0 :: (r0 ++ t'' :: post) := by
    rw [htl, show pre ++ t' :: t'' :: post = (pre ++ [t']) ++ (t'' :: post) by simp, hr0]; rfl
  have hlast : tl.getLast? = (t' :: t'' :: post).getLast? := by
    rw [htl, List.getLast?_append]
    cases hl : (t' :: t'' :: post).getLast? with
    | none => simp at hl
    | some x => rfl
  have hpair : tl.Pairwise (· < ·) ↔ (t' :: t'' :: post).Pairwise (· < ·) := by
    rw [htl, List.pairwise_append]
    constructor
    · exact fun h => h.2.1
    · intro h2
      rw [List.pairwise_append] at hpw
      refine ⟨hpw.1, h2, fun x hx y hy => ?_⟩
      have hxt := hpw.2.2 x hx t' (by simp)
      rcases List.mem_cons.mp hy with rfl | hy
      · exact hxt
      · exact hxt.trans ((List.pairwise_cons.mp h2).1 y hy)
  have hrun : ∀ k w2 t2 tr, simulate (engine P) w tl (.list k) = (tr, .ok (w2, t2)) → ∃ sh, (t' :: t'' :: post).Pairwise (· < ·) ∧
      Steps (engine P) (t' :: t'' :: post) w1 sh w2 ∧ (t' :: t'' :: post).getLast? = some t2 ∧ tr = runCalls k t0 w0' tl (shown ++ sh) := by
    intro k w2 t2 tr ht
    obtain ⟨s0, rest, x0, obs, h1, h2, h3, h4, rfl, h5⟩ := (C45_run ..).mp ht
    obtain rfl : x0 = w0' := Except.ok.inj (h3.symm.trans h8)
    obtain rfl : s0 = t0 := by rw [htl0] at h1; exact (List.cons.inj h1).1.symm
    rw [htl] at h4
    obtain ⟨x1, o1, o2, rfl, h6, h7⟩ := steps_split h4
    obtain ⟨rfl, rfl⟩ := steps_det h6 hst
    exact ⟨o2, hpair.mp h2, h7, by rw [← hlast]; exact h5, rfl⟩
  refine ⟨pre, t'' :: post, htl, fun k w2 t2 => ⟨⟨?_, ?_⟩, ?_⟩⟩
  · rintro ⟨tr, ht⟩
    obtain ⟨sh, h1, h2, h3, -⟩ := hrun k w2 t2 tr ht
    exact ⟨_, (C45_run ..).mpr ⟨t', t'' :: post, v0, sh, rfl, h1, h11, (hsteps _ _).mp h2, rfl, h3⟩⟩
  · rintro ⟨tr, ht⟩
    obtain ⟨s0, rest, x0, obs, h1, h2, h3, h4, rfl, h5⟩ := (C45_run ..).mp ht
    obtain rfl : x0 = v0 := Except.ok.inj (h3.symm.trans h11)
    refine ⟨_, (C45_run ..).mpr ⟨t0, r0 ++ t'' :: post, w0', shown ++ obs, htl0, hpair.mpr h2, h8, ?_, rfl, by rw [hlast]; exact h5⟩⟩
    rw [htl]
    exact steps_append hst ((hsteps _ _).mpr h4)
  · intro tr tr2 ht ht2
    obtain ⟨sh, h1, h2, h3, rfl⟩ := hrun k w2 t2 tr ht
    obtain ⟨s0, rest, x0, obs, h1', h2', h3', h4', rfl, h5'⟩ := (C45_run ..).mp ht2
    obtain rfl : x0 = v0 := Except.ok.inj (h3'.symm.trans h11)
    obtain ⟨rfl, -⟩ := steps_det ((hsteps _ _).mp h2) h4'
    rw [updates_runCalls, updates_runCalls, List.flatMap_append]
    refine ⟨_, rfl, fun u hu => ?_⟩
    obtain ⟨x, hx, hu⟩ := List.mem_flatMap.mp hu
    obtain ⟨i, -, rfl⟩ := List.mem_map.mp hu
    rw [List.pairwise_append] at hpw
    exact hpw.2.2 _ (steps_mem hst x hx) t' (by simp)

/-- an observer that counts the steps and loses its connection at the second -/
def shaky : Obs (MWorld 1 Unit) ℕ where
  init _ _ _ _ := (0, none)
  update _ _ _ s := if s = 1 then (s, some .socketError) else (s + 1, none)
  finish s := (s, none)

/-- C127: a case: a top is simulated with such an observer, which stops the simulation at its second step; it can be taken up. -/
theorem C127_example : Repeatable noPlug (fun _ => False) ∧ ndof top.tree = 1 ∧ (∀ c ∈ top.cons, False) ∧
    ∃ w' e, simulateO (engine noPlug) top [0, 1, 2, 3] [(shaky, 7)] = .stopped .update w' 1 [(shaky, 1)] e ∧
      ∃ tr w2, simulate (engine noPlug) w' [1, 2, 3] (.list 0) = (tr, .ok (w2, 3)) := by
  have hrep : Repeatable noPlug (fun _ => False) :=
    ⟨fun _ _ _ _ => rfl, fun _ _ _ _ _ => rfl, fun _ _ h => h.elim, fun _ _ _ h => h.elim, fun _ _ _ _ _ h => h.elim⟩
  have htop := C87_example [0, 1, 2, 3] (by simp) (by norm_num) 0
  obtain ⟨tr, w2, t2, hrun⟩ := htop.2.2
  have hcons : ∀ c ∈ top.cons, False := by simp [top]
  obtain ⟨t0, rest, w0, obs, h1, -, h3, h4, -, h5⟩ := (C45_run ..).mp hrun
  have ht2 : t2 = 3 := by simpa using h5.symm
  obtain ⟨w', hst⟩ : ∃ w', simulateO (engine noPlug) top [0, 1, 2, 3] [(shaky, 7)] = .stopped .update w' 1 [(shaky, 1)] .socketError := by
    cases h4 with
    | step ha hb hc hi hr =>
      cases hr with
      | step ha' hb' hc' hi' hr' =>
        rename_i _ c2 _ _
        refine ⟨c2, ?_⟩
        have e1 : simulateO (engine noPlug) top [0, 1, 2, 3] [(shaky, 7)] = loopO (engine noPlug) [1, 2, 3] w0 0 [(shaky, 0)] := by
          simp only [simulateO, h3]
          rfl
        rw [e1, loopO_ok (by norm_num) ha hb hc (os' := [(shaky, 1)]) (by simp [eachObs, shaky]) hi]
        have e2 : eachObs (fun o s => o.update (2 - 1) 1 c2 s) [(shaky, 1)] = ([(shaky, 1)], some .socketError) := rfl
        have h0 : (0 : ℝ) < 2 - 1 := by norm_num
        simp only [loopO, ha', if_pos h0, hb', hc', e2]
  refine ⟨hrep, htop.1, hcons, w', .socketError, hst, ?_⟩
  obtain ⟨pre, rest', hpre, hres⟩ := C127_resume hrep htop.1 hcons hst
  have : rest' = [2, 3] := by
    have h6 : pre = [0] := by
      rcases pre with _ | ⟨x, pre⟩
      · simp at hpre
      · rcases pre with _ | ⟨y, pre⟩
        · simp at hpre; rw [hpre.1]
        · rcases pre with _ | ⟨z, pre⟩
          · simp at hpre
          · rcases pre with _ | ⟨z', pre⟩
            · simp at hpre
            · simp at hpre
    subst h6
    simpa using hpre.symm
  subst this
  subst ht2
  obtain ⟨tr', h7⟩ := (hres 0 w2 3).1.mp ⟨tr, hrun⟩
  exact ⟨tr', w2, h7⟩

end
end Arboris
