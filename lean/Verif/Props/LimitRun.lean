import Verif.Model.LimitWorld
import Verif.Props.WorldLimits
import Verif.Props.World
import Verif.Props.PDRun

/-!
# C121: joint limits during a simulation
-/

namespace Arboris
open Matrix Spec Mech Build Sim

/-- number of dofs of the joints before the joint of rank `i` -/
def Spec.firstDof (F : Forest MLink Body) (i : ℕ) : ℕ := ((F.links.take i).map fun l => l.att.ndof).sum

/-- The world has one constraint, an enabled `JointLimits` on the joint of rank `i`, a linear joint of one dof. -/
structure Spec.Limited {n : ℕ} {σ : Type} (pinv : Matrix (Fin 1) (Fin 1) ℝ → Matrix (Fin 1) (Fin 1) ℝ) (p : JLParams 1) (i : ℕ) (w : MWorld n σ) : Prop where
  joint : ∃ l k q dq, w.tree.links[i]? = some l ∧ l.att = .lin k q dq ∧ k.ndof = 1
  start : p.start = firstDof w.tree i
  con : ∃ s : JLState 1, w.cons = [⟨jointLimits n pinv p, s⟩] ∧ s.enabled = true

/-- near a limit, or beyond it -/
def Spec.NearLimit (p : JLParams 1) (q : ℝ) : Prop := q - p.min 0 < p.proximity 0 ∨ p.max 0 - q < p.proximity 0

/-- within the limits -/
def Spec.InLimits (p : JLParams 1) (q : ℝ) : Prop := p.min 0 ≤ q ∧ q ≤ p.max 0

section
variable {n : ℕ} {σ : Type} {ctrl : MWorld n σ → ℝ → Except PyErr (σ × List (CtrlVal n))} {pinv : Matrix (Fin 1) (Fin 1) ℝ → Matrix (Fin 1) (Fin 1) ℝ} {p : JLParams 1} {i : ℕ}

/-- what holds at the beginning of each step -/
structure LimitNow (pinv : Matrix (Fin 1) (Fin 1) ℝ → Matrix (Fin 1) (Fin 1) ℝ) (p : JLParams 1) (i : ℕ) (w : MWorld n σ) : Prop where
  joint : ∃ l k q dq, w.tree.links[i]? = some l ∧ l.att = .lin k q dq ∧ k.ndof = 1 ∧ l.start = p.start
  con : ∃ s : JLState 1, w.cons = [⟨jointLimits n pinv p, s⟩] ∧ s.enabled = true

lemma limitLook_self (w : MWorld n σ) (s : JLState 1) :
    limitLook pinv p i w ⟨jointLimits n pinv p, s⟩ = ⟨jointLimits n pinv p, { s with gpos := fun _ => jointPos w i }⟩ := by
  unfold limitLook
  rw [dif_pos rfl]
  rfl

lemma jointPos_lin {w : MWorld n σ} {l : MLink} {k : LinKind} {q dq : Fin k.ndof → ℝ} (h : w.tree.links[i]? = some l) (ha : l.att = .lin k q dq) (hk : k.ndof = 1) :
    jointPos w i = q ⟨0, by omega⟩ := by
  unfold jointPos
  rw [h]
  simp only [MLink.pd, ha]
  rw [List.getD_eq_getElem?_getD, List.getElem?_ofFn]
  simp [hk]

/-- the position reached -/
lemma jointPos_advance {w : MWorld n σ} (hw : LimitNow pinv p i w) (hst : p.start < n) (v : Fin n → ℝ) (dt : ℝ) (w' : MWorld n σ) (ht : w'.tree = w.tree.map (advance v dt) id) :
    jointPos w' i = jointPos w i + dt * v ⟨p.start, hst⟩ ∧
      ∃ l k q dq, w'.tree.links[i]? = some l ∧ l.att = .lin k q dq ∧ k.ndof = 1 ∧ l.start = p.start := by
  obtain ⟨l, k, q, dq, h1, h2, h3, h4⟩ := hw.joint
  have h5 : w'.tree.links[i]? = some (advance v dt l) := by
    rw [ht, links_map, List.getElem?_map, h1]
    rfl
  have h6 : (advance v dt l).att = .lin k (linIntegrate q (fun j => part v l.start j.val) dt) fun j => part v l.start j.val := by
    simp only [advance, h2, JAttr.integrate]
  refine ⟨?_, _, k, _, _, h5, h6, h3, h4⟩
  rw [jointPos_lin h5 h6 h3, jointPos_lin h1 h2 h3]
  simp [linIntegrate, part, h4, hst]

lemma limit_solved {dt : ℝ} {s : JLState 1} (hen : s.enabled = true) {c : Con n} (solved : List (Con n)) (h : writeBack dt [(⟨jointLimits n pinv p, s⟩ : Con n)] solved = [c])
    (hcs : solved = [] ∨ ∃ s' : JLState 1, solved = [⟨jointLimits n pinv p, s'⟩] ∧ s'.enabled = true) :
    ∃ s' : JLState 1, c = ⟨jointLimits n pinv p, s'⟩ ∧ s'.enabled = true := by
  have e : (jointLimits n pinv p).enabled s = true := hen
  rcases hcs with rfl | ⟨s', rfl, hs'⟩
  · simp only [writeBack, e, if_true] at h
    split_ifs at h
    · exact ⟨s, (List.cons.inj h).1.symm, hen⟩
    · exact ⟨_, (List.cons.inj h).1.symm, hen⟩
  · simp only [writeBack, e, if_true] at h
    split_ifs at h
    · exact ⟨s', (List.cons.inj h).1.symm, hs'⟩
    · exact ⟨_, (List.cons.inj h).1.symm, hen⟩

lemma limit_cons {s : JLState 1} (g : GS [(⟨jointLimits n pinv p, s⟩ : Con n)]) (s' : JLState 1) (h : g.st ⟨0, by simp⟩ = s') :
    g.cons = [⟨jointLimits n pinv p, s'⟩] := by
  rw [← h]
  simp [GS.cons, List.finRange_succ]

/-- the solver keeps it a `JointLimits`, enabled -/
lemma limit_keeps {s : JLState 1} (hen : s.enabled = true) {mass : Matrix (Fin n) (Fin n) ℝ} {gvel : Fin n → ℝ} {w : CtrlOut n} {dt : ℝ} (hdt : 0 < dt) {g : Fin n → ℝ} {cs : List (Con n)}
    (hu : updateConstraints mass gvel w [⟨jointLimits n pinv p, s⟩] dt = .ok (g, cs)) :
    cs = [] ∨ ∃ s' : JLState 1, cs = [⟨jointLimits n pinv p, s'⟩] ∧ s'.enabled = true := by
  have e : (jointLimits n pinv p).enabled s = true := hen
  set s1 : JLState 1 := (jointLimits n pinv p).update s dt with hs1
  have hact : activeCons dt [(⟨jointLimits n pinv p, s⟩ : Con n)] = [] ∨ activeCons dt [(⟨jointLimits n pinv p, s⟩ : Con n)] = [⟨jointLimits n pinv p, s1⟩] := by
    rw [activeCons_cons]
    simp only [e, if_true]
    split_ifs
    · exact .inr rfl
    · exact .inl rfl
  rcases hact with h | h
  · rw [updateConstraints_eq hdt h] at hu
    exact .inl (Prod.mk.inj (Except.ok.inj hu)).2.symm
  · rw [updateConstraints_eq hdt h] at hu
    right
    obtain ⟨st, hst, -, hrun⟩ := single_run (c := (⟨jointLimits n pinv p, s1⟩ : Con n)) (C36_jointLimits n pinv p) (fun st : JLState 1 => st.enabled = true) hen
      (fun st vel A dt h => h) w.admittance mass gvel w.gforce dt (maxiters := 1000) (by norm_num) 1e-4
    rw [← (Prod.mk.inj (Except.ok.inj hu)).2]
    refine ⟨_, limit_cons _ _ hrun, ?_⟩
    exact hst

/-- one step -/
lemma limit_step (hp : ∀ A, IsPinv A (pinv A)) (hst : p.start < n) (hmm : p.min 0 ≤ p.max 0) {dt : ℝ} {w a b c w' : MWorld n σ} (hw : LimitNow pinv p i w)
    (hd : dynamic w = .ok a) (hc : controllers (limitPlug ctrl pinv p i) dt a = .ok b) (hs : constraints (limitPlug ctrl pinv p i) dt b = .ok c) (hi : Mech.integrate dt c = .ok w') :
    LimitNow pinv p i w' ∧ jointPos c i = jointPos w i ∧
      (0 < c.ctrl.admittance ⟨p.start, hst⟩ ⟨p.start, hst⟩ → NearLimit p (jointPos w i) → InLimits p (jointPos w' i)) := by
  have hb : b.tree = w.tree ∧ b.cons = w.cons := by
    unfold dynamic at hd
    split at hd
    · cases hd
    obtain rfl := Except.ok.inj hd
    unfold controllers at hc
    split at hc
    · cases hc
    split at hc
    · cases hc
    obtain rfl := Except.ok.inj hc
    exact ⟨rfl, rfl⟩
  obtain ⟨s, hs1, hs2⟩ := hw.con
  unfold constraints at hs
  have hlook : b.cons.map ((limitPlug ctrl pinv p i).look b) = [⟨jointLimits n pinv p, { s with gpos := fun _ => jointPos b i }⟩] := by
    rw [hb.2, hs1]
    simp only [List.map_cons, List.map_nil, limitPlug, limitLook_self]
  rw [hlook] at hs
  have hpos : jointPos b i = jointPos w i := by unfold jointPos; rw [hb.1]
  set s1 : JLState 1 := { s with gpos := fun _ => jointPos b i } with hs1def
  simp only at hs
  split at hs
  · cases hs
  rename_i g solved hu
  obtain rfl := Except.ok.inj hs
  unfold Mech.integrate at hi
  split at hi
  · cases hi
  rename_i v hv
  obtain rfl := Except.ok.inj hi
  have hdt : 0 < dt := by
    unfold integrateGvel at hv
    by_contra h
    rw [if_neg h] at hv
    cases hv
  have hnow : LimitNow pinv p i b := ⟨by rw [hb.1]; exact hw.joint, by rw [hb.2]; exact hw.con⟩
  obtain ⟨k1, k2⟩ := jointPos_advance hnow hst v dt { b with gvel := v, tree := b.tree.map (advance v dt) id } rfl
  refine ⟨⟨k2, ?_⟩, ?_, ?_⟩
  · -- the constraint stays an enabled `JointLimits`
    have hsol : solved = [] ∨ ∃ s' : JLState 1, solved = [⟨jointLimits n pinv p, s'⟩] ∧ s'.enabled = true := by
      exact limit_keeps (s := s1) hs2 hdt hu
    obtain ⟨c', hc'⟩ : ∃ c', writeBack dt [(⟨jointLimits n pinv p, s1⟩ : Con n)] solved = [c'] := by
      have e : (jointLimits n pinv p).enabled s1 = true := hs2
      rcases hsol with h | ⟨s', h, -⟩
      all_goals
        subst h
        simp only [writeBack, e, if_true]
        split_ifs
        all_goals exact ⟨_, rfl⟩
    obtain ⟨s', e1, e2⟩ := limit_solved (s := s1) hs2 solved hc' hsol
    exact ⟨s', by rw [← e1]; exact hc', e2⟩
  · exact hpos
  · intro hY hnear
    obtain ⟨f, -, -, h1, h2, -⟩ := C39_world hp hst hmm (s := s1) hs2 (by rw [← hpos] at hnear; exact hnear) (w := b.ctrl) hY (by norm_num) hu hv
      (v0 := b.ctrl.admittance *ᵥ (b.mass *ᵥ (dt⁻¹ • b.gvel) + b.ctrl.gforce)) (by unfold integrateGvel; rw [if_pos hdt])
    have key := fun w' ht => (jointPos_advance hnow hst v dt w' ht).1
    unfold InLimits
    rw [key _ rfl]
    exact ⟨h1, h2⟩

/-- the states of a run: those shown to the observers, one per step, then the last -/
def Spec.states {W : Type*} (seen : List (ℝ × ℝ × W)) (last : W) : List W := seen.map (·.2.2) ++ [last]

lemma limit_steps (hp : ∀ A, IsPinv A (pinv A)) (hst : p.start < n) (hmm : p.min 0 ≤ p.max 0) {tl : List ℝ} {w w' : MWorld n σ} {seen : List (ℝ × ℝ × MWorld n σ)}
    (h : Steps (engine (limitPlug ctrl pinv p i)) tl w seen w') (hw : LimitNow pinv p i w) :
    (∃ c, (states seen w')[0]? = some c ∧ jointPos c i = jointPos w i) ∧
    ∀ j c c', (states seen w')[j]? = some c → (states seen w')[j + 1]? = some c' → (∀ d : Fin n, d.val = p.start → 0 < c.ctrl.admittance d d) →
      NearLimit p (jointPos c i) → InLimits p (jointPos c' i) := by
  induction h with
  | done t w =>
    refine ⟨⟨w, rfl, rfl⟩, fun j c c' _ h2 => ?_⟩
    simp [states] at h2
  | step hdyn hctrl hcons hint _ ih =>
    rename_i t t' ts w a b c w1 w2 obs hrest
    obtain ⟨k1, k2, k3⟩ := limit_step hp hst hmm hw hdyn hctrl hcons hint
    obtain ⟨⟨c1, i1, i2⟩, i3⟩ := ih k1
    refine ⟨⟨c, rfl, k2⟩, fun j d d' h1 h2 hY hnear => ?_⟩
    have e : states ((t, t' - t, c) :: obs) w2 = c :: states obs w2 := rfl
    rw [e] at h1 h2
    cases j with
    | zero =>
      obtain rfl : c = d := by simpa using h1
      rw [List.getElem?_cons_succ, i1] at h2
      obtain rfl := Option.some.inj h2
      rw [i2]
      exact k3 (hY _ rfl) (by rw [← k2]; exact hnear)
    | succ j => exact i3 j d d' (by simpa using h1) (by simpa using h2) hY hnear

lemma numbered_start : ∀ {ls : List MLink} {a : ℕ}, Numbered a ls → ∀ {i : ℕ} {l : MLink}, ls[i]? = some l → l.start = a + ((ls.take i).map fun l => l.att.ndof).sum
  | [], _, _, _, _, h => by simp at h
  | l :: ls, a, ⟨h1, h2⟩, 0, l', h => by
    obtain rfl : l = l' := by simpa using h
    simpa using h1
  | l :: ls, a, ⟨h1, h2⟩, i + 1, l', h => by
    have := numbered_start h2 (i := i) (l := l') (by simpa using h)
    rw [this]
    simp [add_assoc]

lemma map_forall₂ {α β : Type} {R : α → α → Prop} {l l' : List α} (h : List.Forall₂ R l l') (f : α → β) (hf : ∀ a b, R a b → f b = f a) : l'.map f = l.map f := by
  induction h with
  | nil => rfl
  | cons h1 _ ih => rw [List.map_cons, List.map_cons, ih, hf _ _ h1]

lemma limited_now {w w0 : MWorld n σ} (hw : Limited pinv p i w) (h : Started w w0) : LimitNow pinv p i w0 ∧ p.start < n := by
  obtain ⟨l, k, q, dq, h1, h2, h3⟩ := hw.joint
  have hF := h.tree.links.1
  obtain ⟨l', h4, h5⟩ : ∃ l', w0.tree.links[i]? = some l' ∧ l' = { l with start := l'.start } := forall₂_get? hF.flip h1
  have hatt : l'.att = .lin k q dq := by rw [h5]; exact h2
  have hnd : (w0.tree.links.take i).map (fun l => l.att.ndof) = (w.tree.links.take i).map fun l => l.att.ndof := by
    rw [List.map_take, List.map_take, map_forall₂ hF (fun l => l.att.ndof) (by rintro a b h; rw [h])]
  have hstart : l'.start = p.start := by
    rw [numbered_start h.numbered h4, hnd, hw.start]
    simp [firstDof]
  refine ⟨⟨⟨l', k, q, dq, h4, hatt, h3, hstart⟩, ?_⟩, ?_⟩
  · rw [h.cons]
    exact hw.con
  · have := h.vel l' (List.mem_of_getElem? h4)
    unfold HasVel at this
    rw [hatt] at this
    obtain ⟨hle, -⟩ := this
    omega

/-- C121, full statement: a joint with a `JointLimits` that is within its limits at the beginning stays within them. -/
def C121_Claim : Prop :=
  ∀ {n : ℕ} {σ : Type} {ctrl : MWorld n σ → ℝ → Except PyErr (σ × List (CtrlVal n))} {pinv : Matrix (Fin 1) (Fin 1) ℝ → Matrix (Fin 1) (Fin 1) ℝ} {p : JLParams 1} {i : ℕ},
    (∀ A, IsPinv A (pinv A)) → p.min 0 ≤ p.max 0 → 0 < p.proximity 0 → ∀ {w w' : MWorld n σ} {tl : List ℝ} {tr : List (Ev (MWorld n σ))} {t' : ℝ}, ndof w.tree = n → Limited pinv p i w →
    InLimits p (jointPos w i) → simulate (engine (limitPlug ctrl pinv p i)) w tl (.list 1) = (tr, .ok (w', t')) →
    (∀ dt t c, Ev.obsUpdate 0 dt t c ∈ tr → ∀ d : Fin n, d.val = p.start → 0 < c.ctrl.admittance d d) → InLimits p (jointPos w' i)

/-- C121.  In a world with any mechanism and any controllers, whose only constraint is a `JointLimits` on a linear joint of one dof.  In every simulation that
returns normally: let `c` and `c'` be two successive states, shown to the observers, or the last one.  If in `c` the joint is near one of its limits, or beyond it, and the dof has a positive admittance,
in `c'` the joint is within its limits. -/
theorem C121_back_partial (hp : ∀ A, IsPinv A (pinv A)) (hmm : p.min 0 ≤ p.max 0) {w w' : MWorld n σ} {tl : List ℝ} {k : ℕ} {tr : List (Ev (MWorld n σ))} {t' : ℝ} (hn : ndof w.tree = n)
    (hw : Limited pinv p i w) (h : simulate (engine (limitPlug ctrl pinv p i)) w tl (.list k) = (tr, .ok (w', t'))) :
    ∃ t0 w0 seen, tr = runCalls k t0 w0 tl seen ∧ ∀ j c c', (states seen w')[j]? = some c → (states seen w')[j + 1]? = some c' →
      (∀ d : Fin n, d.val = p.start → 0 < c.ctrl.admittance d d) → NearLimit p (jointPos c i) → InLimits p (jointPos c' i) := by
  obtain ⟨t0, rest, w0, seen, h1, -, h2, h3, h4, h5⟩ := (C45_run ..).mp h
  obtain ⟨w0', h6, h7⟩ := init_started hn
  obtain rfl : w0' = w0 := Except.ok.inj (h6.symm.trans h2)
  obtain ⟨k1, k2⟩ := limited_now hw h7
  exact ⟨t0, w0', seen, h4, (limit_steps hp k2 hmm h3 k1).2⟩

/-- C121.  So, if the proximity is not negative, the joint is never out of its limits in two successive states. -/
theorem C121_never_twice_partial (hp : ∀ A, IsPinv A (pinv A)) (hmm : p.min 0 ≤ p.max 0) (hprox : 0 ≤ p.proximity 0) {w w' : MWorld n σ} {tl : List ℝ} {k : ℕ} {tr : List (Ev (MWorld n σ))} {t' : ℝ}
    (hn : ndof w.tree = n) (hw : Limited pinv p i w) (h : simulate (engine (limitPlug ctrl pinv p i)) w tl (.list k) = (tr, .ok (w', t'))) :
    ∃ t0 w0 seen, tr = runCalls k t0 w0 tl seen ∧ ∀ j c c', (states seen w')[j]? = some c → (states seen w')[j + 1]? = some c' →
      (∀ d : Fin n, d.val = p.start → 0 < c.ctrl.admittance d d) → InLimits p (jointPos c i) ∨ InLimits p (jointPos c' i) := by
  obtain ⟨t0, w0, seen, h1, h2⟩ := C121_back_partial hp hmm hn hw h
  refine ⟨t0, w0, seen, h1, fun j c c' a1 a2 hY => ?_⟩
  by_cases hin : InLimits p (jointPos c i)
  · exact .inl hin
  · right
    refine h2 j c c' a1 a2 hY ?_
    unfold InLimits at hin
    unfold NearLimit
    by_contra hf
    push Not at hf
    exact hin ⟨by linarith [hf.1], by linarith [hf.2]⟩

/-- C121.  And a joint within its limits at the beginning can only leave them by moving by more than the proximity in one step. -/
theorem C121_inside_partial (hp : ∀ A, IsPinv A (pinv A)) (hmm : p.min 0 ≤ p.max 0) {w w' : MWorld n σ} {tl : List ℝ} {k : ℕ} {tr : List (Ev (MWorld n σ))} {t' : ℝ} (hn : ndof w.tree = n)
    (hw : Limited pinv p i w) (hin : InLimits p (jointPos w i)) (h : simulate (engine (limitPlug ctrl pinv p i)) w tl (.list k) = (tr, .ok (w', t'))) :
    ∃ t0 w0 seen, tr = runCalls k t0 w0 tl seen ∧ ((∀ j c c', (states seen w')[j]? = some c → (states seen w')[j + 1]? = some c' →
      (∀ d : Fin n, d.val = p.start → 0 < c.ctrl.admittance d d) ∧ |jointPos c' i - jointPos c i| ≤ p.proximity 0) → ∀ c ∈ states seen w', InLimits p (jointPos c i)) := by
  obtain ⟨t0, rest, w0, seen, h1, -, h2, h3, h4, h5⟩ := (C45_run ..).mp h
  obtain ⟨w0', h6, h7⟩ := init_started hn
  obtain rfl : w0' = w0 := Except.ok.inj (h6.symm.trans h2)
  obtain ⟨k1, k2⟩ := limited_now hw h7
  obtain ⟨⟨c0, m1, m2⟩, m3⟩ := limit_steps hp k2 hmm h3 k1
  have m4 : jointPos w0' i = jointPos w i := by
    obtain ⟨l, k', q, dq, g1, g2, g3⟩ := hw.joint
    obtain ⟨l', g4, g5⟩ : ∃ l', w0'.tree.links[i]? = some l' ∧ l' = { l with start := l'.start } := forall₂_get? h7.tree.links.1.flip g1
    have g6 : l'.att = .lin k' q dq := by rw [g5]; exact g2
    rw [jointPos_lin g4 g6 g3, jointPos_lin g1 g2 g3]
  refine ⟨t0, w0', seen, h4, fun hyp c hc => ?_⟩
  have key : ∀ (j : ℕ) (c : MWorld n σ), (states seen w')[j]? = some c → InLimits p (jointPos c i) := by
    intro j
    induction j with
    | zero =>
      intro c hc
      obtain rfl : c0 = c := Option.some.inj (m1.symm.trans hc)
      rw [m2, m4]
      exact hin
    | succ j ih =>
      intro c' hc'
      have hlt : j < (states seen w').length := by
        have := (List.getElem?_eq_some_iff.mp hc').1
        omega
      have hc := List.getElem?_eq_getElem hlt
      set c := (states seen w')[j] with hcdef
      obtain ⟨b1, b2⟩ := hyp j c c' hc hc'
      by_cases hnear : NearLimit p (jointPos c i)
      · exact m3 j c c' hc hc' b1 hnear
      · unfold NearLimit at hnear
        push Not at hnear
        obtain ⟨b3, b4⟩ := abs_le.mp b2
        exact ⟨by linarith [hnear.1], by linarith [hnear.2]⟩
  obtain ⟨j, hj⟩ := List.getElem?_of_mem hc
  exact key j c hj

/-! ### a slider -/

/-- a body of mass 1 that slides along x, at `q`, velocity `v`, with a limit -/
noncomputable def slider (pinv : Matrix (Fin 1) (Fin 1) ℝ → Matrix (Fin 1) (Fin 1) ℝ) (p : JLParams 1) (q v : ℝ) : MWorld 1 Unit where
  tree := .cons ⟨.lin .Tx (fun _ => q) (fun _ => v), 0, 1, 1⟩ ⟨1, 0⟩ .nil .nil
  gvel := 0
  dyn := []
  mass := 0
  viscosity := 0
  nleffects := 0
  ctrl := ⟨0, 0, 0⟩
  mem := ()
  cons := [⟨jointLimits 1 pinv p, ⟨true, 0, 0, 0⟩⟩]

/-- its joint has limits at 1 and -1, and a proximity of 0.1 -/
noncomputable def unitLimit : JLParams 1 := ⟨fun _ => -1, fun _ => 1, fun _ => 0.1, 0⟩

lemma inv_pinv1 (A : Matrix (Fin 1) (Fin 1) ℝ) : IsPinv A A⁻¹ := by
  by_cases h : A.det = 0
  · have hA : A = 0 := by
      ext i j
      fin_cases i; fin_cases j
      simpa [Matrix.det_fin_one] using h
    subst hA
    constructor <;> simp
  · have h1 : A * A⁻¹ = 1 := Matrix.mul_nonsing_inv _ (isUnit_iff_ne_zero.mpr h)
    have h2 : A⁻¹ * A = 1 := Matrix.nonsing_inv_mul _ (isUnit_iff_ne_zero.mpr h)
    generalize A⁻¹ = P at h1 h2
    constructor <;> simp [h1, h2]

lemma slider_limited (q v : ℝ) : Limited (fun A => A⁻¹) unitLimit 0 (slider (fun A => A⁻¹) unitLimit q v) :=
  ⟨⟨_, _, _, _, rfl, rfl, rfl⟩, rfl, _, rfl, rfl⟩

lemma slider_dyn (q v : ℝ) : ∃ d : BodyDyn 1, worldDynamic 1 ((slider (fun A => A⁻¹) unitLimit q v).tree.map MLink.link id) = [(⟨1, 0⟩, d)] ∧
    worldMass [((⟨1, 0⟩ : Body), d)] = 1 ∧ worldViscosity [((⟨1, 0⟩ : Body), d)] = 0 ∧ worldNleffects [((⟨1, 0⟩ : Body), d)] = 0 := by
  have hinv : invBody (1 : Mat4) = 1 := by
    have := isRigid_one.invBody_mul; simpa using this
  have had : adjointBody (1 : Mat4) = 1 := by
    have : (1 : Mat4) = mkH 1 0 := mkH_one.symm
    rw [this, adjointBody_mkH]
    simp [skew_zero, blk_one]
  set L : MLink := ⟨.lin .Tx (fun _ => q) (fun _ => v), 0, 1, 1⟩ with hL
  have hjac : (dynStep (groundDyn 1) L.link).jac = (!![0; 0; 0; 1; 0; 0] : Matrix (Fin 6) (Fin 1) ℝ) := by
    have h1 : ∀ (A : Mat6) (J : Matrix (Fin 6) (Fin 1) ℝ), addCols (A * (0 : Matrix (Fin 6) (Fin 1) ℝ)) 0 1 (adjointBody 1 * J) = J := by
      intro A J
      rw [had, Matrix.one_mul, Matrix.mul_zero]
      ext i c
      fin_cases c
      simp [addCols]
    exact h1 _ _
  have hstill : Still (dynStep (groundDyn 1) L.link) := by
    refine still_step (still_ground 1) (slider_of ?_ ?_)
    · simp [hL, Sliding]
    · exact ⟨isRigid_one, isRigid_one, fun H T h => by cases h⟩
  refine ⟨dynStep (groundDyn 1) L.link, rfl, ?_, ?_, ?_⟩
  · simp only [worldMass, List.foldl_cons, List.foldl_nil, zero_add, hjac, Matrix.mul_one]
    ext i j
    fin_cases i; fin_cases j
    simp [Matrix.mul_apply, Fin.sum_univ_six]
  · simp [worldViscosity]
  · refine nl_slid fun x hx => ?_
    rw [List.mem_singleton] at hx
    subst hx
    exact hstill

/-- C121, full statement, is false of the code: at 10 m/s, with a step of 1 s, the slider goes in one step from the middle of its range to 9 m beyond the limit; the constraint was not
active, as the joint was not near the limit at the beginning of the step. -/
theorem C121_false : ¬ C121_Claim := by
  intro hC
  let P : Plug 1 Unit := limitPlug (fun _ _ => .ok ((), [])) (fun A => A⁻¹) unitLimit 0
  let w : MWorld 1 Unit := slider (fun A => A⁻¹) unitLimit 0 10
  obtain ⟨w0, h0, hst⟩ := init_started (w := w) rfl
  have ht0 : w0.tree = w.tree := by
    have := (Except.ok.inj h0).symm
    rw [this]
    rfl
  have hg0 : w0.gvel = fun _ => 10 := by
    obtain ⟨hh, hv⟩ := hst.vel ⟨.lin .Tx (fun _ => 0) (fun _ => 10), 0, 1, 1⟩ (by rw [ht0]; simp [w, slider, Forest.links])
    funext j
    have := congrFun hv ⟨0, by decide⟩
    fin_cases j
    exact this.symm
  obtain ⟨d, hd1, hd2, hd3, hd4⟩ := slider_dyn 0 10
  have hval : ∀ l ∈ (w0.tree.map MLink.link id).links, ValidLink l := by
    intro l hl
    rw [ht0] at hl
    simp only [w, slider, Forest.map, Forest.links, List.append_nil, List.mem_singleton] at hl
    subst hl
    exact Spec.RigidLink.valid ⟨isRigid_one, isRigid_one, fun H T h => by cases h⟩
  have hdyn := (C20_no_assertion 1 _ hval).2
  rw [ht0] at hdyn
  set a : MWorld 1 Unit := { w0 with dyn := [(⟨1, 0⟩, d)], mass := 1, viscosity := 0, nleffects := 0 } with ha
  have ea : Mech.dynamic w0 = .ok a := by
    unfold Mech.dynamic
    rw [ht0, hdyn]
    have : worldDynamic 1 (w.tree.map MLink.link id) = [(⟨1, 0⟩, d)] := hd1
    rw [this]
    simp only [hd2, hd3, hd4, ha, ht0]
  set b : MWorld 1 Unit := { a with ctrl := ⟨0, 1, 1⟩, mem := () } with hb
  have eb : Mech.controllers P (1 - 0) a = .ok b := by
    have huc : updateControllers a.mass a.viscosity a.nleffects (1 - 0) [] = .ok ⟨0, 1, 1⟩ := by
      refine (C33_sum _ _ _ _ _ _).mpr ⟨by norm_num, ?_, ?_, ?_, ?_⟩ <;> simp [ha]
    simp only [Mech.controllers, P, limitPlug, huc, hb]
  have hcons : b.cons = [⟨jointLimits 1 (fun A => A⁻¹) unitLimit, ⟨true, 0, 0, 0⟩⟩] := hst.cons
  have htb : b.tree = w.tree := ht0
  have hpos : jointPos b 0 = 0 := by
    unfold jointPos
    rw [htb]
    rfl
  have hfar := C39_far (n := 1) (pinv := fun A => A⁻¹) (p := unitLimit) (s := ⟨true, fun _ => jointPos b 0, 0, 0⟩) (by intro j; rw [hpos]; norm_num [unitLimit])
    (mass := b.mass) (gvel := b.gvel) (w := b.ctrl) (dt := 1 - 0) (by norm_num) 1000 1e-4
  obtain ⟨c, ec, ect, ecm, ecg, ecc⟩ : ∃ c, Mech.constraints P (1 - 0) b = .ok c ∧ c.tree = w.tree ∧ c.mass = 1 ∧ c.gvel = (fun _ => 10) ∧ c.ctrl = ⟨0, 1, 1⟩ := by
    unfold Mech.constraints
    have hlook : b.cons.map (P.look b) = [⟨jointLimits 1 (fun A => A⁻¹) unitLimit, ⟨true, fun _ => jointPos b 0, 0, 0⟩⟩] := by
      rw [hcons]
      simp only [List.map_cons, List.map_nil, P, limitPlug, limitLook_self]
    rw [hlook]
    simp only [hfar]
    exact ⟨_, rfl, ht0, rfl, hg0, rfl⟩
  obtain ⟨w', ew, hw'⟩ : ∃ w', Mech.integrate (1 - 0) c = .ok w' ∧ w'.tree = w.tree.map (advance (fun _ : Fin 1 => (10 : ℝ)) (1 - 0)) id := by
    have : integrateGvel c.mass c.ctrl.admittance c.gvel c.ctrl.gforce (1 - 0) = .ok fun _ => 10 := by
      rw [ecm, ecg, ecc]
      unfold integrateGvel
      rw [if_pos (by norm_num)]
      simp
    unfold Mech.integrate
    rw [this]
    exact ⟨_, rfl, by rw [ect]⟩
  have hsteps : Steps (engine P) [0, 1] w0 [(0, 1 - 0, c)] w' := .step ea eb ec ew (.done 1 w')
  have hrun := (C45_run (engine P) w [0, 1] 1 (runCalls 1 0 w0 [0, 1] [(0, 1 - 0, c)]) w' 1).mpr ⟨0, [1], w0, _, rfl, by simp, h0, hsteps, rfl, rfl⟩
  have := hC (fun A => inv_pinv1 A) (by norm_num [unitLimit]) (by norm_num [unitLimit]) (w := w) rfl (slider_limited 0 10) (by
    have : jointPos w 0 = 0 := rfl
    rw [this]
    norm_num [InLimits, unitLimit]) hrun (by
    intro dt t c' hc' d hd
    have : c' = c := by
      simp only [runCalls, stepCalls, List.mem_append, List.mem_singleton, List.mem_map, List.mem_flatMap, List.mem_cons, List.not_mem_nil, reduceCtorEq, or_false, false_or, exists_false, and_false] at hc'
      obtain ⟨o, rfl, j, -, hj⟩ := hc'
      exact (Ev.obsUpdate.inj hj).2.2.2.symm
    rw [this, ecc]
    fin_cases d
    simp)
  have hend : jointPos w' 0 = 10 := by
    unfold jointPos
    rw [hw']
    simp [w, slider, Forest.map, Forest.links, advance, JAttr.integrate, MLink.pd, linIntegrate, part]
    rw [if_pos (by decide)]
    rfl
  have h2 := this.2
  rw [hend] at h2
  norm_num [unitLimit] at h2


end
end Arboris
