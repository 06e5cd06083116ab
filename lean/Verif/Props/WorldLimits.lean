import Verif.Props.Limits
import Verif.Props.ContactUpdate

/-!
# C36, C39, C43, C75: constraints in a world

`C39_world`: what a joint limit does to a step of the world; `C36_stop`: when the loop of `update_constraints` stops;
`C43_released`: an inactive constraint reports no force; `C75_velocity`: the meaning of the jacobian of a contact.
-/

namespace Arboris
open Matrix Spec

variable {n : ℕ}

/-! ### when the solver stops -/

lemma gsLoop_stop (cs : List (Con n)) (A : Matrix (Dol cs) (Dol cs) ℝ) (dt tol : ℝ) (r : ℕ) (b : Bool) (s : GS cs) :
    ∃ m, m ≤ r ∧ gsLoop cs A dt tol r b s = (sweep cs A dt)^[m] s ∧
      (∀ j, j + 1 < m → (b = false ∨ 0 < j) →
        tol ≤ norm2 (fun x => ((sweep cs A dt)^[j + 1] s).vel x - ((sweep cs A dt)^[j] s).vel x)) ∧
      (m < r → ∃ j, m = j + 1 ∧ (b = false ∨ 0 < j) ∧
        norm2 (fun x => ((sweep cs A dt)^[j + 1] s).vel x - ((sweep cs A dt)^[j] s).vel x) < tol) := by
  induction r generalizing b s with
  | zero => exact ⟨0, le_rfl, rfl, fun j hj => absurd hj (by omega), fun h => absurd h (lt_irrefl _)⟩
  | succ r ih =>
    rw [gsLoop]
    split_ifs with h
    · exact ⟨1, by omega, rfl, fun j hj => absurd hj (by omega), fun _ => ⟨0, rfl, .inl h.1, by simpa using h.2⟩⟩
    · obtain ⟨m, h1, h2, h3, h4⟩ := ih false (sweep cs A dt s)
      refine ⟨m + 1, by omega, by rw [h2, Function.iterate_succ_apply], fun j hj hb => ?_, fun hm => ?_⟩
      · cases j with
        | zero =>
          rcases hb with hb | hb
          · subst hb; simpa using h
          · exact absurd hb (lt_irrefl _)
        | succ j =>
          have := h3 j (by omega) (.inl rfl)
          rwa [← Function.iterate_succ_apply (sweep cs A dt) (j + 1), ← Function.iterate_succ_apply (sweep cs A dt) j] at this
      · obtain ⟨j, hj, _, hn⟩ := h4 (by omega)
        refine ⟨j + 1, by omega, .inr (by omega), ?_⟩
        rwa [← Function.iterate_succ_apply (sweep cs A dt) (j + 1), ← Function.iterate_succ_apply (sweep cs A dt) j] at hn

/-- C36: when the loop stops.  It makes `m ≤ maxiters` sweeps over all the constraints; it never stops on the first sweep
alone, it stops at the first later sweep that changes the constraint velocities by less than `tol`, and otherwise uses all
the iterations. -/
theorem C36_stop (cs : List (Con n)) (Y mass : Matrix (Fin n) (Fin n) ℝ) (gvel gforce : Fin n → ℝ) (dt : ℝ)
    (maxiters : ℕ) (tol : ℝ) :
    let S : ℕ → GS cs := fun m => (sweep cs (gsAdm cs Y) dt)^[m] (gsInit cs Y mass gvel gforce dt)
    let change : ℕ → ℝ := fun m => norm2 fun x => (S m).vel x - (S (m - 1)).vel x
    ∃ m, m ≤ maxiters ∧ gsRun cs Y mass gvel gforce dt maxiters tol = S m ∧
      (∀ j, 2 ≤ j → j < m → tol ≤ change j) ∧ (m < maxiters → 2 ≤ m ∧ change m < tol) := by
  intro S change
  obtain ⟨m, h1, h2, h3, h4⟩ := gsLoop_stop cs (gsAdm cs Y) dt tol maxiters true (gsInit cs Y mass gvel gforce dt)
  refine ⟨m, h1, h2, fun j hj hm => ?_, fun hm => ?_⟩
  · obtain ⟨j, rfl⟩ := Nat.exists_eq_add_of_le' (show 1 ≤ j by omega)
    exact h3 j hm (.inr (by omega))
  · obtain ⟨j, rfl, hj, hn⟩ := h4 hm
    exact ⟨by rcases hj with hj | hj
              · exact absurd hj (by simp)
              · omega, hn⟩

/-! ### one active constraint -/

lemma totalForce_single {c : Con n} (g : GS [c]) :
    totalForce g.cons = (c.cls.jac (g.st ⟨0, by simp⟩))ᵀ *ᵥ c.cls.force (g.st ⟨0, by simp⟩) := by
  simp [totalForce, GS.cons, List.finRange_succ]

/-- With one constraint, the solver's result is the result of a last `solve`, called with the velocity that the world
would have with the force of the constraint before that call. -/
lemma single_run {c : Con n} (hl : Lawful c.cls) (P : c.cls.St → Prop) (h0 : P c.st)
    (hP : ∀ st vel A dt, P st → P (c.cls.solve st vel A dt).1) (Y mass : Matrix (Fin n) (Fin n) ℝ) (gvel gforce : Fin n → ℝ)
    (dt : ℝ) {maxiters : ℕ} (hm : 0 < maxiters) (tol : ℝ) :
    ∃ st, P st ∧ c.cls.jac st = c.cls.jac c.st ∧
      (gsRun [c] Y mass gvel gforce dt maxiters tol).st ⟨0, by simp⟩ =
        (c.cls.solve st (c.cls.jac c.st *ᵥ (Y *ᵥ (dt⁻¹ • (mass *ᵥ gvel) + (gforce + (c.cls.jac c.st)ᵀ *ᵥ c.cls.force st))))
          (c.cls.jac c.st * Y * (c.cls.jac c.st)ᵀ) dt).1 := by
  obtain ⟨m, _, hpos, hrun⟩ := gsLoop_eq_sweeps [c] (gsAdm [c] Y) dt tol maxiters true (gsInit [c] Y mass gvel gforce dt)
  obtain ⟨k, rfl⟩ := Nat.exists_eq_add_of_lt (hpos hm)
  rw [Nat.zero_add] at hrun
  have hrun' : gsRun [c] Y mass gvel gforce dt maxiters tol = _ := hrun
  rw [Function.iterate_succ_apply'] at hrun'
  obtain ⟨is, his⟩ := iterate_sweep [c] (gsAdm [c] Y) dt k (gsInit [c] Y mass gvel gforce dt)
  set g := (sweep [c] (gsAdm [c] Y) dt)^[k] (gsInit [c] Y mass gvel gforce dt) with hg
  have hl' : ∀ c' ∈ [c], Lawful c'.cls := by
    intro c' h; rw [List.mem_singleton] at h; rw [h]; exact hl
  have hinv := C36_invariant hl' Y mass gvel gforce dt is ⟨0, by simp⟩
  simp only [← his] at hinv
  have hkeep : ∀ k : ℕ, ∀ g : GS [c], P (g.st ⟨0, by simp⟩) → c.cls.jac (g.st ⟨0, by simp⟩) = c.cls.jac c.st →
      P (((sweep [c] (gsAdm [c] Y) dt)^[k] g).st ⟨0, by simp⟩) ∧
      c.cls.jac (((sweep [c] (gsAdm [c] Y) dt)^[k] g).st ⟨0, by simp⟩) = c.cls.jac c.st := by
    intro k
    induction k with
    | zero => intro g h h'; exact ⟨h, h'⟩
    | succ k ih =>
      intro g h h'
      rw [Function.iterate_succ_apply]
      have e : (sweep [c] (gsAdm [c] Y) dt g).st ⟨0, by simp⟩ =
        (c.cls.solve (g.st ⟨0, by simp⟩) (velOf [c] g.vel ⟨0, by simp⟩) (admOf [c] (gsAdm [c] Y) ⟨0, by simp⟩) dt).1 := by
        change (solveOne [c] (gsAdm [c] Y) dt g ⟨0, by simp⟩).st ⟨0, by simp⟩ = _
        simp [solveOne]
      apply ih
      · rw [e]; exact hP _ _ _ _ h
      · rw [e]; exact (hl.jac _ _ _ _).trans h'
  obtain ⟨hPg, hjg⟩ := hkeep k (gsInit [c] Y mass gvel gforce dt) h0 rfl
  refine ⟨g.st ⟨0, by simp⟩, hPg, hjg, ?_⟩
  rw [hrun']
  have e : (sweep [c] (gsAdm [c] Y) dt g).st ⟨0, by simp⟩ =
      (c.cls.solve (g.st ⟨0, by simp⟩) (velOf [c] g.vel ⟨0, by simp⟩) (admOf [c] (gsAdm [c] Y) ⟨0, by simp⟩) dt).1 := by
    change (solveOne [c] (gsAdm [c] Y) dt g ⟨0, by simp⟩).st ⟨0, by simp⟩ = _
    simp [solveOne]
  rw [e]
  have e1 : velOf [c] g.vel ⟨0, by simp⟩ =
      c.cls.jac c.st *ᵥ (Y *ᵥ (dt⁻¹ • (mass *ᵥ gvel) + (gforce + (c.cls.jac c.st)ᵀ *ᵥ c.cls.force (g.st ⟨0, by simp⟩)))) := by
    rw [hinv, totalForce_single]
    have : (([c].get ⟨0, by simp⟩).cls.jac (g.st ⟨0, by simp⟩)) = c.cls.jac c.st := hjg
    rw [this]
    congr 5
    exact congrArg Matrix.transpose hjg
  have e2 : admOf [c] (gsAdm [c] Y) ⟨0, by simp⟩ = c.cls.jac c.st * Y * (c.cls.jac c.st)ᵀ := by
    rw [Matrix.mul_assoc]; rfl
  rw [e1, e2]

/-! ### joint limits -/

/-- the row of the jacobian of a `JointLimits` on one dof -/
private abbrev jlJ (n : ℕ) (p : JLParams 1) : Matrix (Fin 1) (Fin n) ℝ :=
  Matrix.of fun i j => if j.val = p.start + i.val then 1 else 0

lemma jl_row {p : JLParams 1} (hst : p.start < n) (v : Fin n → ℝ) : (jlJ n p *ᵥ v) 0 = v ⟨p.start, hst⟩ := by
  rw [Matrix.mulVec, dotProduct, Finset.sum_eq_single (⟨p.start, hst⟩ : Fin n)]
  · simp
  · intro j _ hj
    have : j.val ≠ p.start := fun h => hj (Fin.ext h)
    simp [this]
  · simp

lemma jl_col {p : JLParams 1} (hst : p.start < n) (f : Fin 1 → ℝ) :
    (jlJ n p)ᵀ *ᵥ f = Pi.single (⟨p.start, hst⟩ : Fin n) (f 0) := by
  funext j
  by_cases h : j = ⟨p.start, hst⟩
  · subst h; simp [Matrix.mulVec, dotProduct]
  · have : j.val ≠ p.start := fun h' => h (Fin.ext h')
    simp [Matrix.mulVec, dotProduct, this, h]

lemma updateConstraints_eq {mass : Matrix (Fin n) (Fin n) ℝ} {gvel : Fin n → ℝ} {w : CtrlOut n} {l cs : List (Con n)} {dt : ℝ}
    (hdt : 0 < dt) (h : activeCons dt l = cs) (maxiters : ℕ) (tol : ℝ) :
    updateConstraints mass gvel w l dt maxiters tol =
      .ok (addGforces cs (gsRun cs w.admittance mass gvel w.gforce dt maxiters tol).st w.gforce,
        (gsRun cs w.admittance mass gvel w.gforce dt maxiters tol).cons) := by
  subst h
  simp only [updateConstraints, if_pos hdt]

/-- C39, in a world of any size whose only active constraint is a `JointLimits` on the joint of one dof number
`start`.  If the joint is near one of its limits when `update_constraints` is called then, whatever the controllers, the
mass matrix and the number of iterations: the constraint adds to the generalized forces a force `f` on that dof only; after
`integrate` the position reached at the end of the step, `gpos + dt·gvel'`, is in the limits; `f` pushes inwards, and only if
the position is then at the limit; `f` is zero if the velocity without constraint keeps the joint strictly inside. -/
theorem C39_world {pinv : Matrix (Fin 1) (Fin 1) ℝ → Matrix (Fin 1) (Fin 1) ℝ} (hp : ∀ A, IsPinv A (pinv A)) {p : JLParams 1}
    (hst : p.start < n) (hmm : p.min 0 ≤ p.max 0) {s : JLState 1} (hen : s.enabled = true)
    (hnear : s.gpos 0 - p.min 0 < p.proximity 0 ∨ p.max 0 - s.gpos 0 < p.proximity 0)
    {mass : Matrix (Fin n) (Fin n) ℝ} {gvel : Fin n → ℝ} {w : CtrlOut n} {dt : ℝ}
    (hY : 0 < w.admittance ⟨p.start, hst⟩ ⟨p.start, hst⟩) {maxiters : ℕ} (hmax : 0 < maxiters) {tol : ℝ}
    {g v v0 : Fin n → ℝ} {cs : List (Con n)}
    (hu : updateConstraints mass gvel w [⟨jointLimits n pinv p, s⟩] dt maxiters tol = .ok (g, cs))
    (hi : integrateGvel mass w.admittance gvel g dt = .ok v)
    (hi0 : integrateGvel mass w.admittance gvel w.gforce dt = .ok v0) :
    ∃ f : ℝ, g = w.gforce + Pi.single ⟨p.start, hst⟩ f ∧
      cs = [⟨jointLimits n pinv p, { s with pos0 := s.gpos, force := fun _ => f }⟩] ∧
      p.min 0 ≤ s.gpos 0 + dt * v ⟨p.start, hst⟩ ∧ s.gpos 0 + dt * v ⟨p.start, hst⟩ ≤ p.max 0 ∧
      (0 < f → s.gpos 0 + dt * v ⟨p.start, hst⟩ = p.min 0) ∧ (f < 0 → s.gpos 0 + dt * v ⟨p.start, hst⟩ = p.max 0) ∧
      (p.min 0 < s.gpos 0 + dt * v0 ⟨p.start, hst⟩ → s.gpos 0 + dt * v0 ⟨p.start, hst⟩ < p.max 0 → f = 0) := by
  classical
  have hdt : 0 < dt := by
    unfold integrateGvel at hi
    by_contra h
    rw [if_neg h] at hi; cases hi
  let c0 : Con n := ⟨jointLimits n pinv p, { s with pos0 := s.gpos, force := 0 }⟩
  have hact : activeCons dt [(⟨jointLimits n pinv p, s⟩ : Con n)] = [c0] := by
    have h1 : (jointLimits n pinv p).enabled s = true := hen
    have h2 : (jointLimits n pinv p).active ((jointLimits n pinv p).update s dt) = true := by
      change decide _ = true
      rw [decide_eq_true_iff]
      exact hnear.imp (fun h => ⟨0, h⟩) (fun h => ⟨0, h⟩)
    simp [activeCons, h1, h2]
    rfl
  rw [updateConstraints_eq hdt hact] at hu
  obtain ⟨hg, hcs⟩ := Prod.mk.inj (Except.ok.inj hu)
  let P : JLState 1 → Prop := fun st => ∃ f, st = { s with pos0 := s.gpos, force := f }
  obtain ⟨st, ⟨f0, hf0⟩, -, hrun⟩ := single_run (c := c0) (C36_jointLimits n pinv p) P ⟨0, rfl⟩
    (by rintro st vel A dt ⟨f, rfl⟩; exact ⟨_, rfl⟩) w.admittance mass gvel w.gforce dt hmax tol
  set d : Fin n := ⟨p.start, hst⟩ with hd
  let J : Matrix (Fin 1) (Fin n) ℝ := jlJ n p
  have hforce : c0.cls.force st = f0 := by rw [hf0]; rfl
  let vel : Fin 1 → ℝ := J *ᵥ (w.admittance *ᵥ (dt⁻¹ • (mass *ᵥ gvel) + (w.gforce + Jᵀ *ᵥ f0)))
  let A : Matrix (Fin 1) (Fin 1) ℝ := J * w.admittance * Jᵀ
  have hrun' : (gsRun [c0] w.admittance mass gvel w.gforce dt maxiters tol).st ⟨0, by simp⟩ =
      ((jointLimits n pinv p).solve { s with pos0 := s.gpos, force := f0 } vel A dt).1 := by
    rw [hrun, hforce, hf0]; rfl
  -- the velocity and the admittance of the dof
  have hA0 : A 0 0 = w.admittance d d := by
    have h1 : A 0 0 = (J *ᵥ (w.admittance *ᵥ (Jᵀ *ᵥ (Pi.single (0 : Fin 1) (1:ℝ) : Fin 1 → ℝ)))) 0 := by
      rw [Matrix.mulVec_mulVec, Matrix.mulVec_mulVec, Matrix.mulVec_single_one]
      rfl
    rw [h1, jl_row hst, jl_col hst]
    simp [hd]
  have hv0 : v0 = w.admittance *ᵥ (dt⁻¹ • (mass *ᵥ gvel) + w.gforce) := by
    unfold integrateGvel at hi0
    rw [if_pos hdt] at hi0
    rw [← Except.ok.inj hi0, Matrix.mulVec_smul]
  have hvel0 : vel 0 = v0 d + w.admittance d d * f0 0 := by
    change (J *ᵥ _) 0 = _
    rw [jl_row hst, jl_col hst, ← add_assoc, Matrix.mulVec_add, Pi.add_apply, ← hv0]
    simp [hd]
  set r := jlSolve pinv p.min p.max s.gpos f0 vel A dt with hr
  have hst1 : (gsRun [c0] w.admittance mass gvel w.gforce dt maxiters tol).st ⟨0, by simp⟩ =
      { s with pos0 := s.gpos, force := r.1 } := by
    rw [hrun']; rfl
  have hr2 : r.1 = f0 + r.2 := by
    have := (C36_jointLimits n pinv p).force { s with pos0 := s.gpos, force := f0 } vel A dt
    exact this
  have hg' : g = w.gforce + Pi.single d (r.1 0) := by
    rw [← hg, addGforces_eq, ← totalForce_cons, totalForce_single]
    congr 1
    rw [hst1]
    exact jl_col hst _
  have hvd : v d = v0 d + w.admittance d d * r.1 0 := by
    unfold integrateGvel at hi
    rw [if_pos hdt] at hi
    rw [← Except.ok.inj hi, hg', ← add_assoc, Matrix.mulVec_add, Pi.add_apply, Matrix.mulVec_smul, ← hv0]
    simp
  have key := C39_one_dof (pinv := pinv) (mn := p.min) (mx := p.max) (pos0 := s.gpos) (force := f0) (vel := vel) (Y := A)
    (hp A) (by rw [hA0]; exact hY) hmm hdt
  have e1 : vel 0 + A 0 0 * r.2 0 = v d := by
    rw [hvel0, hA0, hvd, hr2, Pi.add_apply]; ring
  have e2 : vel 0 - A 0 0 * f0 0 = v0 d := by rw [hvel0, hA0]; ring
  simp only at key
  rw [← hr, e1, e2] at key
  refine ⟨r.1 0, hg', ?_, key⟩
  rw [← hcs]
  have e3 : (fun _ : Fin 1 => r.1 0) = r.1 := by funext i; rw [Subsingleton.elim i 0]
  rw [e3, ← hst1]
  simp [GS.cons, List.finRange_succ]
  rfl

/-- the premises of C39_world are met: a world of two dofs with unit masses; the second dof, at 1 between the limits 0 and
1, is moving outwards at speed 5 -/
example : ∃ (s : JLState 1) (p : JLParams 1) (w : CtrlOut 2), p.start < 2 ∧ p.min 0 ≤ p.max 0 ∧ s.enabled = true ∧
    p.max 0 - s.gpos 0 < p.proximity 0 ∧ 0 < w.admittance 1 1 ∧
    (∃ g cs, updateConstraints 1 ![0, 5] w [⟨jointLimits 2 (fun A => A⁻¹) p, s⟩] 1 = .ok (g, cs)) ∧
    ∃ v0, integrateGvel 1 w.admittance ![0, 5] w.gforce 1 = .ok v0 ∧ p.max 0 < s.gpos 0 + 1 * v0 1 := by
  refine ⟨⟨true, 1, 0, 0⟩, ⟨0, 1, fun _ => 1/10, 1⟩, ⟨0, 1, 1⟩, ?_, ?_, rfl, ?_, ?_, ?_, ?_⟩
  · norm_num
  · norm_num
  · norm_num
  · norm_num
  · simp only [updateConstraints, if_pos (one_pos (α := ℝ))]
    exact ⟨_, _, rfl⟩
  · simp only [integrateGvel, if_pos (one_pos (α := ℝ))]
    refine ⟨_, rfl, ?_⟩
    norm_num

/-- C39: a joint far from its limits is left alone. -/
theorem C39_far {k : ℕ} {pinv : Matrix (Fin k) (Fin k) ℝ → Matrix (Fin k) (Fin k) ℝ} {p : JLParams k} {s : JLState k}
    (hfar : ∀ i, p.min i + p.proximity i ≤ s.gpos i ∧ s.gpos i ≤ p.max i - p.proximity i)
    {mass : Matrix (Fin n) (Fin n) ℝ} {gvel : Fin n → ℝ} {w : CtrlOut n} {dt : ℝ} (hdt : 0 < dt) (maxiters : ℕ) (tol : ℝ) :
    updateConstraints mass gvel w [⟨jointLimits n pinv p, s⟩] dt maxiters tol = .ok (w.gforce, []) := by
  classical
  have h2 : (jointLimits n pinv p).active ((jointLimits n pinv p).update s dt) = false := by
    change decide _ = false
    rw [decide_eq_false_iff_not]
    rintro (⟨i, hi⟩ | ⟨i, hi⟩)
    · have := (hfar i).1
      change s.gpos i - p.min i < p.proximity i at hi
      linarith
    · have := (hfar i).2
      change p.max i - s.gpos i < p.proximity i at hi
      linarith
  have hact : activeCons dt [(⟨jointLimits n pinv p, s⟩ : Con n)] = [] := by
    simp [activeCons, h2]
  rw [updateConstraints_eq hdt hact]
  rfl

/-- C43: after its update, a `JointLimits` or `SoftFingerContact` reports no force until it is solved: one that is not
active at this step has zero generalized force. -/
theorem C43_released (dt : ℝ) {k : ℕ} (pinv : Matrix (Fin k) (Fin k) ℝ → Matrix (Fin k) (Fin k) ℝ) (p : JLParams k) (s : JLState k)
    (pinv' : Matrix (Fin 4) (Fin 4) ℝ → Matrix (Fin 4) (Fin 4) ℝ) (eps : Vec3) (mu : ℝ) (upd : SFState n → ℝ → SFState n)
    (s' : SFState n) :
    Con.gforce (⟨jointLimits n pinv p, (jointLimits n pinv p).update s dt⟩ : Con n) = 0 ∧
    Con.gforce (⟨softFinger n pinv' eps mu upd, (softFinger n pinv' eps mu upd).update s' dt⟩ : Con n) = 0 :=
  ⟨Matrix.mulVec_zero _, Matrix.mulVec_zero _⟩

/-! ### the jacobian of a contact -/

/-- velocity, in the axes of `C`, of the point of the body of pose `B` and twist `T` that is at the origin of `C`, and
angular velocity of the body in these axes -/
lemma frame_twist {B C : Mat4} (hB : IsRigid B) (hC : IsRigid C) (T : Vec6) :
    adjointBody (invBody C) *ᵥ (adjointBody B *ᵥ T) = tw ((rot C)ᵀ *ᵥ (rot B *ᵥ ang T))
      ((rot C)ᵀ *ᵥ (rot B *ᵥ lin T + (rot B *ᵥ ang T) ⨯₃ (pos C - pos B))) := by
  obtain ⟨R, p, hR, rfl⟩ := isRigid_iff.mp hB
  obtain ⟨S, q, hS, rfl⟩ := isRigid_iff.mp hC
  simp only [rot_mkH, pos_mkH]
  conv_lhs => rw [← tw_ang_lin T]
  rw [adjointBody_mkH, blk_mulVec]
  unfold invBody
  simp only [rot_mkH, pos_mkH]
  rw [adjointBody_mkH, blk_mulVec, ← Matrix.mulVec_mulVec, ← Matrix.mulVec_mulVec]
  generalize R *ᵥ ang T = W
  generalize R *ᵥ lin T = V
  have e1 : skew (-(Sᵀ *ᵥ q)) *ᵥ (Sᵀ *ᵥ W) = Sᵀ *ᵥ (W ⨯₃ q) := by
    rw [Arboris.skew_mulVec, map_neg, LinearMap.neg_apply, cross_anticomm, hS.transpose.cross]
  have e2 : skew p *ᵥ W = -(W ⨯₃ p) := by rw [Arboris.skew_mulVec, ← cross_anticomm]
  simp only [Matrix.zero_mulVec, add_zero]
  rw [e1, e2, ← Matrix.mulVec_add, map_sub]
  congr 2
  abel

/-- C75: what the four rows of the jacobian of a soft-finger contact mean, whatever the frames: times the generalized
velocity `ν`, they give, in the axes x, y, z of the first contact frame, the spin about the normal z and the velocity, at the
origin of that frame, of the second body relative to the first. -/
theorem C75_velocity {H0 H1 : Mat4} (h0 : IsRigid H0) (h1 : IsRigid H1) (J0 J1 : Matrix (Fin 6) (Fin n) ℝ) (ν : Fin n → ℝ) :
    let W : Mat4 → Matrix (Fin 6) (Fin n) ℝ → Vec3 := fun H J => rot H *ᵥ ang (J *ᵥ ν)
    let V : Mat4 → Matrix (Fin 6) (Fin n) ℝ → Vec3 := fun H J => rot H *ᵥ lin (J *ᵥ ν) + W H J ⨯₃ (pos H0 - pos H)
    let axis : Fin 3 → Vec3 := fun i k => H0 k.castSucc i.castSucc
    sfJac H0 H1 J0 J1 *ᵥ ν = ![axis 2 ⬝ᵥ (W H1 J1 - W H0 J0), axis 0 ⬝ᵥ (V H1 J1 - V H0 J0),
      axis 1 ⬝ᵥ (V H1 J1 - V H0 J0), axis 2 ⬝ᵥ (V H1 J1 - V H0 J0)] := by
  intro W V axis
  have e0 : J0 *ᵥ ν = adjointBody (invBody H0) *ᵥ (adjointBody H0 *ᵥ (J0 *ᵥ ν)) := by
    rw [Matrix.mulVec_mulVec, h0.adjoint_inv_mul, Matrix.one_mulVec]
  have e1 : adjointBody (relFrame H0 H1) *ᵥ (J1 *ᵥ ν) = adjointBody (invBody H0) *ᵥ (adjointBody H1 *ᵥ (J1 *ᵥ ν)) := by
    rw [relFrame, adjointBody_mul h0.invBody h1, ← Matrix.mulVec_mulVec]
  have key : adjointBody (relFrame H0 H1) *ᵥ (J1 *ᵥ ν) - J0 *ᵥ ν =
      tw ((rot H0)ᵀ *ᵥ (W H1 J1 - W H0 J0)) ((rot H0)ᵀ *ᵥ (V H1 J1 - V H0 J0)) := by
    rw [e1]
    conv_lhs => rw [e0]
    rw [frame_twist h1 h0, frame_twist h0 h0]
    simp only [Matrix.mulVec_sub]
    funext i
    fin_cases i <;> simp [tw, W, V]
  have hr : ∀ {m : ℕ} (A : Matrix (Fin 6) (Fin m) ℝ) (x : Fin m → ℝ), rows26 A *ᵥ x = ![(A *ᵥ x) 2, (A *ᵥ x) 3, (A *ᵥ x) 4, (A *ᵥ x) 5] := by
    intro m A x
    funext i
    fin_cases i <;> simp [rows26, Matrix.mulVec, dotProduct]
  rw [sfJac, Matrix.sub_mulVec, ← Matrix.mulVec_mulVec, hr, hr]
  have hk : ∀ i, (adjointBody (relFrame H0 H1) *ᵥ (J1 *ᵥ ν)) i - (J0 *ᵥ ν) i = _ := fun i => congrFun key i
  funext i
  fin_cases i
  · simpa [tw, axis, rot, Matrix.mulVec, dotProduct, Fin.sum_univ_three] using hk 2
  · simpa [tw, axis, rot, Matrix.mulVec, dotProduct, Fin.sum_univ_three] using hk 3
  · simpa [tw, axis, rot, Matrix.mulVec, dotProduct, Fin.sum_univ_three] using hk 4
  · simpa [tw, axis, rot, Matrix.mulVec, dotProduct, Fin.sum_univ_three] using hk 5

end Arboris
