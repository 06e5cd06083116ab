import Verif.Spec.Step
import Verif.Props.Dynamics

/-! # Properties C32, C33, C36, C43, C44 and C74: one step of the simulation -/

namespace Arboris
open Matrix Spec

/-! ### controllers -/

lemma sumControllers_eq {n : ℕ} (g : Fin n → ℝ) (Z : Matrix (Fin n) (Fin n) ℝ) (cs : List (CtrlVal n)) :
    sumControllers g Z cs = (g + (cs.map (·.gforce)).sum, Z - (cs.map (·.impedance)).sum) := by
  induction cs generalizing g Z with
  | nil => simp [sumControllers]
  | cons a l ih => simp [sumControllers, ih, add_assoc, sub_sub]

/-- C33: a step uses the sum of the controllers' forces and the sum of their impedances (minus), and succeeds exactly
when `dt > 0` and the resulting impedance is invertible. -/
theorem C33_sum {n : ℕ} (mass visc nle : Matrix (Fin n) (Fin n) ℝ) (dt : ℝ) (cs : List (CtrlVal n)) (o : CtrlOut n) :
    updateControllers mass visc nle dt cs = .ok o ↔
      0 < dt ∧ o.impedance.det ≠ 0 ∧ o.gforce = (cs.map (·.gforce)).sum ∧
      o.impedance = dt⁻¹ • mass + visc + nle - (cs.map (·.impedance)).sum ∧
      o.admittance * o.impedance = 1 := by
  simp only [updateControllers, sumControllers_eq, zero_add]
  by_cases hdt : 0 < dt
  · rw [if_pos hdt]
    simp only [hdt, true_and]
    set Z := dt⁻¹ • mass + visc + nle - (cs.map (·.impedance)).sum with hZ
    by_cases hd : Z.det = 0
    · simp only [if_pos hd]
      constructor
      · intro h; cases h
      · rintro ⟨h1, _, h2, _⟩; rw [h2] at h1; exact absurd hd h1
    · simp only [if_neg hd]
      have hu : IsUnit Z.det := isUnit_iff_ne_zero.mpr hd
      constructor
      · intro h
        cases h
        exact ⟨hd, rfl, rfl, Matrix.nonsing_inv_mul _ hu⟩
      · rintro ⟨_, h1, h2, h3⟩
        obtain ⟨g, Z', Y⟩ := o
        simp only at h1 h2 h3
        subst h1 h2
        congr
        exact (Matrix.inv_eq_left_inv h3)
  · simp only [if_neg hdt]
    constructor
    · intro h; cases h
    · rintro ⟨h, _⟩; exact absurd h hdt
/-- C33: registration order does not matter. -/
theorem C33_perm {n : ℕ} (mass visc nle : Matrix (Fin n) (Fin n) ℝ) (dt : ℝ) {cs cs' : List (CtrlVal n)}
    (h : cs.Perm cs') : updateControllers mass visc nle dt cs = updateControllers mass visc nle dt cs' := by
  simp only [updateControllers, sumControllers_eq, (h.map (·.gforce)).sum_eq, (h.map (·.impedance)).sum_eq]
/-- a concrete world of two dofs and two controllers meets the right-hand side of C33 -/
example : ∃ o, updateControllers (n := 2) 1 0 0 (1/2) [⟨![1, 0], 0⟩, ⟨![0, 2], -1⟩] = .ok o ∧
    o.gforce = ![1, 2] := by
  have h : ∃ o : CtrlOut 2, o.impedance = (3 : ℝ) • (1 : Matrix (Fin 2) (Fin 2) ℝ) ∧ o.admittance = (3 : ℝ)⁻¹ • 1 ∧
      o.gforce = ![1, 2] := ⟨⟨_, _, _⟩, rfl, rfl, rfl⟩
  obtain ⟨o, h1, h2, h3⟩ := h
  refine ⟨o, (C33_sum _ _ _ _ _ _).mpr ⟨by norm_num, ?_, ?_, ?_, ?_⟩, h3⟩
  · rw [h1]; simp
  · rw [h3]; simp
  · rw [h1]; ext i j; fin_cases i <;> fin_cases j <;> norm_num
  · rw [h1, h2]; simp

/-! ### constraints -/

variable {n : ℕ}

lemma addGforces_eq (cs : List (Con n)) (st : (i : Fin cs.length) → (cs.get i).cls.St) (g : Fin n → ℝ) :
    addGforces cs st g = g + ∑ i, gforceOf cs st i := by
  rw [addGforces, foldl_add_eq, Fin.sum_univ_def]

lemma totalForce_cons {cs : List (Con n)} (s : GS cs) : totalForce s.cons = ∑ i, gforceOf cs s.st i := by
  rw [totalForce, GS.cons, List.map_map, Fin.sum_univ_def]; rfl

/-- the invariant of the solver -/
def GSInv (cs : List (Con n)) (Y mass : Matrix (Fin n) (Fin n) ℝ) (gvel gforce : Fin n → ℝ) (dt : ℝ) (s : GS cs) :
    Prop :=
  (∀ i, (cs.get i).cls.jac (s.st i) = (cs.get i).cls.jac (cs.get i).st) ∧
  s.vel = stackJac cs (fun i => (cs.get i).st) *ᵥ
    (Y *ᵥ (mass *ᵥ (dt⁻¹ • gvel) + (gforce + ∑ i, gforceOf cs s.st i)))

lemma gsInv_init (cs : List (Con n)) (Y mass : Matrix (Fin n) (Fin n) ℝ) (gvel gforce : Fin n → ℝ) (dt : ℝ) :
    GSInv cs Y mass gvel gforce dt (gsInit cs Y mass gvel gforce dt) := by
  refine ⟨fun i => rfl, ?_⟩
  simp only [gsInit, addGforces_eq]

lemma stack_col (cs : List (Con n)) (Y : Matrix (Fin n) (Fin n) ℝ) (i : Fin cs.length)
    (df : Fin (cs.get i).cls.ndol → ℝ) (x : Dol cs) :
    ∑ k, gsAdm cs Y x ⟨i, k⟩ * df k =
      (stackJac cs (fun i => (cs.get i).st) *ᵥ (Y *ᵥ (((cs.get i).cls.jac (cs.get i).st)ᵀ *ᵥ df))) x := by
  rw [Matrix.mulVec_mulVec, gsAdm, ← Matrix.mul_assoc]
  generalize (stackJac cs fun i => (cs.get i).st) * Y = P
  simp only [Matrix.mul_apply, mulVec, dotProduct, Matrix.transpose_apply, Finset.sum_mul, Finset.mul_sum]
  rw [Finset.sum_comm]
  refine Finset.sum_congr rfl fun j _ => Finset.sum_congr rfl fun k _ => ?_
  simp only [stackJac, Matrix.of_apply]
  ring

lemma gsInv_solveOne {cs : List (Con n)} {Y mass : Matrix (Fin n) (Fin n) ℝ} {gvel gforce : Fin n → ℝ} {dt : ℝ}
    (hl : ∀ c ∈ cs, Lawful c.cls) (dt' : ℝ) {s : GS cs} (h : GSInv cs Y mass gvel gforce dt s) (i : Fin cs.length) :
    GSInv cs Y mass gvel gforce dt (solveOne cs (gsAdm cs Y) dt' s i) := by
  have hli := hl _ (List.get_mem cs i)
  set r := (cs.get i).cls.solve (s.st i) (velOf cs s.vel i) (admOf cs (gsAdm cs Y) i) dt' with hr
  have hstep : solveOne cs (gsAdm cs Y) dt' s i =
    { st := Function.update s.st i r.1, vel := fun x => s.vel x + ∑ k, gsAdm cs Y x ⟨i, k⟩ * r.2 k } := rfl
  rw [hstep]
  refine ⟨fun j => ?_, ?_⟩
  · by_cases hj : j = i
    · subst hj
      simp only [Function.update_self]
      rw [hr, hli.jac, h.1]
    · simp only [Function.update_of_ne hj]; exact h.1 j
  · have hg : ∀ j, gforceOf cs (Function.update s.st i r.1) j = gforceOf cs s.st j +
        (if j = i then ((cs.get i).cls.jac (cs.get i).st)ᵀ *ᵥ r.2 else 0) := by
      intro j
      by_cases hj : j = i
      · subst hj
        simp only [gforceOf, Con.gforce, Function.update_self, if_true]
        rw [hr, hli.jac, hli.force, h.1, Matrix.mulVec_add]
      · simp [gforceOf, Function.update_of_ne hj, hj]
    simp only [hg, Finset.sum_add_distrib, Finset.sum_ite_eq', Finset.mem_univ, if_true]
    funext x
    rw [stack_col, h.2]
    simp only [Matrix.mulVec_add, Pi.add_apply]
    ring

/-- The velocity `World.integrate` would compute with the constraint forces of the state `s`. -/
noncomputable def endVel (cs : List (Con n)) (Y mass : Matrix (Fin n) (Fin n) ℝ) (gvel gforce : Fin n → ℝ) (dt : ℝ) (s : GS cs) :
    Fin n → ℝ := Y *ᵥ (dt⁻¹ • (mass *ᵥ gvel) + (gforce + totalForce s.cons))

lemma gsInv_foldl {cs : List (Con n)} {Y mass : Matrix (Fin n) (Fin n) ℝ} {gvel gforce : Fin n → ℝ} {dt : ℝ}
    (hl : ∀ c ∈ cs, Lawful c.cls) (dt' : ℝ) (is : List (Fin cs.length)) {s : GS cs}
    (h : GSInv cs Y mass gvel gforce dt s) :
    GSInv cs Y mass gvel gforce dt (is.foldl (solveOne cs (gsAdm cs Y) dt') s) := by
  induction is generalizing s with
  | nil => exact h
  | cons i is ih => exact ih (gsInv_solveOne hl dt' h i)

lemma GSInv.vel_eq {cs : List (Con n)} {Y mass : Matrix (Fin n) (Fin n) ℝ} {gvel gforce : Fin n → ℝ} {dt : ℝ}
    {s : GS cs} (h : GSInv cs Y mass gvel gforce dt s) (i : Fin cs.length) :
    velOf cs s.vel i = (cs.get i).cls.jac (s.st i) *ᵥ endVel cs Y mass gvel gforce dt s := by
  funext k
  rw [velOf, h.2, endVel, totalForce_cons, h.1 i, Matrix.mulVec_smul]
  rfl

/-- C36: after any number of `solve` calls, in any order, the velocity `vel[c._dol]` the solver hands to a constraint is
that constraint's jacobian times the velocity `integrate` would give the world with the present constraint forces. -/
theorem C36_invariant {cs : List (Con n)} (hl : ∀ c ∈ cs, Lawful c.cls) (Y mass : Matrix (Fin n) (Fin n) ℝ)
    (gvel gforce : Fin n → ℝ) (dt : ℝ) (is : List (Fin cs.length)) (i : Fin cs.length) :
    let s := is.foldl (solveOne cs (gsAdm cs Y) dt) (gsInit cs Y mass gvel gforce dt)
    velOf cs s.vel i = (cs.get i).cls.jac (s.st i) *ᵥ (Y *ᵥ (dt⁻¹ • (mass *ᵥ gvel) + (gforce + totalForce s.cons))) :=
  (gsInv_foldl hl dt is (gsInv_init cs Y mass gvel gforce dt)).vel_eq i

/-- the loop performs between 0 and `maxiters` whole sweeps -/
lemma gsLoop_eq_sweeps (cs : List (Con n)) (A : Matrix (Dol cs) (Dol cs) ℝ) (dt tol : ℝ) (r : ℕ) (b : Bool) (s : GS cs) :
    ∃ m, m ≤ r ∧ (0 < r → 0 < m) ∧ gsLoop cs A dt tol r b s = (sweep cs A dt)^[m] s := by
  induction r generalizing b s with
  | zero => exact ⟨0, le_rfl, fun h => absurd h (lt_irrefl _), rfl⟩
  | succ r ih =>
    rw [gsLoop]
    split_ifs with h
    · exact ⟨1, by omega, fun _ => by omega, rfl⟩
    · obtain ⟨m, h1, _, h2⟩ := ih false (sweep cs A dt s)
      exact ⟨m + 1, by omega, fun _ => by omega, by rw [h2, Function.iterate_succ_apply]⟩

lemma iterate_sweep (cs : List (Con n)) (A : Matrix (Dol cs) (Dol cs) ℝ) (dt : ℝ) (m : ℕ) (s : GS cs) :
    ∃ is : List (Fin cs.length), (sweep cs A dt)^[m] s = is.foldl (solveOne cs A dt) s := by
  induction m generalizing s with
  | zero => exact ⟨[], rfl⟩
  | succ m ih =>
    obtain ⟨is, h⟩ := ih (sweep cs A dt s)
    exact ⟨List.finRange cs.length ++ is, by rw [Function.iterate_succ_apply, h, List.foldl_append]; rfl⟩

/-- C36: the loop of `update_constraints`, whatever `maxiters`, `tol` and the way it ends, is a sequence of solves. -/
theorem C36_loop (cs : List (Con n)) (Y mass : Matrix (Fin n) (Fin n) ℝ) (gvel gforce : Fin n → ℝ) (dt : ℝ)
    (maxiters : ℕ) (tol : ℝ) : ∃ is : List (Fin cs.length),
      gsRun cs Y mass gvel gforce dt maxiters tol =
        is.foldl (solveOne cs (gsAdm cs Y) dt) (gsInit cs Y mass gvel gforce dt) := by
  obtain ⟨m, _, _, h⟩ := gsLoop_eq_sweeps cs (gsAdm cs Y) dt tol maxiters true (gsInit cs Y mass gvel gforce dt)
  obtain ⟨is, h'⟩ := iterate_sweep cs (gsAdm cs Y) dt m (gsInit cs Y mass gvel gforce dt)
  exact ⟨is, by rw [gsRun, h, h']⟩
/-- C36: hence, at the end, `vel` is the constraint velocity after `integrate`. -/
theorem C36_final {cs : List (Con n)} (hl : ∀ c ∈ cs, Lawful c.cls) (Y mass : Matrix (Fin n) (Fin n) ℝ)
    (gvel gforce : Fin n → ℝ) (dt : ℝ) (maxiters : ℕ) (tol : ℝ) (i : Fin cs.length) :
    let s := gsRun cs Y mass gvel gforce dt maxiters tol
    ∀ v, integrateGvel mass Y gvel (addGforces cs s.st gforce) dt = .ok v →
      velOf cs s.vel i = (cs.get i).cls.jac (s.st i) *ᵥ v := by
  intro s v hv
  obtain ⟨is, h⟩ := C36_loop cs Y mass gvel gforce dt maxiters tol
  have hv' : v = endVel cs Y mass gvel gforce dt s := by
    unfold integrateGvel at hv
    split_ifs at hv with hdt
    have := (Except.ok.inj hv).symm
    rw [this, endVel, totalForce_cons, addGforces_eq, Matrix.mulVec_smul]
  rw [hv']
  have := C36_invariant hl Y mass gvel gforce dt is i
  simp only [← h] at this
  exact this

/-! ### C32 -/

/-- C32: whenever a step succeeds, the new velocity solves the discretised equation of motion with the sum of the
controllers' forces and the final constraint forces; it succeeds iff `dt > 0` and the impedance is invertible. -/
theorem C32_motion {mass visc nle : Matrix (Fin n) (Fin n) ℝ} {gvel gvel' : Fin n → ℝ} {ctrls : List (CtrlVal n)}
    {constraints cs' : List (Con n)} {dt : ℝ}
    (h : stepGvel mass visc nle gvel ctrls constraints dt = .ok (gvel', cs')) :
    EquationOfMotion mass visc nle (ctrls.map (·.impedance)).sum dt gvel gvel'
      ((ctrls.map (·.gforce)).sum + totalForce cs') := by
  unfold stepGvel at h
  cases hw : updateControllers mass visc nle dt ctrls with
  | error e => rw [hw] at h; cases h
  | ok w =>
    obtain ⟨hdt, hd, h1, h2, h3⟩ := (C33_sum _ _ _ _ _ _).mp hw
    simp only [hw, updateConstraints, if_pos hdt, integrateGvel] at h
    cases h
    have h4 : w.impedance * w.admittance = 1 := mul_eq_one_comm.mp h3
    rw [EquationOfMotion, ← h2, Matrix.mulVec_mulVec, h4, Matrix.one_mulVec, totalForce_cons, addGforces_eq, h1,
      Matrix.mulVec_smul]
/-- C32: success -/
theorem C32_succeeds (mass visc nle : Matrix (Fin n) (Fin n) ℝ) (gvel : Fin n → ℝ) (ctrls : List (CtrlVal n))
    (constraints : List (Con n)) (dt : ℝ) :
    (∃ r, stepGvel mass visc nle gvel ctrls constraints dt = .ok r) ↔
      0 < dt ∧ (dt⁻¹ • mass + visc + nle - (ctrls.map (·.impedance)).sum).det ≠ 0 := by
  have hk := C33_sum mass visc nle dt ctrls
  unfold stepGvel
  cases hw : updateControllers mass visc nle dt ctrls with
  | error e =>
    simp only [reduceCtorEq, exists_false, false_iff]
    rintro ⟨hdt, hd⟩
    have := (hk ⟨_, _, (dt⁻¹ • mass + visc + nle - (ctrls.map (·.impedance)).sum)⁻¹⟩).mpr
      ⟨hdt, hd, rfl, rfl, Matrix.nonsing_inv_mul _ (isUnit_iff_ne_zero.mpr hd)⟩
    rw [hw] at this; cases this
  | ok w =>
    obtain ⟨hdt, hd, h1, h2, h3⟩ := (hk _).mp hw
    simp only [updateConstraints, if_pos hdt, integrateGvel, hdt, true_and, ← h2]
    exact ⟨fun _ => hd, fun _ => ⟨_, rfl⟩⟩
/-- C32: a non-positive time step is refused. -/
theorem C32_refused {mass visc nle : Matrix (Fin n) (Fin n) ℝ} {gvel : Fin n → ℝ} {ctrls : List (CtrlVal n)}
    {constraints : List (Con n)} {dt : ℝ} (h : dt ≤ 0) :
    stepGvel mass visc nle gvel ctrls constraints dt = .error .assertion := by
  simp [stepGvel, updateControllers, not_lt.mpr h]

/-! ### C43 and C44 -/

/-- C43: a constraint that is disabled, or inactive after its update, changes nothing to the step: not the velocities,
not the other constraints, not even the success of the step, wherever it is in the list. -/
theorem C43_removable (mass visc nle : Matrix (Fin n) (Fin n) ℝ) (gvel : Fin n → ℝ) (ctrls : List (CtrlVal n))
    (l₁ l₂ : List (Con n)) (c : Con n) (dt : ℝ)
    (h : c.cls.enabled c.st = false ∨ c.cls.active (c.cls.update c.st dt) = false) :
    stepGvel mass visc nle gvel ctrls (l₁ ++ c :: l₂) dt = stepGvel mass visc nle gvel ctrls (l₁ ++ l₂) dt := by
  have : activeCons dt (l₁ ++ c :: l₂) = activeCons dt (l₁ ++ l₂) := by
    simp only [activeCons, List.filterMap_append, List.filterMap_cons]
    congr 1
    rcases h with h | h <;> simp [h]
  have h2 : ∀ w, updateConstraints mass gvel w (l₁ ++ c :: l₂) dt = updateConstraints mass gvel w (l₁ ++ l₂) dt := by
    intro w
    unfold updateConstraints
    rw [this]
  unfold stepGvel
  simp only [h2]

/-- C43: a constraint is solved only if it is enabled and active: the constraints in the result of a step come, in
order, from enabled, active ones. -/
theorem C43_only_active {mass visc nle : Matrix (Fin n) (Fin n) ℝ} {gvel gvel' : Fin n → ℝ} {ctrls : List (CtrlVal n)}
    {constraints cs' : List (Con n)} {dt : ℝ}
    (h : stepGvel mass visc nle gvel ctrls constraints dt = .ok (gvel', cs')) :
    cs'.map (·.cls) = (constraints.filter fun c =>
      c.cls.enabled c.st && c.cls.active (c.cls.update c.st dt)).map (·.cls) := by
  unfold stepGvel at h
  cases hw : updateControllers mass visc nle dt ctrls with
  | error e => rw [hw] at h; cases h
  | ok w =>
    obtain ⟨hdt, -⟩ := (C33_sum _ _ _ _ _ _).mp hw
    simp only [hw, updateConstraints, if_pos hdt, integrateGvel] at h
    cases h
    have : ∀ (cs : List (Con n)) (s : GS cs), s.cons.map (·.cls) = cs.map (·.cls) := by
      intro cs s
      apply List.ext_getElem
      · simp [GS.cons]
      · intro i h1 h2; simp [GS.cons]
    rw [this]
    clear this
    induction constraints with
    | nil => rfl
    | cons c l ih =>
      simp only [activeCons, List.filterMap_cons, List.filter_cons] at ih ⊢
      cases h1 : c.cls.enabled c.st <;> cases h2 : c.cls.active (c.cls.update c.st dt) <;> simp_all

/-- C44: the power of the constraints' generalized force is the sum of the powers of the constraint forces. -/
theorem C44_power (cs : List (Con n)) (st : (i : Fin cs.length) → (cs.get i).cls.St) (ν : Fin n → ℝ) :
    ν ⬝ᵥ addGforces cs st 0 =
      ∑ i, (cs.get i).cls.force (st i) ⬝ᵥ ((cs.get i).cls.jac (st i) *ᵥ ν) := by
  rw [addGforces_eq, zero_add, dotProduct_sum]
  refine Finset.sum_congr rfl fun i _ => ?_
  rw [gforceOf, Con.gforce, dot_transpose_mul, dotProduct_comm]

end Arboris
