import Verif.Proofs.GaussSeidel
import Verif.Props.WorldLimits

/-!
# C86: the constraint solver converges

Worlds whose active constraints are ball-and-socket constraints, when the admittance seen by the constraints is symmetric
positive definite.
-/

namespace Arboris
open Matrix Spec BlockGS

variable {n : ℕ}

/-- `solve` cancels the predicted gap `g + dt·vel` of the constraint: what the ball-and-socket constraint does -/
def Bilateral (c : Con n) (dt : ℝ) (g : Fin c.cls.ndol → ℝ) (P : c.cls.St → Prop) : Prop :=
  P c.st ∧ ∀ st, P st → ∀ vel Y, P (c.cls.solve st vel Y dt).1 ∧
    (SymPD Y → (c.cls.solve st vel Y dt).2 = -(Y⁻¹ *ᵥ (vel + dt⁻¹ • g)))

section
variable {cs : List (Con n)} {dt : ℝ} {gap : (i : Fin cs.length) → Fin (cs.get i).cls.ndol → ℝ}
  {P : (i : Fin cs.length) → (cs.get i).cls.St → Prop}

/-- predicted gaps, divided by `dt` -/
noncomputable def resid (dt : ℝ) (gap : (i : Fin cs.length) → Fin (cs.get i).cls.ndol → ℝ) (s : GS cs) : Dol cs → ℝ :=
  fun x => s.vel x + dt⁻¹ * gap x.1 x.2

lemma resid_solveOne (hb : ∀ i, Bilateral (cs.get i) dt (gap i) (P i)) {A : Matrix (Dol cs) (Dol cs) ℝ} (hA : SymPD A)
    {s : GS cs} (hs : ∀ i, P i (s.st i)) (i : Fin cs.length) :
    resid dt gap (solveOne cs A dt s i) = gsStep A i (resid dt gap s) ∧ ∀ j, P j ((solveOne cs A dt s i).st j) := by
  obtain ⟨h1, h2⟩ := (hb i).2 (s.st i) (hs i) (velOf cs s.vel i) (admOf cs A i)
  constructor
  · funext x
    have h3 := h2 (diag_pd hA i)
    change s.vel x + ∑ k, A x ⟨i, k⟩ * ((cs.get i).cls.solve (s.st i) (velOf cs s.vel i) (admOf cs A i) dt).2 k
      + dt⁻¹ * gap x.1 x.2 = s.vel x + dt⁻¹ * gap x.1 x.2 + ∑ k, A x ⟨i, k⟩ * corr A i (resid dt gap s) k
    rw [h3]
    have : corr A i (resid dt gap s) = -((admOf cs A i)⁻¹ *ᵥ (velOf cs s.vel i + dt⁻¹ • gap i)) := rfl
    rw [this]
    ring
  · intro j
    by_cases h : j = i
    · subst h
      simpa [solveOne] using h1
    · simpa [solveOne, Function.update_of_ne h] using hs j

lemma resid_sweep (hb : ∀ i, Bilateral (cs.get i) dt (gap i) (P i)) {A : Matrix (Dol cs) (Dol cs) ℝ} (hA : SymPD A)
    {s : GS cs} (hs : ∀ i, P i (s.st i)) :
    resid dt gap (sweep cs A dt s) = (List.finRange cs.length).foldl (fun r i => gsStep A i r) (resid dt gap s) ∧
      ∀ j, P j ((sweep cs A dt s).st j) := by
  unfold sweep
  generalize List.finRange cs.length = l
  induction l generalizing s with
  | nil => exact ⟨rfl, hs⟩
  | cons i l ih =>
    obtain ⟨h1, h2⟩ := resid_solveOne hb hA hs i
    obtain ⟨h3, h4⟩ := ih h2
    simp only [List.foldl_cons]
    rw [← h1]
    exact ⟨h3, h4⟩

lemma resid_iterate (hb : ∀ i, Bilateral (cs.get i) dt (gap i) (P i)) {A : Matrix (Dol cs) (Dol cs) ℝ} (hA : SymPD A)
    {s : GS cs} (hs : ∀ i, P i (s.st i)) (m : ℕ) :
    resid dt gap ((sweep cs A dt)^[m] s) =
      (fun r => (List.finRange cs.length).foldl (fun r i => gsStep A i r) r)^[m] (resid dt gap s) ∧
      ∀ j, P j (((sweep cs A dt)^[m] s).st j) := by
  induction m with
  | zero => exact ⟨rfl, hs⟩
  | succ m ih =>
    rw [Function.iterate_succ_apply', Function.iterate_succ_apply']
    obtain ⟨h1, h2⟩ := resid_sweep hb hA ih.2
    exact ⟨by rw [h1, ih.1], h2⟩

lemma le_norm2 {ι : Type} [Fintype ι] (v : ι → ℝ) : ‖v‖ ≤ norm2 v := by
  refine (pi_norm_le_iff_of_nonneg (Real.sqrt_nonneg _)).mpr fun i => ?_
  rw [Real.norm_eq_abs]
  apply Real.le_sqrt_of_sq_le
  rw [sq_abs]
  exact Finset.single_le_sum (f := fun i => v i ^ 2) (fun j _ => sq_nonneg _) (Finset.mem_univ i)

/-- the gap after the step, from the residual of the solver -/
lemma gap_resid (hl : ∀ c ∈ cs, Lawful c.cls) (hb : ∀ i, Bilateral (cs.get i) dt (gap i) (P i))
    {Y mass : Matrix (Fin n) (Fin n) ℝ}
    {gvel gforce : Fin n → ℝ} (hdt : 0 < dt) (maxiters : ℕ) (tol : ℝ) {v : Fin n → ℝ}
    (hv : integrateGvel mass Y gvel (addGforces cs (gsRun cs Y mass gvel gforce dt maxiters tol).st gforce) dt = .ok v)
    (i : Fin cs.length) (k : Fin (cs.get i).cls.ndol)
    (hj : (cs.get i).cls.jac ((gsRun cs Y mass gvel gforce dt maxiters tol).st i) = (cs.get i).cls.jac (cs.get i).st) :
    |gap i k + dt * ((cs.get i).cls.jac (cs.get i).st *ᵥ v) k| ≤
      dt * ‖resid dt gap (gsRun cs Y mass gvel gforce dt maxiters tol)‖ := by
  have h := C36_final hl Y mass gvel gforce dt maxiters tol i v hv
  rw [hj] at h
  have e : gap i k + dt * ((cs.get i).cls.jac (cs.get i).st *ᵥ v) k =
      dt * resid dt gap (gsRun cs Y mass gvel gforce dt maxiters tol) ⟨i, k⟩ := by
    rw [← h]
    unfold resid velOf
    have := hdt.ne'
    field_simp
    ring
  rw [e, abs_mul, abs_of_pos hdt]
  exact mul_le_mul_of_nonneg_left (norm_le_pi_norm (resid dt gap _) ⟨i, k⟩) hdt.le

lemma jac_run (hl : ∀ c ∈ cs, Lawful c.cls) (A : Matrix (Dol cs) (Dol cs) ℝ) (dt : ℝ) (is : List (Fin cs.length)) (s : GS cs)
    (i : Fin cs.length) : (cs.get i).cls.jac ((is.foldl (solveOne cs A dt) s).st i) = (cs.get i).cls.jac (s.st i) := by
  induction is generalizing s with
  | nil => rfl
  | cons j is ih =>
    rw [List.foldl_cons, ih]
    by_cases h : i = j
    · subst h
      simp only [solveOne, Function.update_self]
      exact (hl _ (List.get_mem cs i)).jac _ _ _ _
    · simp [solveOne, Function.update_of_ne h]

lemma bilateral_converges (hl : ∀ c ∈ cs, Lawful c.cls) (hb : ∀ i, Bilateral (cs.get i) dt (gap i) (P i))
    {Y mass : Matrix (Fin n) (Fin n) ℝ} {gvel gforce : Fin n → ℝ} (hdt : 0 < dt) (hA : SymPD (gsAdm cs Y)) :
    (∀ ε > 0, ∃ N, ∀ maxiters ≥ N, ∀ tol ≤ 0, ∀ v,
      integrateGvel mass Y gvel (addGforces cs (gsRun cs Y mass gvel gforce dt maxiters tol).st gforce) dt = .ok v →
      ∀ i k, |gap i k + dt * ((cs.get i).cls.jac (cs.get i).st *ᵥ v) k| ≤ ε) := by
  intro ε hε
  have hs0 : ∀ i, P i ((gsInit cs Y mass gvel gforce dt).st i) := fun i => (hb i).1
  obtain ⟨N, hN⟩ := gs_tendsto hA (l := List.finRange cs.length) (fun i => List.mem_finRange i)
    (resid dt gap (gsInit cs Y mass gvel gforce dt)) (ε / dt) (div_pos hε hdt)
  refine ⟨N, fun maxiters hm tol htol v hv i k => ?_⟩
  have hj := jac_run hl (gsAdm cs Y) dt
  obtain ⟨is, his⟩ := C36_loop cs Y mass gvel gforce dt maxiters tol
  obtain ⟨m, hm1, hrun, _, hstop⟩ := C36_stop cs Y mass gvel gforce dt maxiters tol
  have hmm : m = maxiters := by
    by_contra hne
    have := (hstop (lt_of_le_of_ne hm1 hne)).2
    exact absurd (lt_of_lt_of_le this htol) (not_lt.mpr (Real.sqrt_nonneg _))
  refine (gap_resid hl hb hdt maxiters tol hv i k (by rw [his]; exact hj is _ i)).trans ?_
  rw [hrun, (resid_iterate hb hA hs0 m).1, hmm]
  have := hN maxiters hm
  calc _ ≤ dt * (ε / dt) := mul_le_mul_of_nonneg_left this hdt.le
    _ = ε := by field_simp

lemma bilateral_tolerance (hl : ∀ c ∈ cs, Lawful c.cls) (hb : ∀ i, Bilateral (cs.get i) dt (gap i) (P i))
    {Y : Matrix (Fin n) (Fin n) ℝ} {C : ℝ}
    (hC : 1 ≤ C ∧ ∀ r : Dol cs → ℝ, ‖(List.finRange cs.length).foldl (fun r i => gsStep (gsAdm cs Y) i r) r‖ ≤
      C * ‖(List.finRange cs.length).foldl (fun r i => gsStep (gsAdm cs Y) i r) r - r‖)
    {mass : Matrix (Fin n) (Fin n) ℝ} {gvel gforce : Fin n → ℝ} (hdt : 0 < dt) (hA : SymPD (gsAdm cs Y)) :
    ∀ tol > 0, ∃ N, ∀ maxiters ≥ N, ∀ v,
      integrateGvel mass Y gvel (addGforces cs (gsRun cs Y mass gvel gforce dt maxiters tol).st gforce) dt = .ok v →
      ∀ i k, |gap i k + dt * ((cs.get i).cls.jac (cs.get i).st *ᵥ v) k| ≤ dt * (C * tol) := by
  intro tol htol
  have hs0 : ∀ i, P i ((gsInit cs Y mass gvel gforce dt).st i) := fun i => (hb i).1
  obtain ⟨N, hN⟩ := gs_tendsto hA (l := List.finRange cs.length) (fun i => List.mem_finRange i)
    (resid dt gap (gsInit cs Y mass gvel gforce dt)) tol htol
  refine ⟨N, fun maxiters hm v hv i k => ?_⟩
  have hj := jac_run hl (gsAdm cs Y) dt
  obtain ⟨is, his⟩ := C36_loop cs Y mass gvel gforce dt maxiters tol
  obtain ⟨m, hm1, hrun, _, hstop⟩ := C36_stop cs Y mass gvel gforce dt maxiters tol
  refine (gap_resid hl hb hdt maxiters tol hv i k (by rw [his]; exact hj is _ i)).trans ?_
  apply mul_le_mul_of_nonneg_left _ hdt.le
  rcases lt_or_eq_of_le hm1 with hlt | heq
  · obtain ⟨h2, h3⟩ := hstop hlt
    obtain ⟨j, rfl⟩ := Nat.exists_eq_add_of_le' (show 1 ≤ m by omega)
    rw [hrun]
    simp only [Nat.add_sub_cancel] at h3
    beta_reduce
    rw [Function.iterate_succ_apply'] at h3 ⊢
    set s := (sweep cs (gsAdm cs Y) dt)^[j] (gsInit cs Y mass gvel gforce dt) with hs
    have hPs : ∀ i, P i (s.st i) := (resid_iterate hb hA hs0 j).2
    obtain ⟨h4, _⟩ := resid_sweep hb hA hPs
    have h5 := hC.2 (resid dt gap s)
    rw [← h4] at h5
    refine h5.trans (mul_le_mul_of_nonneg_left ?_ (by linarith [hC.1]))
    refine le_trans (le_of_eq ?_) ((le_norm2 _).trans h3.le)
    congr 1
    funext x
    simp [resid]
  · rw [hrun, (resid_iterate hb hA hs0 m).1, heq]
    have := hN maxiters hm
    nlinarith [hC.1]
end

/-- the ball-and-socket constraint is bilateral -/
lemma bs_bilateral {pinv : Mat3 → Mat3} (hp : ∀ A, IsPinv A (pinv A)) (dt : ℝ) (c : Con n) (s : BSState n)
    (h : c = ⟨ballAndSocket n pinv, s⟩) :
    ∃ (g : Fin c.cls.ndol → ℝ) (P : c.cls.St → Prop), Bilateral c dt g P ∧ Lawful c.cls ∧
      ∀ (v : Fin n → ℝ) (ε : ℝ), (∀ k, |g k + dt * (c.cls.jac c.st *ᵥ v) k| ≤ ε) →
        ∀ k : Fin 3, |s.pos0 k + dt * (bsJac s.pose0 s.pose1 s.jac0 s.jac1 *ᵥ v) k| ≤ ε := by
  subst h
  refine ⟨s.pos0, fun st : BSState n => st.pos0 = s.pos0, ⟨rfl, ?_⟩, C36_ballAndSocket n pinv, fun v ε h => h⟩
  intro st (hst : st.pos0 = s.pos0) (vel : Vec3) (Y : Mat3)
  refine ⟨hst, fun hY => ?_⟩
  change -(pinv Y *ᵥ (vel + dt⁻¹ • st.pos0)) = _
  rw [hst]
  have : pinv Y = Y⁻¹ := (Matrix.inv_eq_right_inv (IsPinv.eq_inv (hp Y) (pd_det hY)).1).symm
  rw [this]
  rfl

lemma bs_inj {pinv : Mat3 → Mat3} {a b : BSState n} (h : (⟨ballAndSocket n pinv, a⟩ : Con n) = ⟨ballAndSocket n pinv, b⟩) :
    a = b := by
  cases h; rfl

/-- C86.  Any number of ball-and-socket constraints, with a symmetric positive definite admittance, any state of the world
and any forces left by the previous step: without tolerance (`tol ≤ 0`), the gaps `pos0 + dt·(jacobian·gvel)` after the step
can be made as small as wanted, for all the constraints, by allowing enough iterations. -/
theorem C86_converges {pinv : Mat3 → Mat3} (hp : ∀ A, IsPinv A (pinv A)) {cs : List (Con n)}
    (hbs : ∀ c ∈ cs, ∃ s, c = ⟨ballAndSocket n pinv, s⟩) {Y : Matrix (Fin n) (Fin n) ℝ} (hA : SymPD (gsAdm cs Y))
    (mass : Matrix (Fin n) (Fin n) ℝ) (gvel gforce : Fin n → ℝ) {dt : ℝ} (hdt : 0 < dt) :
    ∀ ε > 0, ∃ N, ∀ maxiters ≥ N, ∀ tol ≤ 0, ∀ v,
      integrateGvel mass Y gvel (addGforces cs (gsRun cs Y mass gvel gforce dt maxiters tol).st gforce) dt = .ok v →
      ∀ s : BSState n, (⟨ballAndSocket n pinv, s⟩ : Con n) ∈ cs →
        ∀ k : Fin 3, |s.pos0 k + dt * (bsJac s.pose0 s.pose1 s.jac0 s.jac1 *ᵥ v) k| ≤ ε := by
  intro ε hε
  choose st hst using fun i : Fin cs.length => hbs _ (List.get_mem cs i)
  choose g P hb hl hg using fun i => bs_bilateral hp dt (cs.get i) (st i) (hst i)
  have hl' : ∀ c ∈ cs, Lawful c.cls := by
    intro c hc
    obtain ⟨s, rfl⟩ := hbs c hc
    exact C36_ballAndSocket n pinv
  obtain ⟨N, hN⟩ := bilateral_converges hl' hb (mass := mass) (gvel := gvel) (gforce := gforce) hdt hA ε hε
  refine ⟨N, fun maxiters hm tol ht v hv s hs => ?_⟩
  obtain ⟨i, hi⟩ := List.get_of_mem hs
  have h1 := hg i v ε (hN maxiters hm tol ht v hv i)
  have h2 : st i = s := bs_inj ((hst i).symm.trans hi)
  rwa [h2] at h1

/-- C86, with the criterion the code uses: there is a constant `C`, the same for all states of the world, all forces and all
tolerances, such that for any `tol > 0`, if enough iterations are allowed, every gap is at most `dt·C·tol` after the
step. -/
theorem C86_tolerance {pinv : Mat3 → Mat3} (hp : ∀ A, IsPinv A (pinv A)) {cs : List (Con n)}
    (hbs : ∀ c ∈ cs, ∃ s, c = ⟨ballAndSocket n pinv, s⟩) {Y : Matrix (Fin n) (Fin n) ℝ} (hA : SymPD (gsAdm cs Y)) :
    ∃ C : ℝ, ∀ (mass : Matrix (Fin n) (Fin n) ℝ) (gvel gforce : Fin n → ℝ) (dt : ℝ), 0 < dt → ∀ tol > 0, ∃ N,
      ∀ maxiters ≥ N, ∀ v,
      integrateGvel mass Y gvel (addGforces cs (gsRun cs Y mass gvel gforce dt maxiters tol).st gforce) dt = .ok v →
      ∀ s : BSState n, (⟨ballAndSocket n pinv, s⟩ : Con n) ∈ cs →
        ∀ k : Fin 3, |s.pos0 k + dt * (bsJac s.pose0 s.pose1 s.jac0 s.jac1 *ᵥ v) k| ≤ dt * (C * tol) := by
  obtain ⟨K, hK, hK2⟩ := gs_small hA (l := List.finRange cs.length) (fun i => List.mem_finRange i)
  refine ⟨K + 1, fun mass gvel gforce dt hdt tol ht => ?_⟩
  choose st hst using fun i : Fin cs.length => hbs _ (List.get_mem cs i)
  choose g P hb hl hg using fun i => bs_bilateral hp dt (cs.get i) (st i) (hst i)
  have hl' : ∀ c ∈ cs, Lawful c.cls := by
    intro c hc
    obtain ⟨s, rfl⟩ := hbs c hc
    exact C36_ballAndSocket n pinv
  obtain ⟨N, hN⟩ := bilateral_tolerance hl' hb (C := K + 1)
    ⟨by linarith, fun r => (hK2 r).trans (by gcongr; linarith)⟩ (mass := mass) (gvel := gvel) (gforce := gforce) hdt hA tol ht
  refine ⟨N, fun maxiters hm v hv s hs => ?_⟩
  obtain ⟨i, hi⟩ := List.get_of_mem hs
  have h1 := hg i v _ (hN maxiters hm v hv i)
  have h2 : st i = s := bs_inj ((hst i).symm.trans hi)
  rwa [h2] at h1

/-! ### a case -/

/-- C86: when its hypothesis holds.  If the impedance of the world (`mass/dt` plus viscosity, non-linear effects and
controllers) is symmetric positive definite, as it is at rest with symmetric, dissipative controllers, and the rows of the
constraints' jacobians are independent, then the admittance seen by the constraints is symmetric positive definite. -/
theorem C86_hypothesis {cs : List (Con n)} {Z : Matrix (Fin n) (Fin n) ℝ} (hZ : SymPD Z)
    (h : ∀ x : Dol cs → ℝ, (∀ j, ∑ i, ∑ k, (cs.get i).cls.jac (cs.get i).st k j * x ⟨i, k⟩ = 0) → x = 0) :
    SymPD (gsAdm cs Z⁻¹) := by
  set J := stackJac cs fun i => (cs.get i).st with hJ
  have e : gsAdm cs Z⁻¹ = J * (Z⁻¹ * Jᵀ) := rfl
  have hsym : (Z⁻¹)ᵀ = Z⁻¹ := by rw [Matrix.transpose_nonsing_inv, hZ.1]
  rw [e]
  constructor
  · rw [Matrix.transpose_mul, Matrix.transpose_mul, Matrix.transpose_transpose, hsym, Matrix.mul_assoc]
  · intro x hx
    have hne : Jᵀ *ᵥ x ≠ 0 := by
      intro h0
      apply hx
      apply h
      intro j
      have := congrFun h0 j
      unfold Matrix.mulVec dotProduct at this
      rw [Fintype.sum_sigma] at this
      exact this
    rw [← Matrix.mulVec_mulVec, ← Matrix.mulVec_mulVec, Matrix.dotProduct_mulVec, ← Matrix.mulVec_transpose]
    exact energy_pos hZ hne

/-- the state of a constraint between a fixed frame and a point moving with velocity `L·gvel` -/
noncomputable def pointOn {n : ℕ} (L : Matrix (Fin 3) (Fin n) ℝ) (p : Vec3) : BSState n :=
  ⟨true, 1, mkH 1 p, 0, Matrix.of fun i j => if h : 3 ≤ i.val then L ⟨i.val - 3, by omega⟩ j else 0, p, 0⟩

lemma pointOn_jac {n : ℕ} (L : Matrix (Fin 3) (Fin n) ℝ) (p : Vec3) :
    bsJac (pointOn L p).pose0 (pointOn L p).pose1 (pointOn L p).jac0 (pointOn L p).jac1 = L := by
  have hr : relFrame (1 : Mat4) (mkH 1 p) = mkH 1 p := by
    have h1 := isRigid_one.mul_invBody
    rw [Matrix.one_mul] at h1
    rw [relFrame, h1, Matrix.one_mul]
  unfold bsJac
  change rows36 (adjointBody (relFrame (1 : Mat4) (mkH 1 p))) * _ - rows36 0 = L
  rw [hr, adjointBody_mkH]
  ext i j
  fin_cases i <;> simp [rows36, Matrix.mul_apply, Fin.sum_univ_six, blk, pointOn]

/-- Two constraints that pull on the same dofs: the first on the point moved by the dofs 0–2, the second on a point moved by
all of them, with gaps of 1 and 2; the hypotheses of C86 hold. -/
example (pinv : Mat3 → Mat3) :
    let L1 : Matrix (Fin 3) (Fin 6) ℝ := Matrix.of fun i j => if j.val = i.val then 1 else 0
    let L2 : Matrix (Fin 3) (Fin 6) ℝ := Matrix.of fun i j => if j.val = i.val ∨ j.val = i.val + 3 then 1 else 0
    let cs : List (Con 6) := [⟨ballAndSocket 6 pinv, pointOn L1 ![1, 0, 0]⟩, ⟨ballAndSocket 6 pinv, pointOn L2 ![0, 2, 0]⟩]
    (∀ c ∈ cs, ∃ s, c = ⟨ballAndSocket 6 pinv, s⟩) ∧ SymPD (gsAdm cs 1) := by
  intro L1 L2 cs
  have hone : SymPD (1 : Matrix (Fin 6) (Fin 6) ℝ) := ⟨Matrix.transpose_one, fun x hx => by
    rw [Matrix.one_mulVec]
    exact lt_of_le_of_ne (Finset.sum_nonneg fun i _ => mul_self_nonneg _) fun h0 => hx (dotProduct_self_eq_zero.mp h0.symm)⟩
  rw [← inv_one (G := Matrix (Fin 6) (Fin 6) ℝ)]
  refine ⟨by rintro c hc; simp only [cs, List.mem_cons, List.not_mem_nil, or_false] at hc; rcases hc with rfl | rfl <;> exact ⟨_, rfl⟩,
    C86_hypothesis hone fun x hx => ?_⟩
  have hrow : ∀ j : Fin 6, ∑ k : Fin 3, L1 k j * x ⟨0, k⟩ + ∑ k : Fin 3, L2 k j * x ⟨1, k⟩ = 0 := by
    intro j
    have h := hx j
    have h2 : ∀ f : Fin 2 → ℝ, ∑ i, f i = f 0 + f 1 := fun f => Fin.sum_univ_two f
    have h3 := (h2 (fun i : Fin cs.length => ∑ k, (cs.get i).cls.jac (cs.get i).st k j * x ⟨i, k⟩)).symm.trans h
    have e1 : ∀ k : Fin 3, L1 k j = (cs.get 0).cls.jac (cs.get 0).st k j := fun k =>
      (congrFun (congrFun (pointOn_jac L1 ![1, 0, 0]) k) j).symm
    have e2 : ∀ k : Fin 3, L2 k j = (cs.get 1).cls.jac (cs.get 1).st k j := fun k =>
      (congrFun (congrFun (pointOn_jac L2 ![0, 2, 0]) k) j).symm
    simp only [e1, e2]
    exact h3
  have b : ∀ k : Fin 3, x ⟨1, k⟩ = 0 := by
    intro k
    have h := hrow ⟨k.val + 3, by omega⟩
    fin_cases k <;> simpa [L1, L2, Fin.sum_univ_three] using h
  have a : ∀ k : Fin 3, x ⟨0, k⟩ = 0 := by
    intro k
    have h := hrow ⟨k.val, by omega⟩
    have h0 := b 0; have h1 := b 1; have h2 := b 2
    fin_cases k <;> simpa [L1, L2, Fin.sum_univ_three, h0, h1, h2] using h
  funext ⟨i, k⟩
  match i, k with
  | ⟨0, _⟩, k => exact a k
  | ⟨1, _⟩, k => exact b k

end Arboris
