import Verif.Proofs.ProjectedGS
import Verif.Props.GaussSeidel

/-!
# C117: the constraint solver converges to the only solution, for joint limits and ball-and-socket constraints
-/

namespace Arboris
open Matrix Spec BlockGS Filter Topology

variable {n : ℕ}

/-! ### specification -/

/-- a `JointLimits` on a joint of one dof, or a `BallAndSocketConstraint`, with what they read of the world -/
inductive Spec.Hold (n : ℕ) where
  | limit (p : JLParams 1) (s : JLState 1)
  | ball (s : BSState n)

/-- it is enabled and, for limits, the joint is near one of its limits -/
def Spec.Hold.Active : Hold n → Prop
  | .limit p s => s.enabled = true ∧ (s.gpos 0 - p.min 0 < p.proximity 0 ∨ p.max 0 - s.gpos 0 < p.proximity 0)
  | .ball s => s.enabled = true

/-- limits of a dof of the world, the lower below the upper -/
def Spec.Hold.Sound : Hold n → Prop
  | .limit p _ => p.start < n ∧ p.min 0 ≤ p.max 0
  | .ball _ => True

/-- what the constraint asks at the end of the step, `v` being the velocity then, and `g` the generalized force it applies: a limit holds
the joint within the limits, by a force on its dof that pushes inwards and only at the limit; a ball and socket closes its gap -/
def Spec.Hold.Obeyed (dt : ℝ) (v g : Fin n → ℝ) : Hold n → Prop
  | .limit p s => ∃ (h : p.start < n) (f : ℝ), g = Pi.single ⟨p.start, h⟩ f ∧
      p.min 0 ≤ s.gpos 0 + dt * v ⟨p.start, h⟩ ∧ s.gpos 0 + dt * v ⟨p.start, h⟩ ≤ p.max 0 ∧
      (0 < f → s.gpos 0 + dt * v ⟨p.start, h⟩ = p.min 0) ∧ (f < 0 → s.gpos 0 + dt * v ⟨p.start, h⟩ = p.max 0)
  | .ball s => ∃ f : Vec3, g = (bsJac s.pose0 s.pose1 s.jac0 s.jac1)ᵀ *ᵥ f ∧
      ∀ k, pos (relFrame s.pose0 s.pose1) k + dt * (bsJac s.pose0 s.pose1 s.jac0 s.jac1 *ᵥ v) k = 0

open Classical in
/-- `v` is the velocity at the end of the step if the active constraints are obeyed: the equation of motion with the admittance `Y`, with the
forces `G` of the constraints -/
def Spec.SolvedTogether (L : List (Hold n)) (Y mass : Matrix (Fin n) (Fin n) ℝ) (gvel gforce : Fin n → ℝ) (dt : ℝ) (v : Fin n → ℝ) (G : List (Fin n → ℝ)) : Prop :=
  List.Forall₂ (fun c g => c.Obeyed dt v g) (L.filter fun c => c.Active) G ∧ v = Y *ᵥ (dt⁻¹ • (mass *ᵥ gvel) + gforce + G.sum)

/-- the constraint, as an object of the world -/
noncomputable def Spec.Hold.con (pinv1 : Matrix (Fin 1) (Fin 1) ℝ → Matrix (Fin 1) (Fin 1) ℝ) (pinv3 : Mat3 → Mat3) : Hold n → Con n
  | .limit p s => ⟨jointLimits n pinv1 p, s⟩
  | .ball s => ⟨ballAndSocket n pinv3, s⟩

/-! ### constraints whose law derives from a potential -/

/-- `solve` enforces a law that derives from a convex potential -/
structure Obedient (c : Con n) (dt : ℝ) (law : (Fin c.cls.ndol → ℝ) → (Fin c.cls.ndol → ℝ) → Prop) (h : (Fin c.cls.ndol → ℝ) → ℝ) (P : c.cls.St → Prop) : Prop where
  init : P c.st
  keep : ∀ st, P st → ∀ vel Y, P (c.cls.solve st vel Y dt).1
  obeys : ∀ st, P st → ∀ vel Y, SymPD Y → law (vel + Y *ᵥ (c.cls.solve st vel Y dt).2) (c.cls.force (c.cls.solve st vel Y dt).1)
  sub : ∀ u f, law u f → ∀ g, h f - u ⬝ᵥ (g - f) ≤ h g
  closed : IsClosed {x : (Fin c.cls.ndol → ℝ) × (Fin c.cls.ndol → ℝ) | law x.1 x.2}

section
variable {cs : List (Con n)}

/-- velocities and forces -/
def pairOf (s : GS cs) : (Dol cs → ℝ) × (Dol cs → ℝ) := (s.vel, fun x => (cs.get x.1).cls.force (s.st x.1) x.2)

variable {dt : ℝ} {law : (i : Fin cs.length) → (Fin (cs.get i).cls.ndol → ℝ) → (Fin (cs.get i).cls.ndol → ℝ) → Prop}
  {h : (i : Fin cs.length) → (Fin (cs.get i).cls.ndol → ℝ) → ℝ} {P : (i : Fin cs.length) → (cs.get i).cls.St → Prop}

lemma pair_solveOne (hl : ∀ c ∈ cs, Lawful c.cls) (ho : ∀ i, Obedient (cs.get i) dt (law i) (h i) (P i)) {A : Matrix (Dol cs) (Dol cs) ℝ} (hA : SymPD A)
    {s : GS cs} (hs : ∀ i, P i (s.st i)) (i : Fin cs.length) :
    Solves A law i (pairOf s) (pairOf (solveOne cs A dt s i)) ∧ ∀ j, P j ((solveOne cs A dt s i).st j) := by
  set r := (cs.get i).cls.solve (s.st i) (velOf cs s.vel i) (admOf cs A i) dt with hr
  have hstep : solveOne cs A dt s i = { st := Function.update s.st i r.1, vel := fun x => s.vel x + ∑ k, A x ⟨i, k⟩ * r.2 k } := rfl
  have hf := (hl _ (List.get_mem cs i)).force (s.st i) (velOf cs s.vel i) (admOf cs A i) dt
  rw [← hr] at hf
  rw [hstep]
  refine ⟨⟨r.2, ?_, ?_, ?_⟩, ?_⟩
  · funext ⟨j, k⟩
    by_cases hj : j = i
    · subst hj
      simp only [pairOf, Function.update_self, Pi.add_apply, ext_self, hf]
    · simp only [pairOf, Function.update_of_ne hj, Pi.add_apply, ext_ne hj, add_zero]
  · funext x
    exact congrArg (s.vel x + ·) (ext_dot i r.2 (A x)).symm
  · have := (ho i).obeys _ (hs i) (velOf cs s.vel i) (admOf cs A i) (diag_pd hA i)
    rw [← hr] at this
    have e : block (pairOf ({ st := Function.update s.st i r.1, vel := fun x => s.vel x + ∑ k, A x ⟨i, k⟩ * r.2 k } : GS cs)).2 i = (cs.get i).cls.force r.1 := by
      funext k
      simp only [block, pairOf, Function.update_self]
    rw [e]
    exact this
  · intro j
    by_cases hj : j = i
    · subst hj
      simp only [Function.update_self]
      exact (ho j).keep _ (hs j) _ _
    · simpa [Function.update_of_ne hj] using hs j

lemma pair_sweep (hl : ∀ c ∈ cs, Lawful c.cls) (ho : ∀ i, Obedient (cs.get i) dt (law i) (h i) (P i)) {A : Matrix (Dol cs) (Dol cs) ℝ} (hA : SymPD A)
    {s : GS cs} (hs : ∀ i, P i (s.st i)) :
    Passes A law (List.finRange cs.length) (pairOf s) (pairOf (sweep cs A dt s)) ∧ ∀ j, P j ((sweep cs A dt s).st j) := by
  unfold sweep
  generalize List.finRange cs.length = l
  induction l generalizing s with
  | nil => exact ⟨.nil _, hs⟩
  | cons i l ih =>
    obtain ⟨h1, h2⟩ := pair_solveOne hl ho hA hs i
    obtain ⟨h3, h4⟩ := ih h2
    exact ⟨.cons h1 h3, h4⟩

/-- the velocity at the end of the step, with the forces `f` -/
noncomputable def velWith (cs : List (Con n)) (Y mass : Matrix (Fin n) (Fin n) ℝ) (gvel gforce : Fin n → ℝ) (dt : ℝ) (f : Dol cs → ℝ) : Fin n → ℝ :=
  Y *ᵥ (dt⁻¹ • (mass *ᵥ gvel) + gforce + (stackJac cs fun i => (cs.get i).st)ᵀ *ᵥ f)

lemma gforce_sum {st : (i : Fin cs.length) → (cs.get i).cls.St} (hj : ∀ i, (cs.get i).cls.jac (st i) = (cs.get i).cls.jac (cs.get i).st) :
    ∑ i, gforceOf cs st i = (stackJac cs fun i => (cs.get i).st)ᵀ *ᵥ fun x => (cs.get x.1).cls.force (st x.1) x.2 := by
  funext j
  simp only [Finset.sum_apply, gforceOf, Con.gforce, Matrix.mulVec, dotProduct, Fintype.sum_sigma, hj]
  rfl

lemma inv_pair {Y mass : Matrix (Fin n) (Fin n) ℝ} {gvel gforce : Fin n → ℝ} {s : GS cs} (hi : GSInv cs Y mass gvel gforce dt s) :
    (pairOf s).1 = (stackJac cs fun i => (cs.get i).st) *ᵥ velWith cs Y mass gvel gforce dt (pairOf s).2 ∧
      Y *ᵥ (mass *ᵥ (dt⁻¹ • gvel) + addGforces cs s.st gforce) = velWith cs Y mass gvel gforce dt (pairOf s).2 := by
  have e : Y *ᵥ (mass *ᵥ (dt⁻¹ • gvel) + addGforces cs s.st gforce) = velWith cs Y mass gvel gforce dt (pairOf s).2 := by
    rw [addGforces_eq, gforce_sum hi.1, velWith, Matrix.mulVec_smul, add_assoc]
    rfl
  refine ⟨?_, e⟩
  rw [← e, addGforces_eq]
  exact hi.2

lemma velWith_sub (Y mass : Matrix (Fin n) (Fin n) ℝ) (gvel gforce : Fin n → ℝ) (f f' : Dol cs → ℝ) :
    velWith cs Y mass gvel gforce dt f - velWith cs Y mass gvel gforce dt f' = Y *ᵥ ((stackJac cs fun i => (cs.get i).st)ᵀ *ᵥ (f - f')) := by
  unfold velWith
  rw [← Matrix.mulVec_sub Y, Matrix.mulVec_sub _ f f']
  congr 1
  abel

lemma jac_velWith (Y mass : Matrix (Fin n) (Fin n) ℝ) (gvel gforce : Fin n → ℝ) (f : Dol cs → ℝ) :
    (stackJac cs fun i => (cs.get i).st) *ᵥ velWith cs Y mass gvel gforce dt f - gsAdm cs Y *ᵥ f =
      (stackJac cs fun i => (cs.get i).st) *ᵥ velWith cs Y mass gvel gforce dt 0 := by
  have := congrArg (fun x => (stackJac cs fun i => (cs.get i).st) *ᵥ x) (velWith_sub (cs := cs) (dt := dt) Y mass gvel gforce f 0)
  simp only [Matrix.mulVec_sub, sub_zero] at this
  have e : gsAdm cs Y *ᵥ f = (stackJac cs fun i => (cs.get i).st) *ᵥ (Y *ᵥ ((stackJac cs fun i => (cs.get i).st)ᵀ *ᵥ f)) := by
    simp only [gsAdm, Matrix.mulVec_mulVec]
  rw [e, ← this]
  abel

/-- the forces with which the laws hold -/
def Answers (law : (i : Fin cs.length) → (Fin (cs.get i).cls.ndol → ℝ) → (Fin (cs.get i).cls.ndol → ℝ) → Prop) (Y mass : Matrix (Fin n) (Fin n) ℝ) (gvel gforce : Fin n → ℝ)
    (dt : ℝ) (f : Dol cs → ℝ) : Prop :=
  ∀ i, law i (fun k => ((cs.get i).cls.jac (cs.get i).st *ᵥ velWith cs Y mass gvel gforce dt f) k) fun k => f ⟨i, k⟩

lemma obedient_converges {Y : Matrix (Fin n) (Fin n) ℝ} (hl : ∀ c ∈ cs, Lawful c.cls) (hA : SymPD (gsAdm cs Y)) :
    ∃ C : ℝ, 0 ≤ C ∧ ∀ {dt : ℝ} {law : (i : Fin cs.length) → (Fin (cs.get i).cls.ndol → ℝ) → (Fin (cs.get i).cls.ndol → ℝ) → Prop}
      {h : (i : Fin cs.length) → (Fin (cs.get i).cls.ndol → ℝ) → ℝ} {P : (i : Fin cs.length) → (cs.get i).cls.St → Prop},
      (∀ i, Obedient (cs.get i) dt (law i) (h i) (P i)) → ∀ (mass : Matrix (Fin n) (Fin n) ℝ) (gvel gforce : Fin n → ℝ),
      ∃ f, Answers law Y mass gvel gforce dt f ∧ (∀ f', Answers law Y mass gvel gforce dt f' → f' = f) ∧
        (∀ ε > 0, ∃ N, ∀ maxiters ≥ N, ∀ tol ≤ 0,
          ‖Y *ᵥ (mass *ᵥ (dt⁻¹ • gvel) + addGforces cs (gsRun cs Y mass gvel gforce dt maxiters tol).st gforce) - velWith cs Y mass gvel gforce dt f‖ ≤ ε) ∧
        ∀ tol > 0, ∃ N, ∀ maxiters ≥ N,
          ‖Y *ᵥ (mass *ᵥ (dt⁻¹ • gvel) + addGforces cs (gsRun cs Y mass gvel gforce dt maxiters tol).st gforce) - velWith cs Y mass gvel gforce dt f‖ ≤ C * tol := by
  obtain ⟨K1, k1, hK1⟩ := passes_near hA
  obtain ⟨K2, k2, hK2⟩ := near_near hA
  let Lm := LinearMap.toContinuousLinearMap (Matrix.mulVecLin (Y * (stackJac cs fun i => (cs.get i).st)ᵀ))
  have hLm : ∀ D : Dol cs → ℝ, ‖Y *ᵥ ((stackJac cs fun i => (cs.get i).st)ᵀ *ᵥ D)‖ ≤ ‖Lm‖ * ‖D‖ := by
    intro D
    have := Lm.le_opNorm D
    rw [Matrix.mulVec_mulVec]
    exact this
  set K3 := ‖Lm‖
  have k3 : 0 ≤ K3 := norm_nonneg _
  refine ⟨K3 * (K2 * K1) + 1, by positivity, fun {dt law h P} ho mass gvel gforce => ?_⟩
  have hsub : SubGrad law h := fun i u f hh g => (ho i).sub u f hh g
  set S : ℕ → GS cs := fun m => (sweep cs (gsAdm cs Y) dt)^[m] (gsInit cs Y mass gvel gforce dt) with hS
  have hP : ∀ m i, P i ((S m).st i) := by
    intro m
    induction m with
    | zero => exact fun i => (ho i).init
    | succ m ih =>
      have e : S (m + 1) = sweep cs (gsAdm cs Y) dt (S m) := Function.iterate_succ_apply' _ _ _
      rw [e]
      exact (pair_sweep hl ho hA ih).2
  have hpass : ∀ m, Passes (gsAdm cs Y) law (List.finRange cs.length) (pairOf (S m)) (pairOf (S (m + 1))) := by
    intro m
    have e : S (m + 1) = sweep cs (gsAdm cs Y) dt (S m) := Function.iterate_succ_apply' _ _ _
    rw [e]
    exact (pair_sweep hl ho hA (hP m)).1
  have hinv : ∀ m, GSInv cs Y mass gvel gforce dt (S m) := by
    intro m
    induction m with
    | zero => exact gsInv_init ..
    | succ m ih =>
      have e : S (m + 1) = sweep cs (gsAdm cs Y) dt (S m) := Function.iterate_succ_apply' _ _ _
      rw [e]
      exact gsInv_foldl hl dt _ ih
  obtain ⟨t, ht1, ht2, ht3⟩ := passes_converge hA hsub (fun i => (ho i).closed) (List.nodup_finRange _) (fun i => List.mem_finRange i) (s := fun m => pairOf (S m)) hpass
  have hv : ∀ m, (pairOf (S m)).1 - gsAdm cs Y *ᵥ (pairOf (S m)).2 = (stackJac cs fun i => (cs.get i).st) *ᵥ velWith cs Y mass gvel gforce dt 0 := by
    intro m
    rw [(inv_pair (hinv m)).1]
    exact jac_velWith ..
  have htv : t.1 = (stackJac cs fun i => (cs.get i).st) *ᵥ velWith cs Y mass gvel gforce dt t.2 := by
    have := ht2.trans (hv 0)
    rw [← jac_velWith (cs := cs) (dt := dt) Y mass gvel gforce t.2] at this
    exact sub_left_injective this
  have hans : ∀ f, Answers law Y mass gvel gforce dt f → Near law 0 ((stackJac cs fun i => (cs.get i).st) *ᵥ velWith cs Y mass gvel gforce dt f, f) := by
    intro f hf i
    exact ⟨_, hf i, fun k => by simp only [Matrix.mulVec, stackJac]; simp⟩
  have htans : Answers law Y mass gvel gforce dt t.2 := by
    intro i
    have := ht1 i
    rw [htv] at this
    exact this
  have hdiff : ∀ m, Y *ᵥ (mass *ᵥ (dt⁻¹ • gvel) + addGforces cs (S m).st gforce) - velWith cs Y mass gvel gforce dt t.2 =
      Y *ᵥ ((stackJac cs fun i => (cs.get i).st)ᵀ *ᵥ ((pairOf (S m)).2 - t.2)) := by
    intro m
    rw [(inv_pair (hinv m)).2, velWith_sub]
  have hlimS : ∀ ε > 0, ∃ N, ∀ m ≥ N, ‖Y *ᵥ (mass *ᵥ (dt⁻¹ • gvel) + addGforces cs (S m).st gforce) - velWith cs Y mass gvel gforce dt t.2‖ ≤ ε := by
    intro ε hε
    have h2 : Tendsto (fun m => (pairOf (S m)).2) atTop (𝓝 t.2) := (continuous_snd.tendsto t).comp ht3
    obtain ⟨N, hN⟩ := Metric.tendsto_atTop.mp h2 (ε / (K3 + 1)) (by positivity)
    refine ⟨N, fun m hm => ?_⟩
    rw [hdiff]
    have := (hN m hm).le
    rw [dist_eq_norm] at this
    calc _ ≤ K3 * ‖(pairOf (S m)).2 - t.2‖ := hLm _
      _ ≤ K3 * (ε / (K3 + 1)) := by gcongr
      _ ≤ (K3 + 1) * (ε / (K3 + 1)) := by gcongr; linarith
      _ = ε := by field_simp
  refine ⟨t.2, htans, fun f hf => ?_, ?_, ?_⟩
  · have := (hK2 hsub (s := (_, f)) (s' := (_, t.2)) ((jac_velWith Y mass gvel gforce f).trans (jac_velWith Y mass gvel gforce t.2).symm) le_rfl le_rfl (hans f hf) (hans _ htans)).1
    simp only [add_zero, mul_zero] at this
    exact sub_eq_zero.mp (norm_le_zero_iff.mp this)
  · intro ε hε
    obtain ⟨N, hN⟩ := hlimS ε hε
    refine ⟨N, fun maxiters hm tol htol => ?_⟩
    obtain ⟨m, hm1, hrun, -, hstop⟩ := C36_stop cs Y mass gvel gforce dt maxiters tol
    have hmm : m = maxiters := by
      by_contra hne
      have := (hstop (lt_of_le_of_ne hm1 hne)).2
      exact absurd (lt_of_lt_of_le this htol) (not_lt.mpr (Real.sqrt_nonneg _))
    rw [hrun]
    exact hN m (by omega)
  · intro tol htol
    obtain ⟨N, hN⟩ := hlimS tol htol
    refine ⟨N, fun maxiters hm => ?_⟩
    obtain ⟨m, hm1, hrun, -, hstop⟩ := C36_stop cs Y mass gvel gforce dt maxiters tol
    rw [hrun]
    change ‖Y *ᵥ (mass *ᵥ (dt⁻¹ • gvel) + addGforces cs (S m).st gforce) - _‖ ≤ _
    have hpos : 0 ≤ K3 * (K2 * K1) := by positivity
    rcases lt_or_eq_of_le hm1 with hlt | heq
    · obtain ⟨h2, h3⟩ := hstop hlt
      obtain ⟨j, rfl⟩ := Nat.exists_eq_add_of_le' (show 1 ≤ m by omega)
      simp only [Nat.add_sub_cancel] at h3
      have hch : ‖(pairOf (S (j + 1))).1 - (pairOf (S j)).1‖ ≤ tol := (le_norm2 _).trans h3.le
      have hnear : Near law (K1 * tol) (pairOf (S (j + 1))) := by
        intro i
        obtain ⟨w, hw, hk⟩ := hK1 hsub (List.nodup_finRange _) (fun i => List.mem_finRange i) (hpass j) i
        exact ⟨w, hw, fun k => (hk k).trans (mul_le_mul_of_nonneg_left hch k1)⟩
      have := (hK2 hsub (s := pairOf (S (j + 1))) (s' := (_, t.2)) ((hv (j + 1)).trans (jac_velWith Y mass gvel gforce t.2).symm) (by positivity) le_rfl hnear (hans _ htans)).1
      rw [hdiff]
      calc _ ≤ K3 * ‖(pairOf (S (j + 1))).2 - t.2‖ := hLm _
        _ ≤ K3 * (K2 * (K1 * tol + 0)) := by gcongr
        _ ≤ _ := by nlinarith
    · refine (hN m (by omega)).trans ?_
      nlinarith

end

/-! ### the two classes -/

/-- the constraint after `update` -/
noncomputable def Spec.Hold.upd : Hold n → Hold n
  | .limit p s => .limit p { s with pos0 := s.gpos, force := 0 }
  | .ball s => .ball { s with pos0 := pos (relFrame s.pose0 s.pose1) }

open Classical in
lemma activeCons_holds (pinv1 : Matrix (Fin 1) (Fin 1) ℝ → Matrix (Fin 1) (Fin 1) ℝ) (pinv3 : Mat3 → Mat3) (dt : ℝ) (L : List (Hold n)) :
    activeCons dt (L.map (Hold.con pinv1 pinv3)) = (L.filter fun c => c.Active).map fun c => c.upd.con pinv1 pinv3 := by
  induction L with
  | nil => rfl
  | cons x L ih =>
    have h1 : activeCons dt ((x :: L).map (Hold.con pinv1 pinv3)) =
        (if x.Active then [x.upd.con pinv1 pinv3] else []) ++ activeCons dt (L.map (Hold.con pinv1 pinv3)) := by
      unfold activeCons
      rw [List.map_cons, List.filterMap_cons]
      cases x with
      | limit p s =>
        by_cases he : s.enabled = true
        · by_cases ha : s.gpos 0 - p.min 0 < p.proximity 0 ∨ p.max 0 - s.gpos 0 < p.proximity 0
          · simp [Hold.con, jointLimits, Hold.Active, Hold.upd, he, ha]
          · simp [Hold.con, jointLimits, Hold.Active, Hold.upd, he, ha]
        · simp [Hold.con, jointLimits, Hold.Active, Hold.upd, he]
      | ball s =>
        by_cases he : s.enabled = true
        · simp [Hold.con, ballAndSocket, Hold.Active, Hold.upd, he]
        · simp [Hold.con, ballAndSocket, Hold.Active, Hold.upd, he]
    rw [h1, ih, List.filter_cons]
    by_cases hx : x.Active <;> simp [hx]

lemma limit_obedient {pinv : Matrix (Fin 1) (Fin 1) ℝ → Matrix (Fin 1) (Fin 1) ℝ} (hp : ∀ A, IsPinv A (pinv A)) {p : JLParams 1} (hm : p.min 0 ≤ p.max 0) (s : JLState 1)
    {dt : ℝ} (hdt : 0 < dt) :
    Obedient (⟨jointLimits n pinv p, s⟩ : Con n) dt
      (fun u f : Fin 1 → ℝ => p.min 0 ≤ s.pos0 0 + dt * u 0 ∧ s.pos0 0 + dt * u 0 ≤ p.max 0 ∧ (0 < f 0 → s.pos0 0 + dt * u 0 = p.min 0) ∧
        (f 0 < 0 → s.pos0 0 + dt * u 0 = p.max 0))
      (fun f : Fin 1 → ℝ => max (-((p.min 0 - s.pos0 0) / dt * f 0)) (-((p.max 0 - s.pos0 0) / dt * f 0))) (fun st : JLState 1 => st.pos0 = s.pos0) where
  init := rfl
  keep st hst vel Y := hst
  obeys := by
    intro (st : JLState 1) (hst : st.pos0 = s.pos0) (vel : Fin 1 → ℝ) (Y : Matrix (Fin 1) (Fin 1) ℝ) hY
    have hY : SymPD (n := Fin 1) Y := hY
    have hY0 : 0 < Y 0 0 := by
      have := hY.2 (fun _ => 1) (fun h => by simpa using congrFun h (0 : Fin 1))
      simpa [dotProduct, Matrix.mulVec] using this
    obtain ⟨en, gp, p0, fo⟩ := st
    simp only at hst
    subst hst
    obtain ⟨h1, h2, h3, h4, -⟩ := C39_one_dof (mn := p.min) (mx := p.max) (pos0 := s.pos0) (force := fo) (vel := vel) (hp Y) hY0 hm hdt
    have e : (vel + Y *ᵥ (jlSolve pinv p.min p.max s.pos0 fo vel Y dt).2) 0 = vel 0 + Y 0 0 * (jlSolve pinv p.min p.max s.pos0 fo vel Y dt).2 0 := by
      simp [Matrix.mulVec, dotProduct]
    rw [← e] at h1 h2 h3 h4
    exact ⟨h1, h2, h3, h4⟩
  sub := by
    intro (u : Fin 1 → ℝ) (f : Fin 1 → ℝ) ⟨h1, h2, h3, h4⟩ (g : Fin 1 → ℝ)
    set a := (p.min 0 - s.pos0 0) / dt
    set b := (p.max 0 - s.pos0 0) / dt
    have ha : a ≤ u 0 := by rw [div_le_iff₀ hdt]; linarith
    have hb : u 0 ≤ b := by rw [le_div_iff₀ hdt]; linarith
    have e : u ⬝ᵥ (g - f) = u 0 * (g 0 - f 0) := by simp [dotProduct]
    have hf : max (-(a * f 0)) (-(b * f 0)) = -(u 0 * f 0) := by
      rcases lt_trichotomy (f 0) 0 with hf | hf | hf
      · have : u 0 = b := by rw [eq_div_iff hdt.ne']; linarith [h4 hf]
        rw [this, max_eq_right]
        nlinarith
      · rw [hf]; simp
      · have : u 0 = a := by rw [eq_div_iff hdt.ne']; linarith [h3 hf]
        rw [this, max_eq_left]
        nlinarith
    change max (-(a * f 0)) (-(b * f 0)) - u ⬝ᵥ (g - f) ≤ max (-(a * g 0)) (-(b * g 0))
    rw [e, hf]
    rcases le_total 0 (g 0) with hg | hg
    · refine le_trans ?_ (le_max_left _ _)
      nlinarith
    · refine le_trans ?_ (le_max_right _ _)
      nlinarith
  closed := by
    have e : {x : (Fin 1 → ℝ) × (Fin 1 → ℝ) | p.min 0 ≤ s.pos0 0 + dt * x.1 0 ∧ s.pos0 0 + dt * x.1 0 ≤ p.max 0 ∧ (0 < x.2 0 → s.pos0 0 + dt * x.1 0 = p.min 0) ∧
        (x.2 0 < 0 → s.pos0 0 + dt * x.1 0 = p.max 0)} = {x | p.min 0 ≤ s.pos0 0 + dt * x.1 0} ∩ ({x | s.pos0 0 + dt * x.1 0 ≤ p.max 0} ∩
        (({x | x.2 0 ≤ 0} ∪ {x | s.pos0 0 + dt * x.1 0 = p.min 0}) ∩ ({x | 0 ≤ x.2 0} ∪ {x | s.pos0 0 + dt * x.1 0 = p.max 0}))) := by
      ext x
      simp only [Set.mem_setOf_eq, Set.mem_inter_iff, Set.mem_union, imp_iff_not_or, not_lt]
    change IsClosed {x : (Fin 1 → ℝ) × (Fin 1 → ℝ) | p.min 0 ≤ s.pos0 0 + dt * x.1 0 ∧ s.pos0 0 + dt * x.1 0 ≤ p.max 0 ∧ (0 < x.2 0 → s.pos0 0 + dt * x.1 0 = p.min 0) ∧
        (x.2 0 < 0 → s.pos0 0 + dt * x.1 0 = p.max 0)}
    rw [e]
    exact (isClosed_le (by fun_prop) (by fun_prop)).inter ((isClosed_le (by fun_prop) (by fun_prop)).inter
      (((isClosed_le (by fun_prop) (by fun_prop)).union (isClosed_eq (by fun_prop) (by fun_prop))).inter
      ((isClosed_le (by fun_prop) (by fun_prop)).union (isClosed_eq (by fun_prop) (by fun_prop)))))

lemma ball_obedient {pinv : Mat3 → Mat3} (hp : ∀ A, IsPinv A (pinv A)) (s : BSState n) {dt : ℝ} (hdt : 0 < dt) :
    Obedient (⟨ballAndSocket n pinv, s⟩ : Con n) dt (fun u _ : Fin 3 → ℝ => ∀ k : Fin 3, s.pos0 k + dt * u k = 0)
      (fun f : Fin 3 → ℝ => dt⁻¹ • s.pos0 ⬝ᵥ f) (fun st : BSState n => st.pos0 = s.pos0) where
  init := rfl
  keep st hst vel Y := hst
  obeys := by
    intro (st : BSState n) (hst : st.pos0 = s.pos0) (vel : Vec3) (Y : Mat3) hY k
    have hi := (IsPinv.eq_inv (hp Y) (pd_det hY)).1
    change s.pos0 k + dt * (vel + Y *ᵥ (-(pinv Y *ᵥ (vel + dt⁻¹ • st.pos0)))) k = 0
    rw [Matrix.mulVec_neg, Matrix.mulVec_mulVec, hi, Matrix.one_mulVec, hst]
    simp only [Pi.add_apply, Pi.neg_apply, Pi.smul_apply, smul_eq_mul]
    field_simp
    ring
  sub := by
    intro (u : Fin 3 → ℝ) (f : Fin 3 → ℝ) (hu : ∀ k : Fin 3, s.pos0 k + dt * u k = 0) (g : Fin 3 → ℝ)
    have : dt⁻¹ • s.pos0 = -u := by
      funext k
      have := hu k
      simp only [Pi.smul_apply, smul_eq_mul, Pi.neg_apply]
      field_simp
      linarith
    change dt⁻¹ • s.pos0 ⬝ᵥ f - u ⬝ᵥ (g - f) ≤ dt⁻¹ • s.pos0 ⬝ᵥ g
    rw [this, neg_dotProduct, neg_dotProduct, dotProduct_sub]
    linarith
  closed := by
    have : {x : (Fin 3 → ℝ) × (Fin 3 → ℝ) | ∀ k : Fin 3, s.pos0 k + dt * x.1 k = 0} = ⋂ k : Fin 3, {x | s.pos0 k + dt * x.1 k = 0} := by
      ext x; simp
    change IsClosed {x : (Fin 3 → ℝ) × (Fin 3 → ℝ) | ∀ k : Fin 3, s.pos0 k + dt * x.1 k = 0}
    rw [this]
    exact isClosed_iInter fun k => isClosed_eq (by fun_prop) (by fun_prop)

lemma hold_obedient {pinv1 : Matrix (Fin 1) (Fin 1) ℝ → Matrix (Fin 1) (Fin 1) ℝ} (hp1 : ∀ A, IsPinv A (pinv1 A)) {pinv3 : Mat3 → Mat3} (hp3 : ∀ A, IsPinv A (pinv3 A))
    {x : Hold n} (hx : x.Sound) {dt : ℝ} (hdt : 0 < dt) (c : Con n) (hc : c = x.upd.con pinv1 pinv3) :
    ∃ law h P, Obedient c dt law h P ∧ Lawful c.cls ∧ (∀ v f, law (fun k => (c.cls.jac c.st *ᵥ v) k) f → x.Obeyed dt v ((c.cls.jac c.st)ᵀ *ᵥ f)) ∧
      ∀ v g, x.Obeyed dt v g → ∃ f, g = (c.cls.jac c.st)ᵀ *ᵥ f ∧ law (fun k => (c.cls.jac c.st *ᵥ v) k) f := by
  subst hc
  cases x with
  | limit p s =>
    obtain ⟨hst, hm⟩ := hx
    refine ⟨_, _, _, limit_obedient hp1 hm _ hdt, C36_jointLimits n pinv1 p, fun v f => ?_, fun v g => ?_⟩
    · intro ⟨h1, h2, h3, h4⟩
      have e := jl_row hst v
      refine ⟨hst, f (0 : Fin 1), jl_col hst f, ?_, ?_, ?_, ?_⟩
      all_goals rw [← e]
      · exact h1
      · exact h2
      · exact h3
      · exact h4
    · rintro ⟨hst, f, rfl, h1, h2, h3, h4⟩
      have e := jl_row hst v
      rw [← e] at h1 h2 h3 h4
      exact ⟨fun _ => f, (jl_col hst fun _ => f).symm, h1, h2, h3, h4⟩
  | ball s =>
    refine ⟨_, _, _, ball_obedient hp3 _ hdt, C36_ballAndSocket n pinv3, fun v f h => ⟨f, rfl, h⟩, ?_⟩
    rintro v g ⟨f, rfl, h⟩
    exact ⟨f, rfl, h⟩


section
variable {pinv1 : Matrix (Fin 1) (Fin 1) ℝ → Matrix (Fin 1) (Fin 1) ℝ} {pinv3 : Mat3 → Mat3} {L : List (Hold n)} {Y : Matrix (Fin n) (Fin n) ℝ} {dt : ℝ}

lemma stack_sum {cs : List (Con n)} (f : (i : Fin cs.length) → Fin (cs.get i).cls.ndol → ℝ) :
    (List.ofFn fun i => ((cs.get i).cls.jac (cs.get i).st)ᵀ *ᵥ f i).sum = (stackJac cs fun i => (cs.get i).st)ᵀ *ᵥ fun x => f x.1 x.2 := by
  rw [List.sum_ofFn]
  funext j
  simp only [Finset.sum_apply, Matrix.mulVec, dotProduct, Fintype.sum_sigma]
  rfl

open Classical in
lemma holds_converge (hp1 : ∀ A, IsPinv A (pinv1 A)) (hp3 : ∀ A, IsPinv A (pinv3 A)) (hL : ∀ c ∈ L, c.Sound) (hdt : 0 < dt)
    (hA : SymPD (gsAdm (activeCons dt (L.map (Hold.con pinv1 pinv3))) Y)) :
    ∃ C : ℝ, 0 ≤ C ∧ ∀ (mass : Matrix (Fin n) (Fin n) ℝ) (gvel : Fin n → ℝ) (w : CtrlOut n), w.admittance = Y →
      ∃ v G, SolvedTogether L Y mass gvel w.gforce dt v G ∧ (∀ v' G', SolvedTogether L Y mass gvel w.gforce dt v' G' → v' = v ∧ G' = G) ∧
        (∀ ε > 0, ∃ N, ∀ maxiters ≥ N, ∀ tol ≤ 0, ∀ g cs v', updateConstraints mass gvel w (L.map (Hold.con pinv1 pinv3)) dt maxiters tol = .ok (g, cs) →
          integrateGvel mass w.admittance gvel g dt = .ok v' → ∀ j, |v' j - v j| ≤ ε) ∧
        ∀ tol > 0, ∃ N, ∀ maxiters ≥ N, ∀ g cs v', updateConstraints mass gvel w (L.map (Hold.con pinv1 pinv3)) dt maxiters tol = .ok (g, cs) →
          integrateGvel mass w.admittance gvel g dt = .ok v' → ∀ j, |v' j - v j| ≤ C * tol := by
  have hact := activeCons_holds pinv1 pinv3 dt L
  rw [hact] at hA
  set La := L.filter fun c => c.Active with hLa
  set cs := La.map fun c => c.upd.con pinv1 pinv3 with hcs
  have hlen : cs.length = La.length := by rw [hcs, List.length_map]
  have hc : ∀ i : Fin cs.length, cs.get i = (La.get (Fin.cast hlen i)).upd.con pinv1 pinv3 := by
    intro i
    simp only [hcs, List.get_eq_getElem, List.getElem_map]
    rfl
  have hs : ∀ i : Fin cs.length, (La.get (Fin.cast hlen i)).Sound := fun i => hL _ (List.mem_of_mem_filter (List.get_mem La _))
  choose law h P ho hlaw hto hfrom using fun i => hold_obedient hp1 hp3 (hs i) hdt (cs.get i) (hc i)
  have hl : ∀ c ∈ cs, Lawful c.cls := by
    intro c hc'
    obtain ⟨i, rfl⟩ := List.get_of_mem hc'
    exact hlaw i
  obtain ⟨C, hC0, hC⟩ := obedient_converges hl hA
  refine ⟨C, hC0, fun mass gvel w hw => ?_⟩
  obtain ⟨f, hf, huniq, hconv, htol⟩ := hC ho mass gvel w.gforce
  have hsum : ∀ f : Dol cs → ℝ, (List.ofFn fun i : Fin cs.length => ((cs.get i).cls.jac (cs.get i).st)ᵀ *ᵥ fun k => f ⟨i, k⟩).sum =
      (stackJac cs fun i => (cs.get i).st)ᵀ *ᵥ f := fun f => stack_sum fun i k => f ⟨i, k⟩
  have hrun : ∀ maxiters tol g cs' v', updateConstraints mass gvel w (L.map (Hold.con pinv1 pinv3)) dt maxiters tol = .ok (g, cs') →
      integrateGvel mass w.admittance gvel g dt = .ok v' →
      v' = Y *ᵥ (mass *ᵥ (dt⁻¹ • gvel) + addGforces cs (gsRun cs Y mass gvel w.gforce dt maxiters tol).st w.gforce) := by
    intro maxiters tol g cs' v' hu hi
    rw [updateConstraints_eq hdt hact] at hu
    unfold integrateGvel at hi
    rw [if_pos hdt] at hi
    have h1 := (Prod.mk.inj (Except.ok.inj hu)).1
    have h2 := Except.ok.inj hi
    rw [← h2, ← h1, hw]
  refine ⟨velWith cs Y mass gvel w.gforce dt f, List.ofFn fun i : Fin cs.length => ((cs.get i).cls.jac (cs.get i).st)ᵀ *ᵥ fun k => f ⟨i, k⟩, ⟨?_, ?_⟩, ?_, ?_, ?_⟩
  · rw [List.forall₂_iff_get]
    refine ⟨by rw [List.length_ofFn]; exact hlen.symm, fun i h1 h2 => ?_⟩
    have h3 : i < cs.length := by rw [List.length_ofFn] at h2; exact h2
    have := hto ⟨i, h3⟩ _ _ (hf ⟨i, h3⟩)
    rw [List.get_ofFn]
    exact this
  · rw [hsum]
    rfl
  · rintro v' G' ⟨h1, h2⟩
    obtain ⟨h3, h4⟩ := List.forall₂_iff_get.mp h1
    have h5 : ∀ i : Fin cs.length, (La.get (Fin.cast hlen i)).Obeyed dt v' (G'.get ⟨i, by rw [← h3]; exact hlen ▸ i.2⟩) := fun i => h4 i (hlen ▸ i.2) _
    choose f' hf' hf'' using fun i => hfrom i _ _ (h5 i)
    have eG : G' = List.ofFn fun i : Fin cs.length => ((cs.get i).cls.jac (cs.get i).st)ᵀ *ᵥ f' i := by
      apply List.ext_get
      · rw [List.length_ofFn]; exact (hlen.trans h3).symm
      · intro i h6 h7
        rw [List.get_ofFn]
        exact hf' ⟨i, by rw [List.length_ofFn] at h7; exact h7⟩
    have ev : v' = velWith cs Y mass gvel w.gforce dt fun x => f' x.1 x.2 := by
      rw [h2, eG, stack_sum]
      rfl
    have e := huniq (fun x => f' x.1 x.2) (fun i => by rw [← ev]; exact hf'' i)
    refine ⟨by rw [ev, e], ?_⟩
    rw [eG]
    congr 1
    funext i
    congr 1
    funext k
    exact congrFun e ⟨i, k⟩
  · intro ε hε
    obtain ⟨N, hN⟩ := hconv ε hε
    refine ⟨N, fun maxiters hm tol ht g cs' v' hu hi j => ?_⟩
    have := hN maxiters hm tol ht
    rw [← hrun _ _ _ _ _ hu hi] at this
    exact (norm_le_pi_norm (v' - velWith cs Y mass gvel w.gforce dt f) j).trans this
  · intro tol ht
    obtain ⟨N, hN⟩ := htol tol ht
    refine ⟨N, fun maxiters hm g cs' v' hu hi j => ?_⟩
    have := hN maxiters hm
    rw [← hrun _ _ _ _ _ hu hi] at this
    exact (norm_le_pi_norm (v' - velWith cs Y mass gvel w.gforce dt f) j).trans this

/-- C117.  Any number of `JointLimits` on joints of one dof and of `BallAndSocketConstraint`s, enabled or not, of any world in any state, if
the admittance seen by the active ones is symmetric positive definite.  One velocity, and only one, obeys the equation of motion and all the
active constraints, with one force for each; without tolerance, the velocity after `update_constraints` and `integrate` is as near to it as
wanted, if enough iterations are allowed. -/
theorem C117_converges (hp1 : ∀ A, IsPinv A (pinv1 A)) (hp3 : ∀ A, IsPinv A (pinv3 A)) (hL : ∀ c ∈ L, c.Sound) (hdt : 0 < dt) (w : CtrlOut n)
    (hA : SymPD (gsAdm (activeCons dt (L.map (Hold.con pinv1 pinv3))) w.admittance)) (mass : Matrix (Fin n) (Fin n) ℝ) (gvel : Fin n → ℝ) :
    ∃ v G, SolvedTogether L w.admittance mass gvel w.gforce dt v G ∧ (∀ v' G', SolvedTogether L w.admittance mass gvel w.gforce dt v' G' → v' = v ∧ G' = G) ∧
      ∀ ε > 0, ∃ N, ∀ maxiters ≥ N, ∀ tol ≤ 0, ∀ g cs v', updateConstraints mass gvel w (L.map (Hold.con pinv1 pinv3)) dt maxiters tol = .ok (g, cs) →
        integrateGvel mass w.admittance gvel g dt = .ok v' → ∀ j, |v' j - v j| ≤ ε := by
  obtain ⟨C, -, h⟩ := holds_converge hp1 hp3 hL hdt hA
  obtain ⟨v, G, h1, h2, h3, -⟩ := h mass gvel w rfl
  exact ⟨v, G, h1, h2, h3⟩

/-- C117, with the tolerance: the error is at most in proportion to it, by a factor that depends neither on the velocity nor on the forces
and masses. -/
theorem C117_tolerance (hp1 : ∀ A, IsPinv A (pinv1 A)) (hp3 : ∀ A, IsPinv A (pinv3 A)) (hL : ∀ c ∈ L, c.Sound) (hdt : 0 < dt)
    (hA : SymPD (gsAdm (activeCons dt (L.map (Hold.con pinv1 pinv3))) Y)) :
    ∃ C : ℝ, ∀ (mass : Matrix (Fin n) (Fin n) ℝ) (gvel : Fin n → ℝ) (w : CtrlOut n), w.admittance = Y → ∀ v G, SolvedTogether L Y mass gvel w.gforce dt v G →
      ∀ tol > 0, ∃ N, ∀ maxiters ≥ N, ∀ g cs v', updateConstraints mass gvel w (L.map (Hold.con pinv1 pinv3)) dt maxiters tol = .ok (g, cs) →
        integrateGvel mass w.admittance gvel g dt = .ok v' → ∀ j, |v' j - v j| ≤ C * tol := by
  obtain ⟨C, -, h⟩ := holds_converge hp1 hp3 hL hdt hA
  refine ⟨C, fun mass gvel w hw v G hs => ?_⟩
  obtain ⟨v1, G1, h1, h2, -, h3⟩ := h mass gvel w hw
  rw [(h2 v G hs).1]
  exact h3

open Classical in
/-- C117: the solution does not depend on the order in which the constraints have been registered, hence what the solver converges to does not. -/
theorem C117_order {L' : List (Hold n)} (hL : L.Perm L') {mass : Matrix (Fin n) (Fin n) ℝ} {gvel gforce v : Fin n → ℝ} {G : List (Fin n → ℝ)}
    (h : SolvedTogether L Y mass gvel gforce dt v G) : ∃ G', G.Perm G' ∧ SolvedTogether L' Y mass gvel gforce dt v G' := by
  obtain ⟨h1, h2⟩ := h
  have hp : (L'.filter fun c => decide c.Active).Perm (L.filter fun c => decide c.Active) := hL.symm.filter _
  obtain ⟨G', h3, h4⟩ := List.perm_comp_forall₂ hp h1
  exact ⟨G', h4.symm, h3, by rw [h2, h4.sum_eq]⟩

/-- the constraint is obeyed at the beginning of the step -/
def Spec.Hold.Satisfied : Hold n → Prop
  | .limit p s => p.min 0 ≤ s.gpos 0 ∧ s.gpos 0 ≤ p.max 0
  | .ball s => pos (relFrame s.pose0 s.pose1) = 0

lemma power_nonpos {c : Hold n} {v g : Fin n → ℝ} (hdt : 0 < dt) (h : c.Obeyed dt v g) (hs : c.Satisfied) : v ⬝ᵥ g ≤ 0 := by
  cases c with
  | limit p s =>
    obtain ⟨hst, f, rfl, h1, h2, h3, h4⟩ := h
    obtain ⟨s1, s2⟩ := hs
    rw [dotProduct_single]
    rcases lt_trichotomy f 0 with hf | hf | hf
    · have := h4 hf
      have : 0 ≤ v ⟨p.start, hst⟩ := by
        by_contra hn
        push Not at hn
        nlinarith
      nlinarith
    · rw [hf, mul_zero]
    · have := h3 hf
      have : v ⟨p.start, hst⟩ ≤ 0 := by
        by_contra hn
        push Not at hn
        nlinarith
      nlinarith
  | ball s =>
    obtain ⟨f, rfl, h⟩ := h
    have e : bsJac s.pose0 s.pose1 s.jac0 s.jac1 *ᵥ v = 0 := by
      funext k
      have := h k
      rw [show pos (relFrame s.pose0 s.pose1) = 0 from hs] at this
      simp only [Pi.zero_apply, zero_add, mul_eq_zero, hdt.ne', false_or] at this
      exact this
    rw [Matrix.mulVec_transpose, dotProduct_comm, ← Matrix.dotProduct_mulVec, e, dotProduct_zero]

open Classical in
/-- C117: constraints do not make energy.  If the active constraints are obeyed when the step begins, the solution takes from the energy
`½ v·Zv` (`Z`, the impedance, is `mass/dt` when there are no other terms) that the velocity would have without them, at least the energy of what they
change of the velocity. -/
theorem C117_dissipates (hdt : 0 < dt) {Z : Matrix (Fin n) (Fin n) ℝ} (hZ : SymPD Z) {mass : Matrix (Fin n) (Fin n) ℝ} {gvel gforce v v0 : Fin n → ℝ} {G : List (Fin n → ℝ)}
    (h : SolvedTogether L Z⁻¹ mass gvel gforce dt v G) (hs : ∀ c ∈ L, c.Active → c.Satisfied) (h0 : SolvedTogether [] Z⁻¹ mass gvel gforce dt v0 []) :
    (∀ g ∈ G, v ⬝ᵥ g ≤ 0) ∧ v ⬝ᵥ Z *ᵥ v + (v - v0) ⬝ᵥ Z *ᵥ (v - v0) ≤ v0 ⬝ᵥ Z *ᵥ v0 := by
  obtain ⟨h1, h2⟩ := h
  have h3 := h0.2
  have hG : ∀ g ∈ G, v ⬝ᵥ g ≤ 0 := by
    have : ∀ {La : List (Hold n)} {G : List (Fin n → ℝ)}, List.Forall₂ (fun c g => c.Obeyed dt v g) La G → (∀ c ∈ La, c.Satisfied) → ∀ g ∈ G, v ⬝ᵥ g ≤ 0 := by
      intro La G hf
      induction hf with
      | nil => simp
      | cons ha _ ih =>
        intro hs g hg
        rcases List.mem_cons.mp hg with rfl | hg
        · exact power_nonpos hdt ha (hs _ (by simp))
        · exact ih (fun c hc => hs c (by simp [hc])) g hg
    exact this h1 fun c hc => hs c (List.mem_of_mem_filter hc) (by simpa using List.of_mem_filter hc)
  have hsum : v ⬝ᵥ G.sum ≤ 0 := by
    have : ∀ G : List (Fin n → ℝ), (∀ g ∈ G, v ⬝ᵥ g ≤ 0) → v ⬝ᵥ G.sum ≤ 0 := by
      intro G
      induction G with
      | nil => simp
      | cons g G ih =>
        intro h
        rw [List.sum_cons, dotProduct_add]
        linarith [h g (by simp), ih fun g' hg' => h g' (by simp [hg'])]
    exact this G hG
  refine ⟨hG, ?_⟩
  have hu := isUnit_iff_ne_zero.mpr (pd_det hZ)
  have hd : Z *ᵥ (v - v0) = G.sum := by
    rw [h2, h3, ← Matrix.mulVec_sub, Matrix.mulVec_mulVec, Matrix.mul_nonsing_inv _ hu, Matrix.one_mulVec]
    simp
  have hv : Z *ᵥ v - Z *ᵥ v0 = G.sum := by rw [← Matrix.mulVec_sub]; exact hd
  have e1 : v ⬝ᵥ Z *ᵥ v - v ⬝ᵥ Z *ᵥ v0 = v ⬝ᵥ G.sum := by rw [← dotProduct_sub, hv]
  have e2 : v0 ⬝ᵥ Z *ᵥ v = v ⬝ᵥ Z *ᵥ v0 := by rw [← sym_dot hZ.1, dotProduct_comm]
  rw [Matrix.mulVec_sub, sub_dotProduct, dotProduct_sub, dotProduct_sub]
  linarith

end

/-- Two joints of one dof, coupled by the impedance, each at its lower limit: the hypotheses of C117 hold. -/
example (pinv1 : Matrix (Fin 1) (Fin 1) ℝ → Matrix (Fin 1) (Fin 1) ℝ) (pinv3 : Mat3 → Mat3) :
    let Z : Matrix (Fin 2) (Fin 2) ℝ := !![2, 1; 1, 2]
    let L : List (Hold 2) := [.limit ⟨0, 1, fun _ => 0.1, 0⟩ ⟨true, 0, 0, 0⟩, .limit ⟨0, 1, fun _ => 0.1, 1⟩ ⟨true, 0, 0, 0⟩]
    (∀ c ∈ L, c.Sound ∧ c.Active ∧ c.Satisfied) ∧ SymPD Z ∧ SymPD (gsAdm (activeCons 0.01 (L.map (Hold.con pinv1 pinv3))) Z⁻¹) := by
  intro Z L
  have hL : ∀ c ∈ L, c.Sound ∧ c.Active ∧ c.Satisfied := by
    intro c hc
    simp only [L, List.mem_cons, List.not_mem_nil, or_false] at hc
    rcases hc with rfl | rfl <;> (simp [Hold.Sound, Hold.Active, Hold.Satisfied]; try norm_num)
  have hZ : SymPD Z := by
    refine ⟨by ext i j; fin_cases i <;> fin_cases j <;> rfl, fun x hx => ?_⟩
    have e : x ⬝ᵥ Z *ᵥ x = x 0 ^ 2 + x 1 ^ 2 + (x 0 + x 1) ^ 2 := by
      simp [Z, dotProduct, Matrix.mulVec, Fin.sum_univ_two]
      ring
    rw [e]
    by_contra hn
    push Not at hn
    apply hx
    have h0 : x 0 = 0 := by nlinarith [sq_nonneg (x 0), sq_nonneg (x 1), sq_nonneg (x 0 + x 1)]
    have h1 : x 1 = 0 := by nlinarith [sq_nonneg (x 0), sq_nonneg (x 1), sq_nonneg (x 0 + x 1)]
    funext i
    fin_cases i
    · exact h0
    · exact h1
  refine ⟨hL, hZ, C86_hypothesis hZ ?_⟩
  classical
  rw [activeCons_holds]
  have ef : L.filter (fun c => c.Active) = L := List.filter_eq_self.mpr fun c hc => by simpa using (hL c hc).2.1
  rw [ef]
  have ec : (L.map fun c => c.upd.con pinv1 pinv3) = [⟨jointLimits 2 pinv1 ⟨0, 1, fun _ => 0.1, 0⟩, ⟨true, 0, 0, 0⟩⟩,
    ⟨jointLimits 2 pinv1 ⟨0, 1, fun _ => 0.1, 1⟩, ⟨true, 0, 0, 0⟩⟩] := rfl
  rw [ec]
  intro x hx
  have h2 : ∀ f : Fin 2 → ℝ, ∑ i, f i = f 0 + f 1 := fun f => Fin.sum_univ_two f
  have r : ∀ j : Fin 2, (∑ k : Fin 1, (if j.val = 0 + k.val then (1 : ℝ) else 0) * x ⟨⟨0, by simp⟩, k⟩) +
      (∑ k : Fin 1, (if j.val = 1 + k.val then (1 : ℝ) else 0) * x ⟨⟨1, by simp⟩, k⟩) = 0 :=
    fun j => (h2 _).symm.trans (hx j)
  have a : x ⟨⟨0, by simp⟩, (0 : Fin 1)⟩ = 0 := by simpa using r 0
  have b : x ⟨⟨1, by simp⟩, (0 : Fin 1)⟩ = 0 := by simpa using r 1
  funext ⟨i, k⟩
  match i, k with
  | ⟨0, _⟩, ⟨0, _⟩ => exact a
  | ⟨1, _⟩, ⟨0, _⟩ => exact b

end Arboris
