import Verif.Props.Contact
import Verif.Props.DropRest

/-!
# C124: the energy of a contact
-/

namespace Arboris
open Matrix Spec Mech

variable {n : ℕ}

/-- one step of a world of any size, with these controllers, whose only constraint is a contact; the contact is found active, exerts `f`, and
the step goes from the velocity `gvel` to the velocity `v`.  Every relative velocity of the bodies at the contact can be reached. -/
structure Spec.ContactStep (p : TouchParams) (s : TouchState n) (c : Collision) (mass visc nle : Matrix (Fin n) (Fin n) ℝ) (ctrls : List (CtrlVal n))
    (gvel : Fin n → ℝ) (dt : ℝ) (v : Fin n → ℝ) (f : Vec4) : Prop where
  pinv : ∀ A, A.det ≠ 0 → IsPinv A (p.pinv A)
  on : s.enabled = true
  found : Touching p s c
  twist : s.body0.twist = s.body0.jac *ᵥ gvel ∧ s.body1.twist = s.body1.jac *ᵥ gvel
  reach : Function.Surjective (slipOf s c)
  step : ∃ (w : CtrlOut n) (g : Fin n → ℝ) (s' : TouchState n) (maxiters : ℕ) (tol : ℝ), updateControllers mass visc nle dt ctrls = .ok w ∧ SymPD w.admittance ∧
    0 < maxiters ∧ updateConstraints mass gvel w [⟨softContact n p, s⟩] dt maxiters tol = .ok (g, [⟨softContact n p, s'⟩]) ∧ s'.force = f ∧
    integrateGvel mass w.admittance gvel g dt = .ok v

/-- kinetic energy -/
noncomputable def Spec.kinetic (mass : Matrix (Fin n) (Fin n) ℝ) (v : Fin n → ℝ) : ℝ := (1 / 2) * (v ⬝ᵥ mass *ᵥ v)

/-- work, over the step, of everything but the contact: the controllers, the viscosity and the nonlinear effects -/
noncomputable def Spec.otherWork (visc nle : Matrix (Fin n) (Fin n) ℝ) (ctrls : List (CtrlVal n)) (dt : ℝ) (v : Fin n → ℝ) : ℝ :=
  dt * (v ⬝ᵥ ((ctrls.map (·.gforce)).sum + (ctrls.map (·.impedance)).sum *ᵥ v - visc *ᵥ v - nle *ᵥ v))

/-- C124, the energy balance of the step, exactly: what is lost in `½ |v - gvel|²`, what the contact force gives on the relative velocity. -/
theorem C124_balance {p : TouchParams} {s : TouchState n} {c : Collision} {mass visc nle : Matrix (Fin n) (Fin n) ℝ} {ctrls : List (CtrlVal n)} {gvel : Fin n → ℝ} {dt : ℝ}
    {v : Fin n → ℝ} {f : Vec4} (hM : massᵀ = mass) (h : ContactStep p s c mass visc nle ctrls gvel dt v f) :
    kinetic mass v + kinetic mass (v - gvel) = kinetic mass gvel + otherWork visc nle ctrls dt v + dt * (f ⬝ᵥ slipOf s c v) ∧
      slipOf s c v 0 * f 0 + slipOf s c v 1 * f 1 + slipOf s c v 2 * f 2 ≤ 0 ∧ c.sdist * f 3 + dt * slipOf s c v 3 * f 3 = 0 := by
  obtain ⟨w, g, s', maxiters, tol, hw, hY, hmax, hu, hf, hi⟩ := h.step
  obtain ⟨hdt, hdet, hg, hZ, hYZ⟩ := (C33_sum ..).mp hw
  obtain ⟨v0, hv0⟩ : ∃ v0, integrateGvel mass w.admittance gvel w.gforce dt = .ok v0 := by
    unfold integrateGvel
    rw [if_pos hdt]
    exact ⟨_, rfl⟩
  have hnear : c.sdist + dt * slipOf s c gvel 3 < p.proximity := by
    by_contra hfar
    rw [C119_far h.found hdt h.twist (not_lt.mp hfar)] at hu
    exact absurd (Prod.mk.inj (Except.ok.inj hu)).2 (by simp)
  obtain ⟨f', s'', e1, e2, -, -, hpow, hfree, htouch, hdis⟩ := C119_contact h.pinv h.on h.found h.twist hnear hY h.reach hmax hu hi hv0
  have ef : f' = f := by
    have h1 : (⟨softContact n p, s'⟩ : Con n) = ⟨softContact n p, s''⟩ := (List.cons.inj e1).1
    injection h1 with h2 h3
    rw [← e2, ← hf, h3]
  subst ef
  refine ⟨?_, hdis, ?_⟩
  · have hv : w.impedance *ᵥ v = dt⁻¹ • (mass *ᵥ gvel) + g := by
      unfold integrateGvel at hi
      rw [if_pos hdt] at hi
      have h3 : w.impedance * w.admittance = 1 := mul_eq_one_comm.mp hYZ
      rw [← Except.ok.inj hi, Matrix.mulVec_mulVec, h3, Matrix.one_mulVec, Matrix.mulVec_smul]
    have hd := congrArg (fun x => dt * (v ⬝ᵥ x)) hv
    have hsym : gvel ⬝ᵥ mass *ᵥ v = v ⬝ᵥ mass *ᵥ gvel := by
      rw [Matrix.dotProduct_mulVec, ← Matrix.mulVec_transpose, hM, dotProduct_comm]
    have hp := hpow v
    rw [dotProduct_comm, dotProduct_comm w.gforce, hg] at hp
    simp only [hZ, Matrix.add_mulVec, Matrix.sub_mulVec, Matrix.smul_mulVec, dotProduct_add, dotProduct_sub, dotProduct_smul, smul_eq_mul] at hd
    rw [hp] at hd
    have hdd : dt * dt⁻¹ = 1 := mul_inv_cancel₀ hdt.ne'
    have e3 : ∀ x : ℝ, dt * (dt⁻¹ * x) = x := fun x => by rw [← mul_assoc, hdd, one_mul]
    simp only [mul_add, mul_sub, e3] at hd
    unfold kinetic otherWork
    simp only [Matrix.mulVec_sub, dotProduct_sub, sub_dotProduct, dotProduct_add, hsym]
    linear_combination hd
  · rcases lt_or_ge 0 (c.sdist + dt * slipOf s c v0 3) with hap | hap
    · rw [(hfree hap).1]
      simp
    · have := (htouch hap).1
      linear_combination f' 3 * this

/-- C124, full statement: bodies which do not interpenetrate do not get energy from their contact -/
def C124_Claim : Prop :=
  ∀ (n : ℕ) (p : TouchParams) (s : TouchState n) (c : Collision) (mass visc nle : Matrix (Fin n) (Fin n) ℝ) (ctrls : List (CtrlVal n)) (gvel : Fin n → ℝ) (dt : ℝ)
    (v : Fin n → ℝ) (f : Vec4), SymPD mass → 0 ≤ p.mu → ContactStep p s c mass visc nle ctrls gvel dt v f → 0 ≤ c.sdist →
    kinetic mass v ≤ kinetic mass gvel + otherWork visc nle ctrls dt v

/-- C124, what holds in all cases: the contact gives at most the work of its normal force over the distance it closes in the step. -/
theorem C124_bound {p : TouchParams} {s : TouchState n} {c : Collision} {mass visc nle : Matrix (Fin n) (Fin n) ℝ} {ctrls : List (CtrlVal n)} {gvel : Fin n → ℝ} {dt : ℝ}
    {v : Fin n → ℝ} {f : Vec4} (hM : SymPSD mass) (h : ContactStep p s c mass visc nle ctrls gvel dt v f) :
    kinetic mass v ≤ kinetic mass gvel + otherWork visc nle ctrls dt v - c.sdist * f 3 := by
  have hdt : 0 ≤ dt := by
    obtain ⟨w, g, s', maxiters, tol, hw, -⟩ := h.step
    exact ((C33_sum ..).mp hw).1.le
  obtain ⟨h1, h2, h3⟩ := C124_balance hM.1 h
  have h4 : 0 ≤ kinetic mass (v - gvel) := by
    unfold kinetic
    have := hM.2 (v - gvel)
    linarith
  have h5 : f ⬝ᵥ slipOf s c v = (slipOf s c v 0 * f 0 + slipOf s c v 1 * f 1 + slipOf s c v 2 * f 2) + slipOf s c v 3 * f 3 := by
    rw [dotProduct, Fin.sum_univ_four]
    ring
  have h6 := mul_le_mul_of_nonneg_left h2 hdt
  rw [h5] at h1
  nlinarith

/-- C124, what holds: no energy comes from the contact of bodies which touch exactly, or which it pushes apart when there is a gap. -/
theorem C124_contact_partial {p : TouchParams} {s : TouchState n} {c : Collision} {mass visc nle : Matrix (Fin n) (Fin n) ℝ} {ctrls : List (CtrlVal n)} {gvel : Fin n → ℝ} {dt : ℝ}
    {v : Fin n → ℝ} {f : Vec4} (hM : SymPSD mass) (h : ContactStep p s c mass visc nle ctrls gvel dt v f) (hs : c.sdist = 0 ∨ 0 < c.sdist ∧ 0 ≤ f 3) :
    kinetic mass v ≤ kinetic mass gvel + otherWork visc nle ctrls dt v := by
  have h1 := C124_bound hM h
  rcases hs with hs | ⟨hs, hf⟩
  · rw [hs] at h1
    linarith
  · have := mul_nonneg hs.le hf
    linarith

/-! ### The full statement is false -/

/-- admittance which couples the tangential and the normal directions -/
noncomputable def pullY : Matrix (Fin 4) (Fin 4) ℝ := !![1, 0, 0, 0; 0, 1, 0, -3/5; 0, 0, 1, 0; 0, -3/5, 0, 1]

noncomputable def pullM : Matrix (Fin 4) (Fin 4) ℝ := !![1, 0, 0, 0; 0, 25/16, 0, 15/16; 0, 0, 1, 0; 0, 15/16, 0, 25/16]

lemma pull_inv : pullY * pullM = 1 := by
  ext i j
  fin_cases i <;> fin_cases j <;> simp [pullY, pullM, Matrix.mul_apply, Fin.sum_univ_four] <;> norm_num

lemma pull_pd : SymPD pullM := by
  constructor
  · ext i j
    fin_cases i <;> fin_cases j <;> rfl
  · intro x hx
    have e : x ⬝ᵥ pullM *ᵥ x = x 0 ^ 2 + x 2 ^ 2 + (5/4 * x 1 + 3/4 * x 3) ^ 2 + x 3 ^ 2 := by
      simp [pullM, Matrix.mulVec, dotProduct, Fin.sum_univ_four]
      ring
    rw [e]
    by_contra hneg
    apply hx
    have h0 : x 0 = 0 := by nlinarith [sq_nonneg (x 0), sq_nonneg (x 2), sq_nonneg (5/4 * x 1 + 3/4 * x 3), sq_nonneg (x 3)]
    have h2 : x 2 = 0 := by nlinarith [sq_nonneg (x 0), sq_nonneg (x 2), sq_nonneg (5/4 * x 1 + 3/4 * x 3), sq_nonneg (x 3)]
    have h3 : x 3 = 0 := by nlinarith [sq_nonneg (x 0), sq_nonneg (x 2), sq_nonneg (5/4 * x 1 + 3/4 * x 3), sq_nonneg (x 3)]
    have h1 : x 1 = 0 := by
      rw [h0, h2, h3] at hneg
      nlinarith [sq_nonneg (x 1)]
    funext i
    fin_cases i
    exacts [h0, h1, h2, h3]

lemma pullY_pd : SymPD pullY := by
  constructor
  · ext i j
    fin_cases i <;> fin_cases j <;> rfl
  · intro x hx
    have e : x ⬝ᵥ pullY *ᵥ x = (pullY *ᵥ x) ⬝ᵥ pullM *ᵥ (pullY *ᵥ x) := by
      rw [Matrix.mulVec_mulVec, mul_eq_one_comm.mp pull_inv, Matrix.one_mulVec, dotProduct_comm]
    rw [e]
    refine pull_pd.2 _ fun h0 => hx ?_
    have := congrArg (fun y => pullM *ᵥ y) h0
    simpa [Matrix.mulVec_mulVec, mul_eq_one_comm.mp pull_inv] using this

/-- the second body moves as the four velocities say: spin around the vertical axis, and velocity -/
noncomputable def pullJac : Matrix (Fin 6) (Fin 4) ℝ := !![0, 0, 0, 0; 0, 0, 0, 0; 1, 0, 0, 0; 0, 1, 0, 0; 0, 0, 1, 0; 0, 0, 0, 1]

noncomputable def pullTouch (d : ℝ) : TouchParams where
  pinv A := A⁻¹
  mu := 2
  collide _ _ := .ok ⟨d, 1, mkH 1 ![0, 0, d]⟩

noncomputable def pullVel : Fin 4 → ℝ := ![0, 3/5, 0, -1]

noncomputable def pullState : TouchState 4 := ⟨true, groundDyn 4, ⟨1, pullJac, 0, pullJac *ᵥ pullVel⟩, 1, 1, 0, false, 0⟩

noncomputable def pullHit (d : ℝ) : Collision := ⟨d, 1, mkH 1 ![0, 0, d]⟩

lemma pull_found (d : ℝ) : Touching (pullTouch d) pullState (pullHit d) := ⟨isRigid_one, isRigid_one, rfl, isRigid_one, isRigid_mkH IsRotation.one⟩

lemma pull_slip (d : ℝ) (ν : Fin 4 → ℝ) : slipOf pullState (pullHit d) ν = ν := by
  have e3 : rot (1 : Mat4) = 1 := by
    ext i j
    fin_cases i <;> fin_cases j <;> simp [rot, Matrix.one_apply]
  have eg : (groundDyn 4).jac *ᵥ ν = 0 := by
    change (0 : Matrix (Fin 6) (Fin 4) ℝ) *ᵥ ν = 0
    rw [Matrix.zero_mulVec]
  have e0 : ang (0 : Vec6) = 0 := rfl
  have e0' : lin (0 : Vec6) = 0 := rfl
  have e1 : ang (pullJac *ᵥ ν) = ![0, 0, ν 0] := by
    funext i
    fin_cases i <;> simp [ang, pullJac, Matrix.mulVec, dotProduct, Fin.sum_univ_four]
  have e2 : lin (pullJac *ᵥ ν) = ![ν 1, ν 2, ν 3] := by
    funext i
    fin_cases i <;> simp [lin, pullJac, Matrix.mulVec, dotProduct, Fin.sum_univ_four]
  unfold slipOf slip
  simp only [pullState, pullHit, eg, e0, e0', e1, e2, e3, Matrix.one_mulVec]
  simp only [Matrix.mulVec_zero, sub_self, map_zero, LinearMap.zero_apply, sub_zero, add_zero]
  funext i
  fin_cases i <;> simp [dotProduct, Fin.sum_univ_three, Matrix.one_apply]

lemma pull_step {d : ℝ} (hd1 : d ≤ 1) {f : Vec4} (hd : (-pullM) *ᵥ (pullVel + Pi.single 3 (d / 1)) = f) (hf : f 0 ^ 2 + f 1 ^ 2 + f 2 ^ 2 ≤ (f 3 * 2) ^ 2) :
    ContactStep (pullTouch d) pullState (pullHit d) pullM 0 0 [] pullVel 1 ![0, 0, 0, -d] f := by
  have hpinv : ∀ A, A.det ≠ 0 → IsPinv A ((pullTouch d).pinv A) := fun A h => inv_pinv A h
  have hreach : Function.Surjective (slipOf pullState (pullHit d)) := fun ν => ⟨ν, pull_slip d ν⟩
  have htwist : pullState.body0.twist = pullState.body0.jac *ᵥ pullVel ∧ pullState.body1.twist = pullState.body1.jac *ᵥ pullVel := by
    refine ⟨?_, rfl⟩
    change (0 : Vec6) = (0 : Matrix (Fin 6) (Fin 4) ℝ) *ᵥ pullVel
    rw [Matrix.zero_mulVec]
  refine ⟨hpinv, rfl, (pull_found d), htwist, hreach, ?_⟩
  obtain ⟨s1, hup, h1e, h10, h11, h1f, h1s, h1b0, h1b1, h1a⟩ := touch_update (pull_found d) 1
  have hJac : ∀ ν, touchJac s1 *ᵥ ν = ν := by
    intro ν
    have := touch_jac (s := s1) (c := (pullHit d)) (by rw [h10]; exact isRigid_one) (by rw [h11]; exact isRigid_one) (pull_found d).frame0 (pull_found d).frame1
      (by rw [h10]; exact h1b0) (by rw [h11]; exact h1b1) ν
    rw [this]
    unfold slipOf
    rw [h10, h11]
    exact pull_slip d ν
  have hJ1 : touchJac s1 = 1 := by
    ext i j
    have := congrFun (hJac (Pi.single j 1)) i
    rw [Matrix.mulVec_single_one] at this
    simpa [Matrix.one_apply, Pi.single_apply] using this
  have hact : activeCons 1 [(⟨softContact 4 (pullTouch d), pullState⟩ : Con 4)] = [⟨softContact 4 (pullTouch d), s1⟩] := by
    have e1 : (softContact 4 (pullTouch d)).update pullState 1 = s1 := by simp only [softContact, hup]
    have e2 : (softContact 4 (pullTouch d)).active s1 = true := by
      change s1.isActive = true
      rw [h1a, htwist.1, htwist.2]
      have : slip (pullHit d).H0 pullState.body0.pose pullState.body1.pose (pullState.body0.jac *ᵥ pullVel) (pullState.body1.jac *ᵥ pullVel) = pullVel := pull_slip d pullVel
      rw [this]
      have : pullVel 3 = -1 := by simp [pullVel]
      simp only [pullHit, pullTouch, this]
      norm_num
      linarith
    have e3 : (softContact 4 (pullTouch d)).enabled pullState = true := rfl
    simp [activeCons, e1, e2, e3]
  have hw : updateControllers pullM 0 0 1 ([] : List (CtrlVal 4)) = .ok ⟨0, pullM, pullY⟩ := by
    refine (C33_sum ..).mpr ⟨one_pos, BlockGS.pd_det pull_pd, rfl, ?_, pull_inv⟩
    simp
  have hdet : (touchJac s1 * pullY * (touchJac s1)ᵀ).det ≠ 0 := by
    rw [hJ1, Matrix.one_mul, Matrix.transpose_one, Matrix.mul_one]
    exact BlockGS.pd_det pullY_pd
  have hrun := touch_run hpinv s1 pullY pullM pullVel 0 1 one_pos 1 hdet
  have hYi : pullY⁻¹ = pullM := Matrix.inv_eq_right_inv pull_inv
  have hv0 : pullY *ᵥ ((1 : ℝ)⁻¹ • (pullM *ᵥ pullVel) + 0) = pullVel := by
    rw [inv_one, one_smul, add_zero, Matrix.mulVec_mulVec, pull_inv, Matrix.one_mulVec]
  have hsolve : (softSolve (pullTouch d).pinv (pullTouch d).eps (pullTouch d).mu s1.sdist 0 pullVel pullY 1).1 = f := by
    unfold softSolve
    have e1 : s1.sdist = d := h1s
    have e3 : pullVel 3 = -1 := by simp [pullVel]
    have e2 : (pullTouch d).pinv pullY = pullM := hYi
    simp only [e1, e2, Matrix.mulVec_zero, sub_zero, hd, zero_add]
    rw [if_neg (by rw [e3]; linarith), if_pos (by simpa [pullTouch] using hf)]
  rw [hJ1, Matrix.one_mul, Matrix.transpose_one, Matrix.mul_one, Matrix.one_mulVec, hv0, hsolve] at hrun
  refine ⟨_, 0 + (touchJac { s1 with force := f })ᵀ *ᵥ f, { s1 with force := f }, 1, 1, hw, pullY_pd, one_pos, ?_, rfl, ?_⟩
  · rw [updateConstraints_eq one_pos hact, touch_cons _ _ hrun, addGforces_eq, ← totalForce_cons, touch_total _ _ hrun]
  · have : touchJac { s1 with force := f } = 1 := hJ1
    rw [this]
    unfold integrateGvel
    rw [if_pos one_pos]
    congr 1
    rw [inv_one, one_smul, zero_add, Matrix.transpose_one, Matrix.one_mulVec, Matrix.mulVec_add, Matrix.mulVec_mulVec, pull_inv, Matrix.one_mulVec, ← hd, Matrix.neg_mulVec,
      Matrix.mulVec_neg, Matrix.mulVec_mulVec, pull_inv, Matrix.one_mulVec]
    funext i
    fin_cases i <;> simp

/-- C124, full statement, is false of the code: a body at 1 m from another, moving so that it would touch it exactly, sideways too; the contact pulls
it, and it gains energy.  (The friction law is checked on the square of the normal force.) -/
theorem C124_false : ¬ C124_Claim := by
  intro h
  have hd : (-pullM) *ᵥ (pullVel + Pi.single 3 (1 / 1)) = ![0, -15/16, 0, -9/16] := by
    funext i
    fin_cases i <;> simp [pullM, pullVel, Matrix.mulVec, dotProduct, Fin.sum_univ_four] <;> norm_num
  have := h 4 _ _ _ _ _ _ _ _ _ _ _ pull_pd (by norm_num [pullTouch]) (pull_step le_rfl hd (by simp; norm_num)) (by norm_num [pullHit])
  simp [kinetic, otherWork, pullM, pullVel, Matrix.mulVec, dotProduct, Fin.sum_univ_four] at this
  norm_num at this

/-- C124 (the hypotheses of what holds can be met): the same body, when it touches exactly, is stopped. -/
example : ∃ v f, ContactStep (pullTouch 0) pullState (pullHit 0) pullM 0 0 [] pullVel 1 v f ∧ (pullHit 0).sdist = 0 ∧ kinetic pullM v ≤ kinetic pullM pullVel := by
  have hd : (-pullM) *ᵥ (pullVel + Pi.single 3 (0 / 1)) = ![0, 0, 0, 1] := by
    funext i
    fin_cases i <;> simp [pullM, pullVel, Matrix.mulVec, dotProduct, Fin.sum_univ_four] <;> norm_num
  have h := pull_step zero_le_one hd (by simp)
  refine ⟨_, _, h, rfl, ?_⟩
  have := C124_contact_partial ⟨pull_pd.1, fun x => ?_⟩ h (Or.inl rfl)
  · simpa [otherWork] using this
  · by_cases hx : x = 0
    · simp [hx]
    · exact (pull_pd.2 x hx).le

end Arboris
