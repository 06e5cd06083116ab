import Verif.Model.Constraints
import Verif.Props.Step

/-! # Properties C37–C42, C77: the constraint classes -/

namespace Arboris
open Matrix Real Spec

/-- the pseudo-inverse of an invertible matrix is its inverse -/
lemma IsPinv.eq_inv {k : Type} [Fintype k] [DecidableEq k] {A P : Matrix k k ℝ} (h : IsPinv A P) (hA : A.det ≠ 0) :
    A * P = 1 ∧ P * A = 1 := by
  have hu : IsUnit A.det := isUnit_iff_ne_zero.mpr hA
  have h1 : A * P = 1 := by
    have := congrArg (fun X => X * A⁻¹) h.apa
    simpa [Matrix.mul_assoc, Matrix.mul_nonsing_inv _ hu] using this
  exact ⟨h1, mul_eq_one_comm.mp h1⟩

/-! ### the three classes keep the solver's contract -/

/-- C36: `JointLimits.solve` returns exactly the change of its force. -/
theorem C36_jointLimits (n : ℕ) {k : ℕ} (pinv : Matrix (Fin k) (Fin k) ℝ → Matrix (Fin k) (Fin k) ℝ) (p : JLParams k) :
    Lawful (jointLimits n pinv p) := by
  refine ⟨fun _ _ _ _ => rfl, fun s v Y dt => ?_⟩
  change (jlSolve pinv p.min p.max s.pos0 s.force v Y dt).1 =
    s.force + (jlSolve pinv p.min p.max s.pos0 s.force v Y dt).2
  unfold jlSolve
  simp only
  split_ifs <;> simp
/-- C36: `BallAndSocketConstraint.solve` returns exactly the change of its force. -/
theorem C36_ballAndSocket (n : ℕ) (pinv : Mat3 → Mat3) : Lawful (ballAndSocket n pinv) :=
  ⟨fun _ _ _ _ => rfl, fun _ _ _ _ => rfl⟩
/-- C36: `SoftFingerContact.solve` returns exactly the change of its force. -/
theorem C36_softFinger (n : ℕ) (pinv : Matrix (Fin 4) (Fin 4) ℝ → Matrix (Fin 4) (Fin 4) ℝ) (eps : Vec3) (mu : ℝ)
    (upd : SFState n → ℝ → SFState n) : Lawful (softFinger n pinv eps mu upd) := by
  refine ⟨fun _ _ _ _ => rfl, fun s v Y dt => ?_⟩
  change (softSolve pinv eps mu s.sdist s.force v Y dt).1 =
    s.force + (softSolve pinv eps mu s.sdist s.force v Y dt).2
  unfold softSolve
  simp only
  split_ifs <;> simp

/-! ### C37 -/

/-- C37, one solve: after a `solve` of a ball-and-socket constraint with invertible admittance, the predicted gap is zero. -/
theorem C37_solve {n : ℕ} {pinv : Mat3 → Mat3} (s : BSState n) (vel : Vec3) (Y : Mat3) (hp : IsPinv Y (pinv Y))
    (hY : Y.det ≠ 0) {dt : ℝ} (hdt : 0 < dt) :
    s.pos0 + dt • (vel + Y *ᵥ ((ballAndSocket n pinv).solve s vel Y dt).2) = 0 := by
  have h1 := (IsPinv.eq_inv hp hY).1
  have : ((ballAndSocket n pinv).solve s vel Y dt).2 = -(pinv Y *ᵥ (vel + dt⁻¹ • s.pos0)) := rfl
  rw [this, Matrix.mulVec_neg, Matrix.mulVec_mulVec, h1, Matrix.one_mulVec]
  funext i
  have := hdt.ne'
  simp only [Pi.add_apply, Pi.smul_apply, Pi.neg_apply, smul_eq_mul, Pi.zero_apply]
  field_simp
  ring

/-- C37: a world whose only active constraint is a ball-and-socket whose stacked admittance `J Y Jᵀ` is invertible: whatever
the number of iterations allowed (at least one) and the tolerance, the velocity after `integrate` closes the gap:
`p01 + dt · (constraint jacobian · gvel') = 0`. -/
theorem C37_single {n : ℕ} {pinv : Mat3 → Mat3} (s : BSState n) (Y mass : Matrix (Fin n) (Fin n) ℝ)
    (gvel gforce : Fin n → ℝ) {dt : ℝ} (maxiters : ℕ) (hmax : 0 < maxiters) (tol : ℝ)
    (hp : ∀ A, IsPinv A (pinv A))
    (hY : (bsJac s.pose0 s.pose1 s.jac0 s.jac1 * Y * (bsJac s.pose0 s.pose1 s.jac0 s.jac1)ᵀ).det ≠ 0) :
    let cs : List (Con n) := [⟨ballAndSocket n pinv, s⟩]
    ∀ v, integrateGvel mass Y gvel (addGforces cs (gsRun cs Y mass gvel gforce dt maxiters tol).st gforce) dt = .ok v →
      s.pos0 + dt • (bsJac s.pose0 s.pose1 s.jac0 s.jac1 *ᵥ v) = 0 := by
  intro cs v hv
  have hl : ∀ c ∈ cs, Lawful c.cls := by
    intro c hc
    rw [List.mem_singleton] at hc
    rw [hc]; exact C36_ballAndSocket n pinv
  have hdt : 0 < dt := by
    unfold integrateGvel at hv
    by_contra h
    rw [if_neg h] at hv; cases hv
  let A : Matrix (Dol cs) (Dol cs) ℝ := gsAdm cs Y
  let i0 : Fin cs.length := ⟨0, by simp [cs]⟩
  have hadm : admOf cs A i0 = bsJac s.pose0 s.pose1 s.jac0 s.jac1 * Y * (bsJac s.pose0 s.pose1 s.jac0 s.jac1)ᵀ := by
    rw [Matrix.mul_assoc]
    ext k l
    rfl
  let vv : GS cs → Vec3 := fun g => velOf cs g.vel i0
  -- what one solve does, on any state with the same frames and gap
  have hkeep : ∀ g : GS cs, (∃ f, g.st i0 = { s with force := f }) →
      (∃ f, (sweep cs A dt g).st i0 = { s with force := f }) ∧
      s.pos0 + dt • vv (sweep cs A dt g) = 0 := by
    rintro g ⟨f, hf⟩
    have hs : sweep cs A dt g = solveOne cs A dt g i0 := rfl
    rw [hs]
    set r := (ballAndSocket n pinv).solve (g.st i0) (velOf cs g.vel i0) (admOf cs A i0) dt with hr
    let Mw : Mat3 := admOf cs A i0
    have h1 : (solveOne cs A dt g i0).st i0 = r.1 := by simp [solveOne, hr]; rfl
    have h2 : vv (solveOne cs A dt g i0) = vv g + Mw *ᵥ r.2 := rfl
    constructor
    · rw [h1, hr, hf]; exact ⟨_, rfl⟩
    · rw [h2]
      have hd : (admOf cs A i0).det ≠ 0 := by rw [hadm]; exact hY
      have := C37_solve (pinv := pinv) { s with force := f } (velOf cs g.vel i0) (admOf cs A i0) (hp _) hd hdt
      rw [hr, hf]; exact this
  have hiter : ∀ m, ∀ g : GS cs, (∃ f, g.st i0 = { s with force := f }) →
      (∃ f, ((sweep cs A dt)^[m] g).st i0 = { s with force := f }) ∧
      (0 < m → s.pos0 + dt • vv ((sweep cs A dt)^[m] g) = 0) := by
    intro m
    induction m with
    | zero => intro g hg; exact ⟨hg, fun h => absurd h (lt_irrefl _)⟩
    | succ m ih =>
      intro g hg
      rw [Function.iterate_succ_apply']
      exact ⟨(hkeep _ (ih g hg).1).1, fun _ => (hkeep _ (ih g hg).1).2⟩
  obtain ⟨m, _, hm, hrun⟩ := gsLoop_eq_sweeps cs A dt tol maxiters true (gsInit cs Y mass gvel gforce dt)
  have h0 := hiter m (gsInit cs Y mass gvel gforce dt) ⟨s.force, rfl⟩
  have hfin := C36_final hl Y mass gvel gforce dt maxiters tol i0 v hv
  have hgs : gsRun cs Y mass gvel gforce dt maxiters tol = (sweep cs A dt)^[m] (gsInit cs Y mass gvel gforce dt) := hrun
  rw [hgs] at hfin
  change vv _ = _ at hfin
  have h3 := h0.2 (hm hmax)
  rw [hfin] at h3
  obtain ⟨f, hf⟩ := h0.1
  rw [hf] at h3
  exact h3

/-- the hypotheses of C37 are met: a ball-and-socket between the ground and a free body of unit mass, gap (1,0,0) -/
example : ∃ s : BSState 6, s.pos0 = ![1, 0, 0] ∧ s.pos0 = pos (relFrame s.pose0 s.pose1) ∧
    (bsJac s.pose0 s.pose1 s.jac0 s.jac1 * (1 : Mat6) * (bsJac s.pose0 s.pose1 s.jac0 s.jac1)ᵀ).det ≠ 0 := by
  refine ⟨⟨true, 1, transl 1 0 0, 0, 1, ![1, 0, 0], 0⟩, rfl, ?_, ?_⟩
  · have h1 : invBody (1 : Mat4) = 1 := by
      have := isRigid_one.mul_invBody; rwa [Matrix.one_mul] at this
    rw [relFrame, h1, Matrix.one_mul, transl_eq, pos_mkH]
  · have h1 : invBody (1 : Mat4) = 1 := by
      have := isRigid_one.mul_invBody; rwa [Matrix.one_mul] at this
    have : bsJac (n := 6) 1 (transl 1 0 0) 0 1 = Matrix.of fun i j =>
        (blk 1 0 (skew ![1, 0, 0]) 1) (e6 (Sum.inr i)) j := by
      rw [bsJac, relFrame, h1, Matrix.one_mul, transl_eq, adjointBody_mkH, Matrix.mul_one, Matrix.mul_one]
      ext i j; simp [rows36]
    simp only [this]
    rw [Matrix.mul_one, det_fin_three]
    simp [Matrix.mul_apply, Fin.sum_univ_six, blk, skew, e6, finSumFinEquiv, Fin.addCases]

/-! ### C38 -/

/-- the constraint velocity of a ball-and-socket between frames with poses `H0, H1` and body twists `T0, T1` -/
lemma bsJac_mulVec {n : ℕ} (H0 H1 : Mat4) (J0 J1 : Matrix (Fin 6) (Fin n) ℝ) (ν : Fin n → ℝ) :
    bsJac H0 H1 J0 J1 *ᵥ ν = lin (adjointBody (relFrame H0 H1) *ᵥ (J1 *ᵥ ν)) - lin (J0 *ᵥ ν) := by
  rw [bsJac, Matrix.sub_mulVec, ← Matrix.mulVec_mulVec]
  rfl

/-- C38, what holds: along any motion of the two frames, the constraint velocity reported (jacobian · gvel) is the
derivative of the gap `p01`, *plus* `p01 × ω` with `ω` the angular velocity of frame 1 relative to frame 0 in frame 0.
So it is the derivative of the gap exactly when `p01` is parallel to `ω`, e.g. zero. -/
theorem C38_partial {n : ℕ} {H0 H1 : ℝ → Mat4} {J0 J1 : Matrix (Fin 6) (Fin n) ℝ} {ν : Fin n → ℝ} {t : ℝ}
    (r0 : ∀ s, IsRigid (H0 s)) (r1 : ∀ s, IsRigid (H1 s)) (h0 : HasTwist H0 (J0 *ᵥ ν) t)
    (h1 : HasTwist H1 (J1 *ᵥ ν) t) :
    HasDerivV (fun s => pos ((H0 s)⁻¹ * H1 s))
      (bsJac (H0 t) (H1 t) J0 J1 *ᵥ ν -
        pos ((H0 t)⁻¹ * H1 t) ⨯₃ (rot ((H0 t)⁻¹ * H1 t) *ᵥ ang (J1 *ᵥ ν) - ang (J0 *ᵥ ν))) t := by
  have e : ∀ s, (H0 s)⁻¹ = invBody (H0 s) := fun s => (r0 s).inv_eq
  simp only [e]
  have ht := HasTwist.mul (r1 t) (h0.inv (r0 t)) h1
  have rr : IsRigid (invBody (H0 t) * H1 t) := (r0 t).invBody.mul (r1 t)
  have hp := (ht.rot_pos rr).2
  refine hp.congr ?_
  rw [bsJac_mulVec, relFrame]
  set K := invBody (H0 t) * H1 t with hK
  set T0 := J0 *ᵥ ν
  set T1 := J1 *ᵥ ν
  -- express T0 through the relative frame
  have hAd : adjointBody (invBody (H1 t)) *ᵥ (-(adjointBody (H0 t) *ᵥ T0)) = -(adjointBody (invBody K) *ᵥ T0) := by
    have : adjointBody (invBody K) = adjointBody (invBody (H1 t)) * adjointBody (H0 t) := by
      rw [hK, (r0 t).invBody.invBody_mul_rev (r1 t), (r0 t).invBody_invBody, adjointBody_mul (r1 t).invBody (r0 t)]
    rw [this, Matrix.mulVec_neg, Matrix.mulVec_mulVec]
  rw [hAd]
  set U := -(adjointBody (invBody K) *ᵥ T0) + T1 with hU
  have hKU : adjointBody K *ᵥ U = adjointBody K *ᵥ T1 - T0 := by
    rw [hU, Matrix.mulVec_add, Matrix.mulVec_neg, Matrix.mulVec_mulVec, rr.adjoint_mul_inv, Matrix.one_mulVec]
    abel
  have hform : ∀ X : Vec6, adjointBody K *ᵥ X =
      tw (rot K *ᵥ ang X) (pos K ⨯₃ (rot K *ᵥ ang X) + rot K *ᵥ lin X) := by
    intro X
    nth_rw 1 [← tw_ang_lin X]
    rw [adjointBody, blk_mulVec, ← skew_mulVec, Matrix.mulVec_mulVec]
    simp
  have h3 := congrArg lin hKU
  have h4 := congrArg ang hKU
  have hsub_lin : lin (adjointBody K *ᵥ T1 - T0) = lin (adjointBody K *ᵥ T1) - lin T0 := rfl
  have hsub_ang : ang (adjointBody K *ᵥ T1 - T0) = ang (adjointBody K *ᵥ T1) - ang T0 := rfl
  rw [hsub_lin, hform U, lin_tw] at h3
  rw [hsub_ang, hform U, hform T1, ang_tw, ang_tw] at h4
  rw [← h4, ← h3]
  abel

/-- C38: hence the exact condition: the constraint velocity is the derivative of the gap iff the cross product of the gap
and of the relative angular velocity is zero. -/
theorem C38_iff_partial {n : ℕ} {H0 H1 : ℝ → Mat4} {J0 J1 : Matrix (Fin 6) (Fin n) ℝ} {ν : Fin n → ℝ} {t : ℝ}
    (r0 : ∀ s, IsRigid (H0 s)) (r1 : ∀ s, IsRigid (H1 s)) (h0 : HasTwist H0 (J0 *ᵥ ν) t)
    (h1 : HasTwist H1 (J1 *ᵥ ν) t) :
    HasDerivV (fun s => pos ((H0 s)⁻¹ * H1 s)) (bsJac (H0 t) (H1 t) J0 J1 *ᵥ ν) t ↔
      pos ((H0 t)⁻¹ * H1 t) ⨯₃ (rot ((H0 t)⁻¹ * H1 t) *ᵥ ang (J1 *ᵥ ν) - ang (J0 *ᵥ ν)) = 0 := by
  have h := C38_partial r0 r1 h0 h1
  constructor
  · intro h'
    funext i
    have := (h' i).unique (h i)
    rw [Pi.sub_apply] at this
    rw [Pi.zero_apply]; linarith
  · intro e
    rwa [e, sub_zero] at h

/-- C38, the claim: the constraint velocity is the derivative of the gap, for all motions. -/
def C38_Claim : Prop :=
  ∀ (n : ℕ) (H0 H1 : ℝ → Mat4) (J0 J1 : Matrix (Fin 6) (Fin n) ℝ) (ν : Fin n → ℝ) (t : ℝ),
    (∀ s, IsRigid (H0 s)) → (∀ s, IsRigid (H1 s)) → HasTwist H0 (J0 *ᵥ ν) t → HasTwist H1 (J1 *ᵥ ν) t →
    HasDerivV (fun s => pos ((H0 s)⁻¹ * H1 s)) (bsJac (H0 t) (H1 t) J0 J1 *ᵥ ν) t
/-- C38 is false of the code: frame 1 turning about its own origin at (1,0,0) from a fixed frame 0. -/
theorem C38_false : ¬ C38_Claim := by
  intro h
  let H1 : ℝ → Mat4 := fun s => transl 1 0 0 * rotz s
  have r1 : ∀ s, IsRigid (H1 s) := fun s => (C01_transl 1 0 0).mul (C01_rotz s)
  have tw1 : HasTwist H1 ((1 : Mat6) *ᵥ ![0, 0, 1, 0, 0, 0]) 0 := by
    have hz := LinKind.hasTwist_pose .Rz (fun s _ => s) (fun _ => 1) 0 (fun _ => hasDerivAt_id 0)
    have e := twist_Rz (fun _ => 0) (fun _ => 1)
    erw [e] at hz
    have hz' : HasTwist (fun s => rotz s) ![0, 0, 1, 0, 0, 0] 0 := hz
    have := HasTwist.mul (C01_rotz 0) (HasTwist.const (H := transl 1 0 0) 0) hz'
    simpa using this
  have tw0 : HasTwist (fun _ => (1 : Mat4)) ((0 : Mat6) *ᵥ ![0, 0, 1, 0, 0, 0]) 0 := by
    rw [Matrix.zero_mulVec]; exact HasTwist.const 0
  have h1 := h 6 (fun _ => 1) H1 0 1 ![0, 0, 1, 0, 0, 0] 0 (fun _ => isRigid_one) r1 tw0 tw1
  have h2 := C38_partial (fun _ => isRigid_one) r1 tw0 tw1
  have h3 := (h1 1).unique (h2 1)
  have hH : (1 : Mat4)⁻¹ * H1 0 = mkH 1 ![1, 0, 0] := by
    have : rotz 0 = 1 := by
      rw [rotz_eq]; ext i j; fin_cases i <;> fin_cases j <;> simp [Rz, mkH]
    simp only [H1, this, inv_one, Matrix.mul_one, Matrix.one_mul, transl_eq]
  rw [hH, pos_mkH, rot_mkH, Pi.sub_apply] at h3
  have h4 : ((![1, 0, 0] : Vec3) ⨯₃ ((1 : Mat3) *ᵥ ang ((1 : Mat6) *ᵥ ![0, 0, 1, 0, 0, 0]) -
      ang ((0 : Mat6) *ᵥ ![0, 0, 1, 0, 0, 0]))) 1 = -1 := by
    simp only [Matrix.one_mulVec, Matrix.zero_mulVec, cross_apply]
    simp [ang, e6, finSumFinEquiv, Fin.castAdd, Fin.castLE]
  rw [h4] at h3
  linarith

end Arboris
