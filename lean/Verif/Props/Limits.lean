import Verif.Props.Constraints

/-! # Properties C39–C42 and C77: joint limits and soft-finger contacts -/

namespace Arboris
open Matrix Real Spec

/-! ### C39, C40 -/

/-- C39/C40: several dofs with a diagonal, positive admittance, no dof violating the other side: every predicted position
`pos0 + dt·(vel + Y·dforce)` is inside the limits; the force is zero on the dofs that do not reach a limit, pushes
inwards on the others, and is non-zero only on dofs brought exactly onto their limit (Signorini). -/
theorem C40_partial {k : ℕ} {pinv : Matrix (Fin k) (Fin k) ℝ → Matrix (Fin k) (Fin k) ℝ} {mn mx pos0 force vel d : Fin k → ℝ}
    (hp : IsPinv (Matrix.diagonal d) (pinv (Matrix.diagonal d))) (hd : ∀ i, 0 < d i) (hm : ∀ i, mn i ≤ mx i)
    {dt : ℝ} (hdt : 0 < dt)
    (hside : (∃ i, pos0 i + dt * (vel i - d i * force i) ≤ mn i) →
      ∀ j, pos0 j + dt * (vel j - d j * force j) ≤ mx j) :
    let r := jlSolve pinv mn mx pos0 force vel (Matrix.diagonal d) dt
    ∀ i, let pos' := pos0 i + dt * (vel i + (Matrix.diagonal d *ᵥ r.2) i)
      mn i ≤ pos' ∧ pos' ≤ mx i ∧ (0 < r.1 i → pos' = mn i) ∧ (r.1 i < 0 → pos' = mx i) ∧
      (mn i < pos0 i + dt * (vel i - d i * force i) → pos0 i + dt * (vel i - d i * force i) < mx i → r.1 i = 0) := by
  have hdet : (Matrix.diagonal d).det ≠ 0 := by
    rw [Matrix.det_diagonal]; exact (Finset.prod_pos fun i _ => hd i).ne'
  have hinv : pinv (Matrix.diagonal d) = Matrix.diagonal fun i => (d i)⁻¹ := by
    have h1 := (IsPinv.eq_inv hp hdet).2
    have h2 : Matrix.diagonal d * Matrix.diagonal (fun i => (d i)⁻¹) = 1 := by
      rw [Matrix.diagonal_mul_diagonal, ← Matrix.diagonal_one]
      congr 1; funext i; exact mul_inv_cancel₀ (hd i).ne'
    calc pinv (Matrix.diagonal d) = pinv (Matrix.diagonal d) * (Matrix.diagonal d * Matrix.diagonal fun i => (d i)⁻¹) := by
          rw [h2, Matrix.mul_one]
      _ = _ := by rw [← Matrix.mul_assoc, h1, Matrix.one_mul]
  intro r i
  have hr : r = jlSolve pinv mn mx pos0 force vel (Matrix.diagonal d) dt := rfl
  clear_value r
  have hdi := hd i
  have hpred : ∀ j, (pos0 + dt • (vel - Matrix.diagonal d *ᵥ force)) j = pos0 j + dt * (vel j - d j * force j) := by
    intro j; simp [Matrix.mulVec_diagonal]
  have key : ∀ f : ℝ, pos0 i + dt * (vel i + d i * (f - force i)) =
      pos0 i + dt * (vel i - d i * force i) + dt * d i * f := by intro f; ring
  simp only [Matrix.mulVec_diagonal]
  unfold jlSolve at hr
  simp only [hinv, hpred] at hr
  by_cases h1 : ∃ i, pos0 i + dt * (vel i - d i * force i) ≤ mn i
  · rw [if_pos h1] at hr
    set q := pos0 i + dt * (vel i - d i * force i) with hq
    have hr1 : r.1 i = max ((d i)⁻¹ * (dt⁻¹ * (mn i - q))) 0 := by
      simp [hr, Matrix.mulVec_diagonal, hq]
    have hr2 : r.2 i = r.1 i - force i := by rw [hr]; rfl
    rw [hr2, key, hr1]
    have hmxi := hside h1 i
    rcases le_total (mn i - q) 0 with hle | hle
    · have : max ((d i)⁻¹ * (dt⁻¹ * (mn i - q))) 0 = 0 := by
        apply max_eq_right
        exact mul_nonpos_of_nonneg_of_nonpos (inv_nonneg.mpr hdi.le)
          (mul_nonpos_of_nonneg_of_nonpos (inv_nonneg.mpr hdt.le) hle)
      rw [this]
      refine ⟨by linarith, by linarith, fun h => absurd h (lt_irrefl _), fun h => absurd h (lt_irrefl _), fun _ _ => rfl⟩
    · have : max ((d i)⁻¹ * (dt⁻¹ * (mn i - q))) 0 = (d i)⁻¹ * (dt⁻¹ * (mn i - q)) := by
        apply max_eq_left
        exact mul_nonneg (inv_nonneg.mpr hdi.le) (mul_nonneg (inv_nonneg.mpr hdt.le) hle)
      rw [this]
      have e : q + dt * d i * ((d i)⁻¹ * (dt⁻¹ * (mn i - q))) = mn i := by
        field_simp; ring
      rw [e]
      refine ⟨le_rfl, hm i, fun _ => rfl, fun h => ?_, fun h => by linarith⟩
      exact absurd h (not_lt.mpr (mul_nonneg (inv_nonneg.mpr hdi.le) (mul_nonneg (inv_nonneg.mpr hdt.le) hle)))
  · rw [if_neg h1] at hr
    push Not at h1
    have h1i := h1 i
    set q := pos0 i + dt * (vel i - d i * force i) with hq
    by_cases h2 : ∃ i, mx i ≤ pos0 i + dt * (vel i - d i * force i)
    · rw [if_pos h2] at hr
      have hr1 : r.1 i = min ((d i)⁻¹ * (dt⁻¹ * (mx i - q))) 0 := by
        simp [hr, Matrix.mulVec_diagonal, hq]
      have hr2 : r.2 i = r.1 i - force i := by rw [hr]; rfl
      rw [hr2, key, hr1]
      rcases le_total (mx i - q) 0 with hle | hle
      · have hn : (d i)⁻¹ * (dt⁻¹ * (mx i - q)) ≤ 0 := mul_nonpos_of_nonneg_of_nonpos (inv_nonneg.mpr hdi.le)
          (mul_nonpos_of_nonneg_of_nonpos (inv_nonneg.mpr hdt.le) hle)
        rw [min_eq_left hn]
        have e : q + dt * d i * ((d i)⁻¹ * (dt⁻¹ * (mx i - q))) = mx i := by
          field_simp; ring
        rw [e]
        exact ⟨hm i, le_rfl, fun h => absurd h (not_lt.mpr hn), fun _ => rfl, fun _ h => by linarith⟩
      · have hn : 0 ≤ (d i)⁻¹ * (dt⁻¹ * (mx i - q)) :=
          mul_nonneg (inv_nonneg.mpr hdi.le) (mul_nonneg (inv_nonneg.mpr hdt.le) hle)
        rw [min_eq_right hn]
        exact ⟨by linarith, by linarith, fun h => absurd h (lt_irrefl _), fun h => absurd h (lt_irrefl _), fun _ _ => rfl⟩
    · rw [if_neg h2] at hr
      push Not at h2
      have h2i := h2 i
      have hr1 : r.1 i = 0 := by rw [hr]; rfl
      have hr2 : r.2 i = 0 - force i := by simp [hr]
      rw [hr2, key, hr1]
      exact ⟨by linarith, by linarith, fun h => absurd h (lt_irrefl _), fun h => absurd h (lt_irrefl _), fun _ _ => rfl⟩

/-- C39: one-dof joint limits with positive admittance `y`: the predicted position is inside the limits, and force and
position satisfy the Signorini conditions. -/
theorem C39_one_dof {pinv : Matrix (Fin 1) (Fin 1) ℝ → Matrix (Fin 1) (Fin 1) ℝ} {mn mx pos0 force vel : Fin 1 → ℝ}
    {Y : Matrix (Fin 1) (Fin 1) ℝ} (hp : IsPinv Y (pinv Y)) (hY : 0 < Y 0 0) (hm : mn 0 ≤ mx 0) {dt : ℝ} (hdt : 0 < dt) :
    let r := jlSolve pinv mn mx pos0 force vel Y dt
    let pos' := pos0 0 + dt * (vel 0 + Y 0 0 * r.2 0)
    mn 0 ≤ pos' ∧ pos' ≤ mx 0 ∧ (0 < r.1 0 → pos' = mn 0) ∧ (r.1 0 < 0 → pos' = mx 0) ∧
      (mn 0 < pos0 0 + dt * (vel 0 - Y 0 0 * force 0) → pos0 0 + dt * (vel 0 - Y 0 0 * force 0) < mx 0 → r.1 0 = 0) := by
  have e : Y = Matrix.diagonal fun _ => Y 0 0 := by
    ext i j; rw [Subsingleton.elim i 0, Subsingleton.elim j 0]; simp
  intro r pos'
  have := C40_partial (pinv := pinv) (mn := mn) (mx := mx) (pos0 := pos0) (force := force) (vel := vel)
    (d := fun _ => Y 0 0) (by rw [← e]; exact hp) (fun _ => hY) (fun i => by rw [Subsingleton.elim i 0]; exact hm) hdt
    (by rintro ⟨i, hi⟩ j
        rw [Subsingleton.elim i 0] at hi; rw [Subsingleton.elim j 0]; linarith) 0
  rw [← e] at this
  have h2 : (Y *ᵥ (jlSolve pinv mn mx pos0 force vel Y dt).2) 0 =
      Y 0 0 * (jlSolve pinv mn mx pos0 force vel Y dt).2 0 := by
    simp [mulVec, dotProduct]
  simp only [h2] at this
  exact this

/-- C40, the claim: for positive definite admittance and limits `min ≤ max`, every predicted position is in the limits. -/
def C40_Claim : Prop :=
  ∀ (k : ℕ) (pinv : Matrix (Fin k) (Fin k) ℝ → Matrix (Fin k) (Fin k) ℝ) (mn mx pos0 force vel : Fin k → ℝ)
    (Y : Matrix (Fin k) (Fin k) ℝ) (dt : ℝ), IsPinv Y (pinv Y) → SymPD Y → (∀ i, mn i ≤ mx i) → 0 < dt →
    ∀ i, mn i ≤ pos0 i + dt * (vel i + (Y *ᵥ (jlSolve pinv mn mx pos0 force vel Y dt).2) i) ∧
      pos0 i + dt * (vel i + (Y *ᵥ (jlSolve pinv mn mx pos0 force vel Y dt).2) i) ≤ mx i
/-- C40 is false of the code: two dofs with unit admittance, limits [0,1], predicted positions (-1, 5): the second one
is left at 5. -/
theorem C40_false : ¬ C40_Claim := by
  intro h
  have := (h 2 (fun _ => 1) 0 1 0 0 ![-1, 5] 1 1 ⟨by simp, by simp, by simp, by simp⟩
    ⟨by simp, fun x hx => by
      rw [Matrix.one_mulVec, dotProduct]
      obtain ⟨i, hi⟩ := Function.ne_iff.mp hx
      exact Finset.sum_pos' (fun j _ => mul_self_nonneg _) ⟨i, Finset.mem_univ _, mul_self_pos.mpr (by simpa using hi)⟩⟩
    (fun i => by simp) one_pos 1).2
  have hc : ∃ i : Fin 2, ((0 + (1 : ℝ) • (![-1, 5] - (1 : Matrix (Fin 2) (Fin 2) ℝ) *ᵥ 0) : Fin 2 → ℝ)) i ≤ (0 : Fin 2 → ℝ) i :=
    ⟨0, by simp⟩
  rw [jlSolve] at this
  simp only [if_pos hc, Matrix.one_mulVec] at this
  norm_num at this

/-! ### C41, C42, C77 -/

/-- `vel + Y dforce` after a solve is the velocity obtained with the new force. -/
lemma soft_vel (pinv : Matrix (Fin 4) (Fin 4) ℝ → Matrix (Fin 4) (Fin 4) ℝ) (eps : Vec3) (mu sdist : ℝ)
    (force vel : Vec4) (Y : Matrix (Fin 4) (Fin 4) ℝ) (dt : ℝ) :
    (softSolve pinv eps mu sdist force vel Y dt).2 = (softSolve pinv eps mu sdist force vel Y dt).1 - force := by
  unfold softSolve
  simp only
  split_ifs <;> simp

/-- the bodies are predicted to stay apart without contact force -/
def Apart (sdist : ℝ) (force vel : Vec4) (Y : Matrix (Fin 4) (Fin 4) ℝ) (dt : ℝ) : Prop :=
  0 < sdist + dt * (vel 3 - (Y *ᵥ force) 3)

/-- C42, no contact: if no penetration is predicted the force is zero. -/
theorem C42_free {pinv : Matrix (Fin 4) (Fin 4) ℝ → Matrix (Fin 4) (Fin 4) ℝ} {eps : Vec3} {mu sdist : ℝ}
    {force vel : Vec4} {Y : Matrix (Fin 4) (Fin 4) ℝ} {dt : ℝ} (h : Apart sdist force vel Y dt) :
    (softSolve pinv eps mu sdist force vel Y dt).1 = 0 := by
  unfold softSolve
  rw [if_pos (by simpa [Apart] using h)]

/-- what the static trial force is, for an invertible admittance -/
lemma soft_static {P Y : Matrix (Fin 4) (Fin 4) ℝ} (hYP : Y * P = 1) (vel : Vec4) (c : ℝ) :
    vel + Y *ᵥ ((-P) *ᵥ (vel + Pi.single 3 c)) = -Pi.single 3 c := by
  rw [Matrix.neg_mulVec, Matrix.mulVec_neg, Matrix.mulVec_mulVec, hYP, Matrix.one_mulVec]
  abel

/-- C42, contact: with an invertible admittance and an invertible sliding matrix, after a solve in contact the predicted
gap is zero in every branch, `sdist + dt·v'_n = 0`; and either (sticking) spin and tangential velocity are zero and the force is
inside the friction ellipsoid, or (sliding) for some `s ≤ 0` the tangential velocity is `s/eps²` times the tangential
force, so friction opposes the motion: `v'_t · f_t ≤ 0`. -/
theorem C42_contact {pinv : Matrix (Fin 4) (Fin 4) ℝ → Matrix (Fin 4) (Fin 4) ℝ} {eps : Vec3} {mu sdist : ℝ}
    {force vel : Vec4} {Y : Matrix (Fin 4) (Fin 4) ℝ} {dt : ℝ} (hp : IsPinv Y (pinv Y)) (hY : Y.det ≠ 0) (hdt : 0 < dt)
    (h : ¬ Apart sdist force vel Y dt)
    (hA : ∀ s ≤ 0, (Y - Matrix.diagonal ![s * (eps 0)⁻¹ ^ 2, s * (eps 1)⁻¹ ^ 2, s * (eps 2)⁻¹ ^ 2, 0]).det ≠ 0) :
    let r := softSolve pinv eps mu sdist force vel Y dt
    let v' := vel + Y *ᵥ r.2
    sdist + dt * v' 3 = 0 ∧
    (((∀ i : Fin 3, v' i.castSucc = 0) ∧
        (r.1 0 / eps 0) ^ 2 + (r.1 1 / eps 1) ^ 2 + (r.1 2 / eps 2) ^ 2 ≤ (r.1 3 * mu) ^ 2) ∨
      (∃ s ≤ 0, ∀ i : Fin 3, v' i.castSucc = s * (eps i)⁻¹ ^ 2 * r.1 i.castSucc)) := by
  have hYP := (IsPinv.eq_inv hp hY).1
  intro r v'
  have hr : r = softSolve pinv eps mu sdist force vel Y dt := rfl
  clear_value r
  have hc : ¬ (0 < sdist + dt * (vel - Y *ᵥ force) 3) := by simpa [Apart] using h
  unfold softSolve at hr
  rw [if_neg hc] at hr
  dsimp only at hr
  split_ifs at hr with h1
  · have hv : v' = -Pi.single 3 (sdist / dt) := by rw [← soft_static hYP vel _]; simp [v', hr]
    refine ⟨?_, Or.inl ⟨fun i => ?_, by rw [hr]; exact h1⟩⟩
    · rw [hv]; simp; field_simp; ring
    · rw [hv]; fin_cases i <;> simp
  · set al := vel - Y *ᵥ force + Pi.single 3 (sdist / dt) with hal
    set s := softS (softB eps mu Y al) with hs
    have hs0 : s ≤ 0 := by
      rw [hs, softS]
      split_ifs with he
      · apply max_le _ (by norm_num)
        obtain ⟨l, hl1, hl2⟩ := he
        by_cases hb : BddBelow {l | IsEigval (softB eps mu Y al) l ∧ l ≤ 0}
        · exact (csInf_le hb ⟨hl1, hl2⟩).trans hl2
        · rw [Real.sInf_of_not_bddBelow hb]
      · norm_num
    set D := Matrix.diagonal ![s * (eps 0)⁻¹ ^ 2, s * (eps 1)⁻¹ ^ 2, s * (eps 2)⁻¹ ^ 2, 0] with hD
    have hu : IsUnit (Y - D).det := isUnit_iff_ne_zero.mpr (hA s hs0)
    have hr1 : r.1 = (Y - D)⁻¹ *ᵥ (-al) := by rw [hr]
    have hAf : Y *ᵥ r.1 - D *ᵥ r.1 = -al := by
      rw [← Matrix.sub_mulVec, hr1, Matrix.mulVec_mulVec, Matrix.mul_nonsing_inv _ hu, Matrix.one_mulVec]
    have hv : v' = D *ᵥ r.1 - Pi.single 3 (sdist / dt) := by
      have hr2 : r.2 = r.1 - force := by rw [hr]
      have : Y *ᵥ r.1 = D *ᵥ r.1 - al := by rw [← sub_eq_iff_eq_add'] at *; rw [sub_eq_iff_eq_add'] at hAf; rw [hAf]; abel
      change vel + Y *ᵥ r.2 = _
      rw [hr2, Matrix.mulVec_sub, this, hal]
      abel
    refine ⟨?_, Or.inr ⟨s, hs0, fun i => ?_⟩⟩
    · rw [hv, hD]; simp [Matrix.mulVec_diagonal]; field_simp; ring
    · rw [hv, hD]; fin_cases i <;> simp [Matrix.mulVec_diagonal]
/-- C42: in particular friction never feeds energy into the sliding motion. -/
theorem C42_dissipative {pinv : Matrix (Fin 4) (Fin 4) ℝ → Matrix (Fin 4) (Fin 4) ℝ} {eps : Vec3} {mu sdist : ℝ}
    {force vel : Vec4} {Y : Matrix (Fin 4) (Fin 4) ℝ} {dt : ℝ} (hp : IsPinv Y (pinv Y)) (hY : Y.det ≠ 0) (hdt : 0 < dt)
    (hA : ∀ s ≤ 0, (Y - Matrix.diagonal ![s * (eps 0)⁻¹ ^ 2, s * (eps 1)⁻¹ ^ 2, s * (eps 2)⁻¹ ^ 2, 0]).det ≠ 0) :
    let r := softSolve pinv eps mu sdist force vel Y dt
    let v' := vel + Y *ᵥ r.2
    v' 0 * r.1 0 + v' 1 * r.1 1 + v' 2 * r.1 2 ≤ 0 := by
  intro r v'
  by_cases h : Apart sdist force vel Y dt
  · have : r.1 = 0 := C42_free h
    simp [this]
  · rcases (C42_contact (mu := mu) hp hY hdt h hA).2 with ⟨h1, _⟩ | ⟨s, hs, h1⟩
    · have h0 := h1 0; have h2 := h1 1; have h3 := h1 2
      simp only [Fin.castSucc_zero, Fin.castSucc_one] at h0 h2
      change v' 2 = 0 at h3
      change v' 0 = 0 at h0
      change v' 1 = 0 at h2
      rw [h0, h2, h3]; simp
    · have h0 := h1 0; have h2 := h1 1; have h3 := h1 2
      change v' 0 = s * (eps 0)⁻¹ ^ 2 * r.1 0 at h0
      change v' 1 = s * (eps 1)⁻¹ ^ 2 * r.1 1 at h2
      change v' 2 = s * (eps 2)⁻¹ ^ 2 * r.1 2 at h3
      rw [h0, h2, h3]
      have : s * (eps 0)⁻¹ ^ 2 * r.1 0 * r.1 0 + s * (eps 1)⁻¹ ^ 2 * r.1 1 * r.1 1 + s * (eps 2)⁻¹ ^ 2 * r.1 2 * r.1 2 =
          s * (((eps 0)⁻¹ * r.1 0) ^ 2 + ((eps 1)⁻¹ * r.1 1) ^ 2 + ((eps 2)⁻¹ * r.1 2) ^ 2) := by ring
      rw [this]
      exact mul_nonpos_of_nonpos_of_nonneg hs (by positivity)

/-- the invertibility hypothesis of C42 holds for every symmetric positive definite admittance (non-zero `eps`). -/
theorem C42_invertible {eps : Vec3} {Y : Matrix (Fin 4) (Fin 4) ℝ} (hY : SymPD Y) :
    Y.det ≠ 0 ∧
    ∀ s ≤ 0, (Y - Matrix.diagonal ![s * (eps 0)⁻¹ ^ 2, s * (eps 1)⁻¹ ^ 2, s * (eps 2)⁻¹ ^ 2, 0]).det ≠ 0 := by
  have key : ∀ s ≤ 0, (Y - Matrix.diagonal ![s * (eps 0)⁻¹ ^ 2, s * (eps 1)⁻¹ ^ 2, s * (eps 2)⁻¹ ^ 2, 0]).det ≠ 0 := by
    intro s hs hdet
    obtain ⟨x, hx, h0⟩ := Matrix.exists_mulVec_eq_zero_iff.mpr hdet
    have h1 := hY.2 x hx
    rw [Matrix.sub_mulVec] at h0
    have h2 : x ⬝ᵥ Y *ᵥ x =
        x ⬝ᵥ Matrix.diagonal ![s * (eps 0)⁻¹ ^ 2, s * (eps 1)⁻¹ ^ 2, s * (eps 2)⁻¹ ^ 2, 0] *ᵥ x := by
      rw [sub_eq_zero.mp h0]
    have h3 : x ⬝ᵥ Matrix.diagonal ![s * (eps 0)⁻¹ ^ 2, s * (eps 1)⁻¹ ^ 2, s * (eps 2)⁻¹ ^ 2, 0] *ᵥ x =
        s * (((eps 0)⁻¹ * x 0) ^ 2 + ((eps 1)⁻¹ * x 1) ^ 2 + ((eps 2)⁻¹ * x 2) ^ 2) := by
      simp only [dotProduct, Matrix.mulVec_diagonal, Fin.sum_univ_four]
      simp
      ring
    have h4 : s * (((eps 0)⁻¹ * x 0) ^ 2 + ((eps 1)⁻¹ * x 1) ^ 2 + ((eps 2)⁻¹ * x 2) ^ 2) ≤ 0 :=
      mul_nonpos_of_nonpos_of_nonneg hs (by positivity)
    linarith
  refine ⟨?_, key⟩
  have := key 0 le_rfl
  have e : Matrix.diagonal ![(0 : ℝ) * (eps 0)⁻¹ ^ 2, 0 * (eps 1)⁻¹ ^ 2, 0 * (eps 2)⁻¹ ^ 2, 0] = 0 := by
    ext i j; fin_cases i <;> fin_cases j <;> simp
  rwa [e, sub_zero] at this

/-- C41, what holds: with no coupling between normal and tangential directions, the normal force is never negative. -/
theorem C41_partial {pinv : Matrix (Fin 4) (Fin 4) ℝ → Matrix (Fin 4) (Fin 4) ℝ} {eps : Vec3} {mu sdist : ℝ}
    {force vel : Vec4} {Y : Matrix (Fin 4) (Fin 4) ℝ} {dt : ℝ} (hp : IsPinv Y (pinv Y)) (hY : SymPD Y) (hdt : 0 < dt)
    (hc : Y 3 0 = 0 ∧ Y 3 1 = 0 ∧ Y 3 2 = 0) : 0 ≤ (softSolve pinv eps mu sdist force vel Y dt).1 3 := by
  by_cases h : Apart sdist force vel Y dt
  · rw [C42_free h]; simp
  · obtain ⟨hdet, hA⟩ := C42_invertible (eps := eps) hY
    have h1 := (C42_contact (mu := mu) hp hdet hdt h hA).1
    rw [soft_vel] at h1
    set f := (softSolve pinv eps mu sdist force vel Y dt).1
    have hy : 0 < Y 3 3 := by
      have := hY.2 (Pi.single 3 1) (by intro e; simpa using congrFun e 3)
      simpa using this
    have h2 : ∀ g : Vec4, (Y *ᵥ g) 3 = Y 3 3 * g 3 := by
      intro g
      simp [mulVec, dotProduct, Fin.sum_univ_four, hc.1, hc.2.1, hc.2.2]
    rw [Matrix.mulVec_sub, Pi.add_apply, Pi.sub_apply, h2, h2] at h1
    rw [Apart, h2, not_lt] at h
    have h3 : dt * (Y 3 3 * f 3) = -(sdist + dt * (vel 3 - Y 3 3 * force 3)) := by linarith
    have h4 : 0 ≤ dt * (Y 3 3 * f 3) := by linarith
    by_contra hn
    push Not at hn
    have : dt * (Y 3 3 * f 3) < 0 := mul_neg_of_pos_of_neg hdt (mul_neg_of_pos_of_neg hy hn)
    linarith

/-- C41, the claim -/
def C41_Claim : Prop :=
  ∀ (pinv : Matrix (Fin 4) (Fin 4) ℝ → Matrix (Fin 4) (Fin 4) ℝ) (mu sdist : ℝ) (force vel : Vec4)
    (Y : Matrix (Fin 4) (Fin 4) ℝ) (dt : ℝ), IsPinv Y (pinv Y) → SymPD Y → 0 < dt → 0 ≤ mu → 
    0 ≤ (softSolve pinv 1 mu sdist force vel Y dt).1 3
/-- C41 is false of the code: a contact at zero distance whose admittance couples spin and normal direction; the static
trial force (1,0,0,-1) passes the test `|f_t|² ≤ (mu f_n)²` although it pulls. -/
theorem C41_false : ¬ C41_Claim := by
  intro h
  let Y : Matrix (Fin 4) (Fin 4) ℝ := !![2, 0, 0, 1; 0, 1, 0, 0; 0, 0, 1, 0; 1, 0, 0, 1]
  let P : Matrix (Fin 4) (Fin 4) ℝ := !![1, 0, 0, -1; 0, 1, 0, 0; 0, 0, 1, 0; -1, 0, 0, 2]
  have hYP : Y * P = 1 := by
    ext i j; fin_cases i <;> fin_cases j <;> simp [Y, P, Matrix.mul_apply, Fin.sum_univ_four] <;> norm_num
  have hPY : P * Y = 1 := mul_eq_one_comm.mp hYP
  have hpd : SymPD Y := by
    constructor
    · ext i j; fin_cases i <;> fin_cases j <;> simp [Y]
    · intro x hx
      have e : x ⬝ᵥ Y *ᵥ x = x 0 ^ 2 + (x 0 + x 3) ^ 2 + x 1 ^ 2 + x 2 ^ 2 := by
        simp only [Y, mulVec, dotProduct, Fin.sum_univ_four]; simp; ring
      rw [e]
      by_contra hn
      push Not at hn
      apply hx
      have h0 : x 0 = 0 := by nlinarith [sq_nonneg (x 0), sq_nonneg (x 0 + x 3), sq_nonneg (x 1), sq_nonneg (x 2)]
      have h1 : x 1 = 0 := by nlinarith [sq_nonneg (x 0), sq_nonneg (x 0 + x 3), sq_nonneg (x 1), sq_nonneg (x 2)]
      have h2 : x 2 = 0 := by nlinarith [sq_nonneg (x 0), sq_nonneg (x 0 + x 3), sq_nonneg (x 1), sq_nonneg (x 2)]
      have h3 : x 3 = 0 := by nlinarith [sq_nonneg (x 0), sq_nonneg (x 0 + x 3), sq_nonneg (x 1), sq_nonneg (x 2)]
      funext i; fin_cases i <;> simp [h0, h1, h2, h3]
  have := h (fun _ => P) 1 0 0 ![-1, 0, 0, 0] Y 1 ⟨by simp [hYP], by simp [hPY], by simp [hYP], by simp [hPY]⟩ hpd one_pos
    zero_le_one
  have hf : (-P) *ᵥ (![-1, 0, 0, 0] + Pi.single 3 ((0 : ℝ) / 1)) = ![1, 0, 0, -1] := by
    funext i; fin_cases i <;> simp [P, mulVec, dotProduct, Fin.sum_univ_four]
  rw [softSolve] at this
  rw [if_neg (by simp)] at this
  simp only [hf, zero_add] at this
  rw [if_pos (by simp)] at this
  have h2 : (![1, 0, 0, -1] : Vec4) 3 = -1 := rfl
  change 0 ≤ (![1, 0, 0, -1] : Vec4) 3 at this
  rw [h2] at this
  norm_num at this

/-- C77, the claim: when the static trial force is outside the friction ellipsoid (sliding), the returned force is on the
friction ellipsoid, `Σ (f_t/eps)² = (mu f_n)²`, as the documentation derives. -/
def C77_Claim : Prop :=
  ∀ (pinv : Matrix (Fin 4) (Fin 4) ℝ → Matrix (Fin 4) (Fin 4) ℝ) (mu sdist : ℝ) (vel : Vec4)
    (Y : Matrix (Fin 4) (Fin 4) ℝ) (dt : ℝ), IsPinv Y (pinv Y) → SymPD Y → 0 < dt → 0 ≤ mu →
    ¬ Apart sdist 0 vel Y dt →
    (∀ f : Vec4, Y *ᵥ f = -(vel + Pi.single 3 (sdist / dt)) → (f 3 * mu) ^ 2 < f 0 ^ 2 + f 1 ^ 2 + f 2 ^ 2) →
    let r := (softSolve pinv 1 mu sdist 0 vel Y dt).1
    r 0 ^ 2 + r 1 ^ 2 + r 2 ^ 2 = (mu * r 3) ^ 2

/-- an eigenvalue of the `B` of the witness below -/
lemma witness_eig (l : ℝ) (h : IsEigval (blk (Matrix.diagonal ![1, 3, 1]) (-((25 : ℝ) • (1 : Mat3))) (-1)
    (Matrix.diagonal ![1, 3, 1])) l) : -4 ≤ l := by
  obtain ⟨x, hx, e⟩ := h
  by_contra hl
  push Not at hl
  apply hx
  rw [← tw_ang_lin x, blk_mulVec] at e
  have h1 := congrArg ang e
  have h2 := congrArg lin e
  rw [ang_tw] at h1
  rw [lin_tw] at h2
  have key : ∀ i : Fin 3, ang x i = 0 ∧ lin x i = 0 := by
    intro i
    have a1 := congrFun h1 i
    have a2 := congrFun h2 i
    have b1 : ang (l • tw (ang x) (lin x)) i = l * ang x i := by
      rw [tw_ang_lin]; rfl
    have b2 : lin (l • tw (ang x) (lin x)) i = l * lin x i := by
      rw [tw_ang_lin]; rfl
    rw [b1] at a1
    rw [b2] at a2
    simp only [Pi.add_apply, Matrix.mulVec_diagonal, Matrix.neg_mulVec, Matrix.smul_mulVec, Matrix.one_mulVec,
      Pi.neg_apply, Pi.smul_apply, smul_eq_mul] at a1 a2
    set u := ang x i
    set w := lin x i
    obtain ⟨y, hy, hy1⟩ : ∃ y : ℝ, (![1, 3, 1] : Vec3) i = y ∧ 1 ≤ y := by
      fin_cases i
      · exact ⟨1, rfl, le_rfl⟩
      · exact ⟨3, rfl, by norm_num⟩
      · exact ⟨1, rfl, le_rfl⟩
    rw [hy] at a1 a2
    have hu : u = (y - l) * w := by linarith
    have hw : ((y - l) ^ 2 - 25) * w = 0 := by rw [hu] at a1; nlinarith
    have : (y - l) ^ 2 - 25 ≠ 0 := by nlinarith
    have hw0 : w = 0 := (mul_eq_zero.mp hw).resolve_left this
    exact ⟨by rw [hu, hw0, mul_zero], hw0⟩
  rw [← tw_ang_lin x]
  have h3 : ang x = 0 := funext fun i => (key i).1
  have h4 : lin x = 0 := funext fun i => (key i).2
  rw [h3, h4]
  ext i; fin_cases i <;> simp [tw]

/-- C77 is false of the code (`dot(beta, beta.T)` of one-dimensional arrays is a number, not a matrix): admittance
diag(1,3,1,1), friction 1, approach velocity 1, slip velocity 5: the friction force is 5/7 of the Coulomb bound. -/
theorem C77_false : ¬ C77_Claim := by
  intro h
  let Y : Matrix (Fin 4) (Fin 4) ℝ := Matrix.diagonal ![1, 3, 1, 1]
  let P : Matrix (Fin 4) (Fin 4) ℝ := Matrix.diagonal ![1, 1/3, 1, 1]
  have hYP : Y * P = 1 := by
    simp only [Y, P, Matrix.diagonal_mul_diagonal, ← Matrix.diagonal_one]
    congr 1; funext i; fin_cases i <;> simp
  have hPY : P * Y = 1 := mul_eq_one_comm.mp hYP
  have hpd : SymPD Y := by
    refine ⟨Matrix.diagonal_transpose _, fun x hx => ?_⟩
    have e : x ⬝ᵥ Y *ᵥ x = x 0 ^ 2 + 3 * x 1 ^ 2 + x 2 ^ 2 + x 3 ^ 2 := by
      simp only [Y, Matrix.mulVec_diagonal, dotProduct, Fin.sum_univ_four]; simp; ring
    rw [e]
    by_contra hn
    push Not at hn
    apply hx
    have h0 : x 0 = 0 := by nlinarith [sq_nonneg (x 0), sq_nonneg (x 3), sq_nonneg (x 1), sq_nonneg (x 2)]
    have h1 : x 1 = 0 := by nlinarith [sq_nonneg (x 0), sq_nonneg (x 3), sq_nonneg (x 1), sq_nonneg (x 2)]
    have h2 : x 2 = 0 := by nlinarith [sq_nonneg (x 0), sq_nonneg (x 3), sq_nonneg (x 1), sq_nonneg (x 2)]
    have h3 : x 3 = 0 := by nlinarith [sq_nonneg (x 0), sq_nonneg (x 3), sq_nonneg (x 1), sq_nonneg (x 2)]
    funext i; fin_cases i <;> simp [h0, h1, h2, h3]
  have hv : (![0, -5, 0, -1] : Vec4) + Pi.single 3 ((0 : ℝ) / 1) = ![0, -5, 0, -1] := by simp
  have hB : softB 1 1 Y ![0, -5, 0, -1] = blk (Matrix.diagonal ![1, 3, 1]) (-((25 : ℝ) • (1 : Mat3))) (-1)
      (Matrix.diagonal ![1, 3, 1]) := by
    simp only [softB, Y]
    rw [blk_inj]
    refine ⟨?_, ?_, ?_, ?_⟩ <;> ext i j <;> fin_cases i <;> fin_cases j <;>
      simp [Matrix.mul_apply, Fin.sum_univ_three, tang, dotProduct, Matrix.diagonal] <;> norm_num
  have hs : softS (softB 1 1 Y ![0, -5, 0, -1]) = -4 := by
    have hmem : IsEigval (softB 1 1 Y ![0, -5, 0, -1]) (-4) := by
      rw [hB]
      refine ⟨tw ![5, 0, 0] ![1, 0, 0], ?_, ?_⟩
      · intro e; have := congrFun (congrArg ang e) 0
        rw [ang_tw] at this
        simp [ang] at this
      · rw [blk_mulVec]
        have : ∀ (a : ℝ) (u v : Vec3), a • tw u v = tw (a • u) (a • v) := by
          intro a u v; ext i; fin_cases i <;> simp [tw]
        rw [this]
        congr 1
        · ext i; fin_cases i <;> simp [Matrix.mulVec_diagonal, Matrix.neg_mulVec, Matrix.smul_mulVec]; norm_num
        · ext i; fin_cases i <;> simp [Matrix.mulVec_diagonal, Matrix.neg_mulVec]; norm_num
    have hset : sInf {l | IsEigval (softB 1 1 Y ![0, -5, 0, -1]) l ∧ l ≤ 0} = -4 := by
      apply le_antisymm
      · refine csInf_le ⟨-4, ?_⟩ ⟨hmem, by norm_num⟩
        rintro l ⟨hl, _⟩
        rw [hB] at hl; exact witness_eig l hl
      · refine le_csInf ⟨-4, hmem, by norm_num⟩ ?_
        rintro l ⟨hl, _⟩
        rw [hB] at hl; exact witness_eig l hl
    rw [softS, if_pos ⟨-4, hmem, by norm_num⟩, hset]
    norm_num
  have := h (fun _ => P) 1 0 ![0, -5, 0, -1] Y 1 ⟨by simp [hYP], by simp [hPY], by simp [hYP], by simp [hPY]⟩ hpd one_pos
    zero_le_one (by simp [Apart]) (by
      intro f hf
      rw [hv] at hf
      have h1 := congrFun hf 1
      have h3 := congrFun hf 3
      simp only [Y, Matrix.mulVec_diagonal] at h1 h3
      simp at h1 h3
      have e1 : f 1 = 5 / 3 := by linarith
      rw [h3, e1]
      nlinarith [sq_nonneg (f 0), sq_nonneg (f 2)])
  have hf : (-P) *ᵥ ((![0, -5, 0, -1] : Vec4) + Pi.single 3 ((0 : ℝ) / 1)) = ![0, 5/3, 0, 1] := by
    rw [hv]
    funext i; fin_cases i <;> simp [P, Matrix.neg_mulVec, Matrix.mulVec_diagonal] ; norm_num
  have hr : (softSolve (fun _ => P) 1 1 0 0 ![0, -5, 0, -1] Y 1).1 = ![0, 5/7, 0, 1] := by
    rw [softSolve, if_neg (by simp)]
    rw [hv] at hf
    simp only [zero_add, Matrix.mulVec_zero, sub_zero, hv, hf]
    rw [if_neg (by simp; norm_num)]
    simp only [hs]
    have hA : Y - Matrix.diagonal ![-4 * ((1 : Vec3) 0)⁻¹ ^ 2, -4 * ((1 : Vec3) 1)⁻¹ ^ 2, -4 * ((1 : Vec3) 2)⁻¹ ^ 2, 0] =
        Matrix.diagonal ![5, 7, 5, 1] := by
      simp only [Y]
      rw [Matrix.diagonal_sub]
      congr 1; funext i; fin_cases i <;> simp <;> norm_num
    have hAi : (Matrix.diagonal ![(5 : ℝ), 7, 5, 1])⁻¹ = Matrix.diagonal ![1/5, 1/7, 1/5, 1] := by
      apply Matrix.inv_eq_right_inv
      rw [Matrix.diagonal_mul_diagonal, ← Matrix.diagonal_one]
      congr 1; funext i; fin_cases i <;> simp
    rw [hA, hAi]
    funext i; fin_cases i <;> simp [Matrix.mulVec_diagonal] ; norm_num
  simp only [hr] at this
  have e0 : (![0, 5/7, 0, 1] : Vec4) 0 = 0 := rfl
  have e1 : (![0, 5/7, 0, 1] : Vec4) 1 = 5/7 := rfl
  have e2 : (![0, 5/7, 0, 1] : Vec4) 2 = 0 := rfl
  have e3 : (![0, 5/7, 0, 1] : Vec4) 3 = 1 := rfl
  rw [e0, e1, e2, e3] at this
  norm_num at this

/-- eigenvalues of the `B` of an isotropic contact -/
lemma iso_eig (y k : ℝ) (hk : 0 ≤ k) (l : ℝ) :
    IsEigval (blk (y • (1 : Mat3)) (-(k • (1 : Mat3))) (-1) (y • (1 : Mat3))) l ↔ (y - l) ^ 2 = k := by
  have hsm : ∀ (a : ℝ) (u v : Vec3), a • tw u v = tw (a • u) (a • v) := by
    intro a u v; ext i; fin_cases i <;> simp [tw]
  constructor
  · rintro ⟨x, hx, e⟩
    by_contra hl
    apply hx
    rw [← tw_ang_lin x, blk_mulVec, hsm] at e
    have h1 := congrArg ang e
    have h2 := congrArg lin e
    rw [ang_tw, ang_tw] at h1
    rw [lin_tw, lin_tw] at h2
    have key : ∀ i : Fin 3, ang x i = 0 ∧ lin x i = 0 := by
      intro i
      have a1 := congrFun h1 i
      have a2 := congrFun h2 i
      simp only [Pi.add_apply, Matrix.neg_mulVec, Matrix.smul_mulVec, Matrix.one_mulVec,
        Pi.neg_apply, Pi.smul_apply, smul_eq_mul] at a1 a2
      have hu : ang x i = (y - l) * lin x i := by linarith
      have hw : ((y - l) ^ 2 - k) * lin x i = 0 := by rw [hu] at a1; linear_combination a1
      have hw0 : lin x i = 0 := (mul_eq_zero.mp hw).resolve_left (sub_ne_zero.mpr hl)
      exact ⟨by rw [hu, hw0, mul_zero], hw0⟩
    rw [← tw_ang_lin x]
    have h3 : ang x = 0 := funext fun i => (key i).1
    have h4 : lin x = 0 := funext fun i => (key i).2
    rw [h3, h4]
    ext i; fin_cases i <;> simp [tw]
  · intro h
    refine ⟨tw ![y - l, 0, 0] ![1, 0, 0], ?_, ?_⟩
    · intro e
      have := congrFun (congrArg lin e) 0
      rw [lin_tw] at this
      simp [lin] at this
    · rw [blk_mulVec, hsm]
      congr 1
      · ext i; fin_cases i <;> simp [Matrix.neg_mulVec, Matrix.smul_mulVec]; linear_combination h
      · ext i; fin_cases i <;> simp [Matrix.neg_mulVec, Matrix.smul_mulVec]

/-- C77, what holds: for an isotropic contact without coupling (tangential admittance `y·I`, normal `yn`), positive
friction and a slip velocity small enough for the eigenvalue not to be cut at -1e10, the sliding force is on the friction cone
`|f_t| = mu |f_n|`. -/
theorem C77_partial {pinv : Matrix (Fin 4) (Fin 4) ℝ → Matrix (Fin 4) (Fin 4) ℝ} {mu sdist y yn : ℝ} {vel : Vec4} {dt : ℝ}
    (hp : IsPinv (Matrix.diagonal ![y, y, y, yn]) (pinv (Matrix.diagonal ![y, y, y, yn]))) (hy : 0 < y) (hyn : 0 < yn)
    (hdt : 0 < dt) (hmu : 0 < mu) (happ : sdist + dt * vel 3 < 0)
    (hslide : (mu * (vel 3 + sdist / dt) / yn) ^ 2 < (vel 0 / y) ^ 2 + (vel 1 / y) ^ 2 + (vel 2 / y) ^ 2)
    (hcut : √(vel 0 ^ 2 + vel 1 ^ 2 + vel 2 ^ 2) ≤ 1e10 * (mu / yn * -(vel 3 + sdist / dt))) :
    let r := (softSolve pinv 1 mu sdist 0 vel (Matrix.diagonal ![y, y, y, yn]) dt).1
    r 0 ^ 2 + r 1 ^ 2 + r 2 ^ 2 = (mu * r 3) ^ 2 := by
  intro r
  set Y : Matrix (Fin 4) (Fin 4) ℝ := Matrix.diagonal ![y, y, y, yn] with hYdef
  have hr0 : r = (softSolve pinv 1 mu sdist 0 vel Y dt).1 := rfl
  clear_value r
  have hYP : pinv Y = Matrix.diagonal ![y⁻¹, y⁻¹, y⁻¹, yn⁻¹] := by
    have hdet : Y.det ≠ 0 := by
      rw [hYdef, Matrix.det_diagonal]; simp [Fin.prod_univ_four, hy.ne', hyn.ne']
    have h1 := (IsPinv.eq_inv hp hdet).2
    have h2 : Y * Matrix.diagonal ![y⁻¹, y⁻¹, y⁻¹, yn⁻¹] = 1 := by
      rw [hYdef, Matrix.diagonal_mul_diagonal, ← Matrix.diagonal_one]
      congr 1; funext i; fin_cases i <;> simp [hy.ne', hyn.ne']
    calc pinv Y = pinv Y * (Y * Matrix.diagonal ![y⁻¹, y⁻¹, y⁻¹, yn⁻¹]) := by rw [h2, Matrix.mul_one]
      _ = _ := by rw [← Matrix.mul_assoc, h1, Matrix.one_mul]
  set c := vel 3 + sdist / dt with hc
  have hc0 : c < 0 := by
    have : dt * c < 0 := by rw [hc, mul_add, mul_div_cancel₀ _ hdt.ne']; linarith
    by_contra hn; push Not at hn
    have := mul_nonneg hdt.le hn; linarith
  set al : Vec4 := vel + Pi.single 3 (sdist / dt) with hal
  have al0 : al 0 = vel 0 := by simp [hal]
  have al1 : al 1 = vel 1 := by simp [hal]
  have al2 : al 2 = vel 2 := by simp [hal]
  have al3 : al 3 = c := by simp [hal, hc]
  set b2 := vel 0 ^ 2 + vel 1 ^ 2 + vel 2 ^ 2 with hb2
  set a := mu / yn * c with ha
  have ha0 : a < 0 := mul_neg_of_pos_of_neg (div_pos hmu hyn) hc0
  have hb2n : 0 ≤ b2 := by positivity
  have hB : softB 1 mu Y al = blk (y • (1 : Mat3)) (-((b2 / a ^ 2) • (1 : Mat3))) (-1) (y • (1 : Mat3)) := by
    simp only [softB, hYdef, al3]
    have t : tang al = ![vel 0, vel 1, vel 2] := by simp [tang, al0, al1, al2]
    rw [t, blk_inj]
    refine ⟨?_, ?_, ?_, ?_⟩
    · ext i j; fin_cases i <;> fin_cases j <;> simp [Matrix.mul_apply, Fin.sum_univ_three, Matrix.diagonal]
    · congr 1
      have e1 : (![vel 0, vel 1, vel 2] - (c / (Matrix.diagonal ![y, y, y, yn] 3 3)) •
          ![Matrix.diagonal ![y, y, y, yn] 0 3, Matrix.diagonal ![y, y, y, yn] 1 3, Matrix.diagonal ![y, y, y, yn] 2 3] :
          Vec3) = ![vel 0, vel 1, vel 2] := by
        ext i; fin_cases i <;> simp [Matrix.diagonal]
      rw [e1]
      have e2 : (![vel 0, vel 1, vel 2] : Vec3) ⬝ᵥ ![vel 0, vel 1, vel 2] = b2 := by
        simp [dotProduct, Fin.sum_univ_three, hb2]; ring
      have e3 : Matrix.diagonal ![y, y, y, yn] 3 3 = yn := by simp [Matrix.diagonal]
      rw [e2, e3]
      ext i j; fin_cases i <;> fin_cases j <;> simp [Matrix.diagonal, ha]
    · ext i j; fin_cases i <;> fin_cases j <;> simp [Matrix.diagonal, dotProduct, Fin.sum_univ_three]
    · ext i j; fin_cases i <;> fin_cases j <;> simp [Matrix.mul_apply, Fin.sum_univ_three, Matrix.diagonal]
  have hk : 0 ≤ b2 / a ^ 2 := by positivity
  have hsq : √(b2 / a ^ 2) = √b2 / (-a) := by
    rw [Real.sqrt_div hb2n, Real.sqrt_sq_eq_abs, abs_of_neg ha0]
  have hyk : y ^ 2 < b2 / a ^ 2 := by
    have h1 : a ^ 2 = (mu * c / yn) ^ 2 := by rw [ha]; ring
    have h2 : (vel 0 / y) ^ 2 + (vel 1 / y) ^ 2 + (vel 2 / y) ^ 2 = b2 / y ^ 2 := by rw [hb2]; ring
    rw [h2, ← h1] at hslide
    rw [lt_div_iff₀ (by have := mul_pos_of_neg_of_neg ha0 ha0; nlinarith)]
    rw [lt_div_iff₀ (by positivity)] at hslide
    linarith
  have hyk' : y < √(b2 / a ^ 2) := by
    rw [Real.lt_sqrt hy.le]; exact hyk
  have hs : softS (softB 1 mu Y al) = y - √(b2 / a ^ 2) := by
    rw [hB]
    have hmem : IsEigval (blk (y • (1 : Mat3)) (-((b2 / a ^ 2) • (1 : Mat3))) (-1) (y • (1 : Mat3))) (y - √(b2 / a ^ 2)) := by
      rw [iso_eig _ _ hk]; rw [sub_sub_cancel, Real.sq_sqrt hk]
    have hlow : ∀ l, IsEigval (blk (y • (1 : Mat3)) (-((b2 / a ^ 2) • (1 : Mat3))) (-1) (y • (1 : Mat3))) l →
        y - √(b2 / a ^ 2) ≤ l := by
      intro l hl
      rw [iso_eig _ _ hk] at hl
      have : y - l ≤ √(b2 / a ^ 2) := Real.le_sqrt_of_sq_le hl.le
      linarith
    rw [softS, if_pos ⟨_, hmem, by linarith⟩]
    have hinf : sInf {l | IsEigval (blk (y • (1 : Mat3)) (-((b2 / a ^ 2) • (1 : Mat3))) (-1) (y • (1 : Mat3))) l ∧ l ≤ 0} =
        y - √(b2 / a ^ 2) := by
      apply le_antisymm
      · exact csInf_le ⟨_, fun l hl => hlow l hl.1⟩ ⟨hmem, by linarith⟩
      · exact le_csInf ⟨_, hmem, by linarith⟩ fun l hl => hlow l hl.1
    rw [hinf]
    apply max_eq_left
    rw [hsq]
    have : √b2 / -a ≤ 1e10 := by
      rw [div_le_iff₀ (by linarith)]
      calc √b2 ≤ 1e10 * (mu / yn * -c) := hcut
        _ = 1e10 * -a := by rw [ha]; ring
    linarith
  have hr : r = ![-(vel 0) * (-a / √b2), -(vel 1) * (-a / √b2), -(vel 2) * (-a / √b2), -c / yn] := by
    have hb2pos : 0 < b2 := by
      by_contra hn
      have : b2 = 0 := le_antisymm (not_lt.mp hn) hb2n
      rw [this, zero_div] at hyk; nlinarith [sq_nonneg y]
    have hsb : 0 < √b2 := Real.sqrt_pos.mpr hb2pos
    rw [hr0, softSolve, if_neg (by rw [Matrix.mulVec_zero, sub_zero]; linarith)]
    simp only [zero_add, Matrix.mulVec_zero, sub_zero, ← hal, hYP]
    have hf : (-Matrix.diagonal ![y⁻¹, y⁻¹, y⁻¹, yn⁻¹]) *ᵥ al =
        ![-(vel 0 / y), -(vel 1 / y), -(vel 2 / y), -(c / yn)] := by
      rw [Matrix.neg_mulVec]
      funext i; fin_cases i <;> simp [Matrix.mulVec_diagonal, al0, al1, al2, al3] <;> ring
    rw [hf, if_neg (by
      simp only [Pi.one_apply, div_one]
      change ¬ ((-(vel 0 / y)) ^ 2 + (-(vel 1 / y)) ^ 2 + (-(vel 2 / y)) ^ 2 ≤ (-(c / yn) * mu) ^ 2)
      have : (mu * c / yn) ^ 2 = (-(c / yn) * mu) ^ 2 := by ring
      rw [← this, neg_sq, neg_sq, neg_sq]; linarith)]
    simp only [hs]
    have hA : Y - Matrix.diagonal ![(y - √(b2 / a ^ 2)) * ((1 : Vec3) 0)⁻¹ ^ 2, (y - √(b2 / a ^ 2)) * ((1 : Vec3) 1)⁻¹ ^ 2,
        (y - √(b2 / a ^ 2)) * ((1 : Vec3) 2)⁻¹ ^ 2, 0] =
        Matrix.diagonal ![√b2 / (-a), √b2 / (-a), √b2 / (-a), yn] := by
      rw [hYdef, Matrix.diagonal_sub, hsq]
      congr 1; funext i; fin_cases i <;> simp
    have hAi : (Matrix.diagonal ![√b2 / (-a), √b2 / (-a), √b2 / (-a), yn])⁻¹ =
        Matrix.diagonal ![-a / √b2, -a / √b2, -a / √b2, yn⁻¹] := by
      apply Matrix.inv_eq_right_inv
      rw [Matrix.diagonal_mul_diagonal, ← Matrix.diagonal_one]
      congr 1; funext i
      have := ha0.ne
      fin_cases i <;> simp [hyn.ne'] <;> field_simp
    rw [hA, hAi]
    funext i; fin_cases i <;> simp [Matrix.mulVec_diagonal, al0, al1, al2, al3] <;> ring
  have hb2pos : 0 < b2 := by
    by_contra hn
    have : b2 = 0 := le_antisymm (not_lt.mp hn) hb2n
    rw [this, zero_div] at hyk; nlinarith [sq_nonneg y]
  rw [hr]
  change (-(vel 0) * (-a / √b2)) ^ 2 + (-(vel 1) * (-a / √b2)) ^ 2 + (-(vel 2) * (-a / √b2)) ^ 2 = (mu * (-c / yn)) ^ 2
  have e : (-(vel 0) * (-a / √b2)) ^ 2 + (-(vel 1) * (-a / √b2)) ^ 2 + (-(vel 2) * (-a / √b2)) ^ 2 =
      b2 * (a ^ 2 / (√b2) ^ 2) := by rw [hb2]; ring
  rw [e, Real.sq_sqrt hb2n, mul_div_cancel₀ _ hb2pos.ne', ha]
  ring
/-- the hypotheses of C77's partial theorem are met by a contact sliding at speed 5 with approach velocity 1 -/
example : (0 : ℝ) + 1 * (![3, 4, 0, -1] : Vec4) 3 < 0 ∧
    √((![3, 4, 0, -1] : Vec4) 0 ^ 2 + (![3, 4, 0, -1] : Vec4) 1 ^ 2 + (![3, 4, 0, -1] : Vec4) 2 ^ 2) ≤
      1e10 * (1 / 1 * -((![3, 4, 0, -1] : Vec4) 3 + 0 / 1)) := by
  have e0 : (![3, 4, 0, -1] : Vec4) 0 = 3 := rfl
  have e1 : (![3, 4, 0, -1] : Vec4) 1 = 4 := rfl
  have e2 : (![3, 4, 0, -1] : Vec4) 2 = 0 := rfl
  have e3 : (![3, 4, 0, -1] : Vec4) 3 = -1 := rfl
  rw [e0, e1, e2, e3, show (3 : ℝ) ^ 2 + 4 ^ 2 + 0 ^ 2 = 5 ^ 2 by norm_num, Real.sqrt_sq (by norm_num)]
  norm_num

end Arboris
