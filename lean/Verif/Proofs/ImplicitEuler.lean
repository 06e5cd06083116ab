import Verif.Proofs.GaussSeidel

/-!
# The implicit Euler scheme damps springs
-/

namespace Arboris
open Matrix Spec BlockGS

lemma pd_bounds {ι : Type} [Fintype ι] [DecidableEq ι] {A : Matrix ι ι ℝ} (hA : SymPD A) : ∃ c K : ℝ, 0 < c ∧ 0 ≤ K ∧
    (∀ D : ι → ℝ, c * ‖D‖ ^ 2 ≤ D ⬝ᵥ A *ᵥ D) ∧ ∀ D : ι → ℝ, ‖D‖ ≤ K * ‖A *ᵥ D‖ := by
  have hu := isUnit_iff_ne_zero.mpr (pd_det hA)
  have hinv : SymPD A⁻¹ := by
    refine ⟨by rw [Matrix.transpose_nonsing_inv, hA.1], fun x hx => energy_pos hA hx⟩
  obtain ⟨ρ, c, -, -, hc, h2⟩ := contraction hinv (0 : (ι → ℝ) →ₗ[ℝ] (ι → ℝ)) (fun r hr => by
    have := energy_pos hinv hr
    simpa [energy] using this)
  let L := LinearMap.toContinuousLinearMap (Matrix.mulVecLin A⁻¹)
  refine ⟨c, ‖L‖, hc, norm_nonneg _, fun D => ?_, fun D => ?_⟩
  · have := (h2 D).2
    unfold energy at this
    rwa [Matrix.nonsing_inv_nonsing_inv _ hu] at this
  · have := L.le_opNorm (A *ᵥ D)
    have e : L (A *ᵥ D) = D := by
      change A⁻¹ *ᵥ (A *ᵥ D) = D
      rw [Matrix.mulVec_mulVec, Matrix.nonsing_inv_mul _ hu, Matrix.one_mulVec]
    rwa [e] at this

lemma lin_bound {ι κ : Type} [Fintype ι] [Fintype κ] (B : Matrix κ ι ℝ) : ∃ K, 0 ≤ K ∧ ∀ D : ι → ℝ, ‖B *ᵥ D‖ ≤ K * ‖D‖ := by
  let L := LinearMap.toContinuousLinearMap (Matrix.mulVecLin B)
  exact ⟨‖L‖, norm_nonneg _, fun D => L.le_opNorm D⟩

lemma dot_bound {ι : Type} [Fintype ι] (x y : ι → ℝ) : |x ⬝ᵥ y| ≤ Fintype.card ι * (‖x‖ * ‖y‖) := by
  unfold dotProduct
  refine (Finset.abs_sum_le_sum_abs _ _).trans ?_
  calc ∑ i, |x i * y i| ≤ ∑ _i : ι, ‖x‖ * ‖y‖ := Finset.sum_le_sum fun i _ => by
        rw [abs_mul]
        exact mul_le_mul (norm_le_pi_norm x i) (norm_le_pi_norm y i) (abs_nonneg _) (norm_nonneg _)
    _ = _ := by simp

/-- Cauchy–Schwarz for a positive form -/
lemma psd_cauchy {ι : Type} [Fintype ι] {M : Matrix ι ι ℝ} (hM : SymPSD M) (u d : ι → ℝ) : (u ⬝ᵥ M *ᵥ d) ^ 2 ≤ (u ⬝ᵥ M *ᵥ u) * (d ⬝ᵥ M *ᵥ d) := by
  have hsym : d ⬝ᵥ M *ᵥ u = u ⬝ᵥ M *ᵥ d := by
    rw [Matrix.dotProduct_mulVec, ← Matrix.mulVec_transpose, hM.1, dotProduct_comm]
  have h : ∀ t : ℝ, 0 ≤ (u ⬝ᵥ M *ᵥ u) * (t * t) + (2 * (u ⬝ᵥ M *ᵥ d)) * t + d ⬝ᵥ M *ᵥ d := by
    intro t
    have := hM.2 (d + t • u)
    simp only [Matrix.mulVec_add, Matrix.mulVec_smul, add_dotProduct, dotProduct_add, smul_dotProduct, dotProduct_smul, smul_eq_mul, hsym] at this
    linarith
  have := discrim_le_zero h
  unfold discrim at this
  linarith

lemma psd_norm {ι : Type} [Fintype ι] [DecidableEq ι] {M : Matrix ι ι ℝ} (hM : SymPSD M) : ∃ K, 0 ≤ K ∧ ∀ d, ‖M *ᵥ d‖ ^ 2 ≤ K * (d ⬝ᵥ M *ᵥ d) := by
  refine ⟨∑ i, M i i, ?_, fun d => ?_⟩
  all_goals
    have hd : ∀ i, 0 ≤ M i i := by
      intro i
      have := hM.2 (Pi.single i 1)
      simpa using this
  · exact Finset.sum_nonneg fun i _ => hd i
  · have hq := hM.2 d
    have hK : 0 ≤ ∑ i, M i i := Finset.sum_nonneg fun i _ => hd i
    have : ‖M *ᵥ d‖ ≤ Real.sqrt ((∑ i, M i i) * (d ⬝ᵥ M *ᵥ d)) := by
      refine (pi_norm_le_iff_of_nonneg (Real.sqrt_nonneg _)).mpr fun i => ?_
      refine Real.abs_le_sqrt ?_
      have h := psd_cauchy hM (Pi.single i 1) d
      simp only [single_one_dotProduct] at h
      refine h.trans ?_
      refine mul_le_mul_of_nonneg_right ?_ hq
      have : (M *ᵥ Pi.single i 1) i = M i i := by simp
      rw [this]
      exact Finset.single_le_sum (fun j _ => hd j) (Finset.mem_univ i)
    calc ‖M *ᵥ d‖ ^ 2 ≤ Real.sqrt ((∑ i, M i i) * (d ⬝ᵥ M *ᵥ d)) ^ 2 := by gcongr
      _ = _ := Real.sq_sqrt (mul_nonneg hK hq)

/-- after an implicit step with springs on every dof, what remains of the energy is at most a multiple of what was lost -/
lemma euler_loss {n k : ℕ} {M : Matrix (Fin n) (Fin n) ℝ} (B : Matrix (Fin n) (Fin n) ℝ) (hM : SymPSD M) {Kp : Matrix (Fin k) (Fin k) ℝ} (Kd : Matrix (Fin k) (Fin k) ℝ)
    (hK : SymPD Kp) (π : Fin k → Fin n) (hπ : Function.Surjective π) {h : ℝ} (hh : 0 < h) :
    ∃ C : ℝ, 0 ≤ C ∧ ∀ (dt : ℝ) (v v' : Fin n → ℝ) (e : Fin k → ℝ), h ≤ dt →
      (∀ i, (M *ᵥ (v' - v)) (π i) + dt * (B *ᵥ v') (π i) = -dt * ((Kp *ᵥ e) i + (Kd *ᵥ (v' ∘ π)) i)) →
      (1 / 2) * (v' ⬝ᵥ M *ᵥ v') + (1 / 2) * (e ⬝ᵥ Kp *ᵥ e) ≤
        C * ((1 / 2) * ((v' - v) ⬝ᵥ M *ᵥ (v' - v)) + (1 / 2) * dt ^ 2 * ((v' ∘ π) ⬝ᵥ Kp *ᵥ (v' ∘ π))) := by
  obtain ⟨c, K, hc, hK0, p1, p2⟩ := pd_bounds hK
  obtain ⟨b, hb, p3⟩ := lin_bound B
  obtain ⟨d, hd, p4⟩ := lin_bound Kd
  obtain ⟨a, ha, p5⟩ := lin_bound M
  obtain ⟨μ, hμ, p6⟩ := psd_norm hM
  -- v'·Mv' ≤ n a ‖v'‖², ‖v'‖² ≤ Q/(c h²), ‖Kp e‖ ≤ ‖M Δ‖/h + (b + d)‖v'‖, e·Kp e ≤ k K ‖Kp e‖²
  refine ⟨n * a / (c * h ^ 2) + k * K * (2 * μ / h ^ 2 + 2 * (b + d) ^ 2 / (c * h ^ 2)), by positivity, fun dt v v' e hdt he => ?_⟩
  have hdt0 : 0 < dt := hh.trans_le hdt
  set x := v' ∘ π with hx
  have hvx : ‖v'‖ ≤ ‖x‖ := (pi_norm_le_iff_of_nonneg (norm_nonneg _)).mpr fun i => by
    obtain ⟨j, rfl⟩ := hπ i
    exact norm_le_pi_norm x j
  have hxv : ‖x‖ ≤ ‖v'‖ := (pi_norm_le_iff_of_nonneg (norm_nonneg _)).mpr fun i => norm_le_pi_norm v' (π i)
  set Q := dt ^ 2 * (x ⬝ᵥ Kp *ᵥ x) with hQ
  set R := (v' - v) ⬝ᵥ M *ᵥ (v' - v) with hR
  have hR0 : 0 ≤ R := hM.2 _
  have hv2 : ‖v'‖ ^ 2 ≤ Q / (c * h ^ 2) := by
    rw [le_div_iff₀ (by positivity)]
    have h1 : c * ‖v'‖ ^ 2 ≤ x ⬝ᵥ Kp *ᵥ x := le_trans (by gcongr) (p1 x)
    have h2 : h ^ 2 ≤ dt ^ 2 := by gcongr
    have h3 : 0 ≤ x ⬝ᵥ Kp *ᵥ x := le_trans (by positivity) h1
    nlinarith [mul_le_mul h2 h1 (by positivity) (by positivity)]
  have hQ0 : 0 ≤ Q := by
    have := (sq_nonneg ‖v'‖).trans hv2
    rw [le_div_iff₀ (by positivity)] at this
    linarith
  have t1 : v' ⬝ᵥ M *ᵥ v' ≤ n * a * (Q / (c * h ^ 2)) := by
    refine (le_abs_self _).trans ((dot_bound _ _).trans ?_)
    rw [Fintype.card_fin, mul_assoc]
    refine mul_le_mul_of_nonneg_left ?_ (Nat.cast_nonneg n)
    calc ‖v'‖ * ‖M *ᵥ v'‖ ≤ ‖v'‖ * (a * ‖v'‖) := by gcongr; exact p5 v'
      _ = a * ‖v'‖ ^ 2 := by ring
      _ ≤ _ := by gcongr
  have t2 : ‖Kp *ᵥ e‖ ≤ ‖M *ᵥ (v' - v)‖ / h + (b + d) * ‖v'‖ := by
    refine (pi_norm_le_iff_of_nonneg (by positivity)).mpr fun i => ?_
    have h1 := he i
    have h2 : (Kp *ᵥ e) i = -((M *ᵥ (v' - v)) (π i) / dt) - (B *ᵥ v') (π i) - (Kd *ᵥ x) i := by
      field_simp
      linarith
    rw [h2]
    have h3 : |(M *ᵥ (v' - v)) (π i) / dt| ≤ ‖M *ᵥ (v' - v)‖ / h := by
      rw [abs_div, abs_of_pos hdt0]
      exact div_le_div₀ (norm_nonneg _) (by rw [← Real.norm_eq_abs]; exact norm_le_pi_norm (M *ᵥ (v' - v)) (π i)) hh hdt
    have h4 : |(B *ᵥ v') (π i)| ≤ b * ‖v'‖ := (norm_le_pi_norm _ _).trans (p3 v')
    have h5 : |(Kd *ᵥ x) i| ≤ d * ‖v'‖ := (norm_le_pi_norm _ _).trans ((p4 x).trans (by gcongr))
    rw [Real.norm_eq_abs]
    rw [abs_le] at h3 h4 h5 ⊢
    constructor <;> nlinarith
  have t3 : ‖Kp *ᵥ e‖ ^ 2 ≤ 2 * (μ * R / h ^ 2) + 2 * (b + d) ^ 2 * (Q / (c * h ^ 2)) := by
    have h1 : ‖Kp *ᵥ e‖ ^ 2 ≤ (‖M *ᵥ (v' - v)‖ / h + (b + d) * ‖v'‖) ^ 2 := by gcongr
    have h2 : (‖M *ᵥ (v' - v)‖ / h) ^ 2 ≤ μ * R / h ^ 2 := by
      rw [div_pow]
      gcongr
      exact p6 _
    have h3 : (b + d) ^ 2 * ‖v'‖ ^ 2 ≤ (b + d) ^ 2 * (Q / (c * h ^ 2)) := by gcongr
    nlinarith [sq_nonneg (‖M *ᵥ (v' - v)‖ / h - (b + d) * ‖v'‖)]
  have t4 : e ⬝ᵥ Kp *ᵥ e ≤ k * K * ‖Kp *ᵥ e‖ ^ 2 := by
    refine (le_abs_self _).trans ((dot_bound _ _).trans ?_)
    rw [Fintype.card_fin, mul_assoc]
    refine mul_le_mul_of_nonneg_left ?_ (Nat.cast_nonneg k)
    calc ‖e‖ * ‖Kp *ᵥ e‖ ≤ (K * ‖Kp *ᵥ e‖) * ‖Kp *ᵥ e‖ := by gcongr; exact p2 e
      _ = _ := by ring
  have t5 : e ⬝ᵥ Kp *ᵥ e ≤ k * K * (2 * (μ * R / h ^ 2) + 2 * (b + d) ^ 2 * (Q / (c * h ^ 2))) := t4.trans (by gcongr)
  have e1 : n * a * (Q / (c * h ^ 2)) = n * a / (c * h ^ 2) * Q := by ring
  have e2 : k * K * (2 * (μ * R / h ^ 2) + 2 * (b + d) ^ 2 * (Q / (c * h ^ 2))) =
      k * K * (2 * μ / h ^ 2) * R + k * K * (2 * (b + d) ^ 2 / (c * h ^ 2)) * Q := by ring
  rw [e1] at t1
  rw [e2] at t5
  have n1 : 0 ≤ n * a / (c * h ^ 2) * R := by positivity
  have n2 : 0 ≤ k * K * (2 * μ / h ^ 2) * Q := by positivity
  have n3 : 0 ≤ k * K * (2 * (b + d) ^ 2 / (c * h ^ 2)) * R := by positivity
  have e3 : (1 / 2) * dt ^ 2 * (x ⬝ᵥ Kp *ᵥ x) = (1 / 2) * Q := by rw [hQ]; ring
  rw [e3]
  nlinarith

end Arboris
