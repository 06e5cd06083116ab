import Mathlib.Analysis.Calculus.MeanValue
import Mathlib.Analysis.SpecialFunctions.Exponential
import Mathlib.Topology.MetricSpace.Lipschitz

/-!
# Consistent one-step methods converge
-/

namespace Arboris.OneStep
open Topology Set

variable {Y : Type*} [NormedAddCommGroup Y] [NormedSpace ℝ Y]

/-- along a compact piece of a curve, local bounds are uniform -/
lemma uniform {φ : ℝ × Y → Y} {Ω : Set (ℝ × Y)} {y : ℝ → Y} {t0 T : ℝ} (hy : ∀ t ∈ Icc t0 T, ContinuousAt y t)
    (hφ : ∀ t ∈ Icc t0 T, ∃ K, ∃ s ∈ 𝓝 ((0 : ℝ), y t), LipschitzOnWith K φ s ∧ s ⊆ Ω) :
    ∃ r > 0, ∃ L ≥ 0, ∀ t ∈ Icc t0 T, ‖φ (0, y t)‖ ≤ L ∧
      ∀ p p' : ℝ × Y, dist p (0, y t) < r → dist p' (0, y t) < r → p ∈ Ω ∧ ‖φ p - φ p'‖ ≤ L * ‖p - p'‖ := by
  refine IsCompact.induction_on (p := fun S => ∃ r > 0, ∃ L ≥ 0, ∀ t ∈ S, ‖φ (0, y t)‖ ≤ L ∧
      ∀ p p' : ℝ × Y, dist p (0, y t) < r → dist p' (0, y t) < r → p ∈ Ω ∧ ‖φ p - φ p'‖ ≤ L * ‖p - p'‖) (isCompact_Icc : IsCompact (Icc t0 T)) ?_ ?_ ?_ ?_
  · exact ⟨1, one_pos, 0, le_rfl, by simp⟩
  · rintro S S' hS ⟨r, hr, L, hL, h⟩
    exact ⟨r, hr, L, hL, fun t ht => h t (hS ht)⟩
  · rintro S S' ⟨r, hr, L, hL, h⟩ ⟨r', hr', L', hL', h'⟩
    refine ⟨min r r', lt_min hr hr', max L L', le_max_of_le_left hL, ?_⟩
    rintro t (ht | ht)
    · refine ⟨(h t ht).1.trans (le_max_left _ _), fun p p' hp hp' => ?_⟩
      obtain ⟨a, b⟩ := (h t ht).2 p p' (lt_of_lt_of_le hp (min_le_left _ _)) (lt_of_lt_of_le hp' (min_le_left _ _))
      exact ⟨a, b.trans (mul_le_mul_of_nonneg_right (le_max_left _ _) (norm_nonneg _))⟩
    · refine ⟨(h' t ht).1.trans (le_max_right _ _), fun p p' hp hp' => ?_⟩
      obtain ⟨a, b⟩ := (h' t ht).2 p p' (lt_of_lt_of_le hp (min_le_right _ _)) (lt_of_lt_of_le hp' (min_le_right _ _))
      exact ⟨a, b.trans (mul_le_mul_of_nonneg_right (le_max_right _ _) (norm_nonneg _))⟩
  · intro x hx
    obtain ⟨K, s, hs, hK, hΩ⟩ := hφ x hx
    obtain ⟨r, hr, hb⟩ := Metric.mem_nhds_iff.mp hs
    obtain ⟨d, hd, hc⟩ := Metric.continuousAt_iff.mp (hy x hx) (r / 2) (by linarith)
    refine ⟨Metric.ball x d ∩ Icc t0 T, Filter.inter_mem (mem_nhdsWithin_of_mem_nhds (Metric.ball_mem_nhds x hd)) self_mem_nhdsWithin, r / 2, by linarith, max K (‖φ (0, y x)‖ + K * r), le_max_of_le_left K.2, ?_⟩
    rintro t ⟨ht, -⟩
    have h1 := hc ht
    have h2 : dist ((0 : ℝ), y t) (0, y x) < r / 2 := by
      rw [Prod.dist_eq]
      refine max_lt ?_ h1
      simp only [dist_self]
      linarith
    have hm : ∀ p : ℝ × Y, dist p (0, y t) < r / 2 → p ∈ s := fun p hp => hb (by
      have := dist_triangle p (0, y t) (0, y x)
      rw [Metric.mem_ball]; linarith)
    have h3 : ((0 : ℝ), y t) ∈ s := hm _ (by rw [dist_self]; linarith)
    have h4 : ((0 : ℝ), y x) ∈ s := hb (Metric.mem_ball_self hr)
    constructor
    · refine le_trans ?_ (le_max_right _ _)
      have e := hK.dist_le_mul _ h3 _ h4
      rw [dist_eq_norm] at e
      have e2 := norm_sub_norm_le (φ (0, y t)) (φ (0, y x))
      have e3 : (K : ℝ) * dist ((0 : ℝ), y t) (0, y x) ≤ K * r := mul_le_mul_of_nonneg_left (by linarith) K.2
      linarith
    · intro p p' hp hp'
      refine ⟨hΩ (hm p hp), ?_⟩
      have e := hK.dist_le_mul _ (hm p hp) _ (hm p' hp')
      rw [dist_eq_norm, dist_eq_norm] at e
      exact e.trans (mul_le_mul_of_nonneg_right (le_max_left _ _) (norm_nonneg _))

/-- `K`: error of a step, `L`: amplification -/
noncomputable def bound (K L h τ : ℝ) : ℝ := K * h * τ * Real.exp (L * τ)

lemma bound_step {K L h τ dt : ℝ} (hK : 0 ≤ K) (hL : 0 ≤ L) (h0 : 0 ≤ τ) (hd : 0 ≤ dt) (hh : dt ≤ h) :
    (1 + L * dt) * bound K L h τ + K * dt * dt ≤ bound K L h (τ + dt) := by
  unfold bound
  have hh0 : 0 ≤ h := hd.trans hh
  have e1 : Real.exp (L * (τ + dt)) = Real.exp (L * dt) * Real.exp (L * τ) := by rw [← Real.exp_add]; ring_nf
  have e2 : 1 + L * dt ≤ Real.exp (L * dt) := by linarith [Real.add_one_le_exp (L * dt)]
  have e3 : 1 ≤ Real.exp (L * (τ + dt)) := Real.one_le_exp (by positivity)
  have e4 : (1 + L * dt) * (K * h * τ * Real.exp (L * τ)) ≤ K * h * τ * Real.exp (L * (τ + dt)) := by
    rw [e1]
    have : 0 ≤ K * h * τ * Real.exp (L * τ) := by positivity
    nlinarith [mul_le_mul_of_nonneg_right e2 this]
  have e5 : K * dt * dt ≤ K * h * dt * Real.exp (L * (τ + dt)) := by
    have a : K * dt * dt ≤ K * h * dt := mul_le_mul_of_nonneg_right (mul_le_mul_of_nonneg_left hh hK) hd
    have b : 0 ≤ K * h * dt := by positivity
    nlinarith
  nlinarith

/-- the steps of a consistent method stay near the exact motion -/
theorem converges {φ : ℝ × Y → Y} {Ω : Set (ℝ × Y)} {y : ℝ → Y} {t0 T : ℝ} (hT : t0 ≤ T) (hy : ∀ t ∈ Icc t0 T, HasDerivAt y (φ (0, y t)) t)
    (hφ : ∀ t ∈ Icc t0 T, ∃ K, ∃ s ∈ 𝓝 ((0 : ℝ), y t), LipschitzOnWith K φ s ∧ s ⊆ Ω) :
    ∃ K ≥ 0, ∃ L ≥ 0, ∃ h0 > 0, ∀ t dt h z, t0 ≤ t → 0 < dt → dt ≤ h → h ≤ h0 → t + dt ≤ T → ‖z - y t‖ ≤ bound K L h (t - t0) →
      (dt, z) ∈ Ω ∧ ‖z + dt • φ (dt, z) - y (t + dt)‖ ≤ bound K L h (t + dt - t0) := by
  obtain ⟨r, hr, L, hL, hu⟩ := uniform (fun t ht => (hy t ht).continuousAt) hφ
  set B := L * (1 + L) * (T - t0) * Real.exp (L * (T - t0)) with hB
  have hTt : 0 ≤ T - t0 := by linarith
  have hB0 : 0 ≤ B := by positivity
  have hD : 0 < 2 + L + B := by linarith
  refine ⟨L * (1 + L), by positivity, L, hL, r / (2 + L + B), div_pos hr hD, ?_⟩
  intro t dt h z ht hd hh hh0 hdT hz
  have hmul : h * (2 + L + B) ≤ r := by rwa [le_div_iff₀ hD] at hh0
  have hhp : 0 < h := hd.trans_le hh
  have ht' : t ∈ Icc t0 T := ⟨ht, by linarith⟩
  -- the curve is Lipschitz
  have lip : ∀ s ∈ Icc t (t + dt), ‖y s - y t‖ ≤ L * dt := by
    intro s hs
    have := (convex_Icc t0 T).norm_image_sub_le_of_norm_hasDerivWithin_le (f := y) (f' := fun t => φ (0, y t)) (C := L)
      (fun x hx => (hy x hx).hasDerivWithinAt) (fun x hx => (hu x hx).1) ht' (⟨ht.trans hs.1, hs.2.trans hdT⟩ : s ∈ Icc t0 T)
    refine this.trans (mul_le_mul_of_nonneg_left ?_ hL)
    rw [Real.norm_eq_abs, abs_le]
    exact ⟨by linarith [hs.1], by linarith [hs.2]⟩
  have hdr : dt < r := by nlinarith
  have hLdt : L * dt < r := by nlinarith
  -- defect
  have defect : ‖y (t + dt) - y t - dt • φ (dt, y t)‖ ≤ L * (1 + L) * dt * dt := by
    have hf : ∀ s ∈ Icc t (t + dt), HasDerivWithinAt (fun s => y s - s • φ (dt, y t)) (φ (0, y s) - φ (dt, y t)) (Icc t (t + dt)) s := by
      intro s hs
      have a := hy s ⟨ht.trans hs.1, hs.2.trans hdT⟩
      have b : HasDerivAt (fun s : ℝ => s • φ (dt, y t)) ((1 : ℝ) • φ (dt, y t)) s := (hasDerivAt_id s).smul_const _
      rw [one_smul] at b
      exact (a.sub b).hasDerivWithinAt
    have hb : ∀ s ∈ Icc t (t + dt), ‖φ (0, y s) - φ (dt, y t)‖ ≤ L * (1 + L) * dt := by
      intro s hs
      have l1 := lip s hs
      have hdist : ∀ p : ℝ × Y, p = (dt, y t) → dist p (0, y s) < r := by
        rintro p rfl
        rw [Prod.dist_eq]
        refine max_lt ?_ ?_
        · simpa [abs_of_pos hd] using hdr
        · rw [dist_comm, dist_eq_norm]; exact l1.trans_lt hLdt
      have := ((hu s ⟨ht.trans hs.1, hs.2.trans hdT⟩).2 (0, y s) (dt, y t) (by rw [dist_self]; exact hr) (hdist _ rfl)).2
      refine this.trans ?_
      rw [mul_assoc]
      refine mul_le_mul_of_nonneg_left ?_ hL
      rw [Prod.norm_def]
      refine max_le ?_ ?_
      · simp only [Prod.fst_sub, zero_sub, norm_neg, Real.norm_eq_abs, abs_of_pos hd]
        nlinarith
      · simp only [Prod.snd_sub]
        nlinarith
    have := (convex_Icc t (t + dt)).norm_image_sub_le_of_norm_hasDerivWithin_le hf hb (left_mem_Icc.mpr (by linarith)) (right_mem_Icc.mpr (by linarith))
    have e : y (t + dt) - (t + dt) • φ (dt, y t) - (y t - t • φ (dt, y t)) = y (t + dt) - y t - dt • φ (dt, y t) := by
      rw [add_smul]; abel
    rw [e] at this
    simpa [abs_of_pos hd] using this
  have hle : bound (L * (1 + L)) L h (t - t0) ≤ B * h := by
    unfold bound
    have e1 : Real.exp (L * (t - t0)) ≤ Real.exp (L * (T - t0)) := Real.exp_le_exp.mpr (mul_le_mul_of_nonneg_left (by linarith) hL)
    have e2 : L * (1 + L) * h * (t - t0) ≤ L * (1 + L) * h * (T - t0) := mul_le_mul_of_nonneg_left (by linarith) (by positivity)
    have e3 : 0 ≤ L * (1 + L) * h * (T - t0) := by positivity
    calc _ ≤ L * (1 + L) * h * (T - t0) * Real.exp (L * (T - t0)) := mul_le_mul e2 e1 (Real.exp_nonneg _) e3
      _ = B * h := by rw [hB]; ring
  have hzr : ‖z - y t‖ < r := by nlinarith
  have hp : dist (dt, z) ((0 : ℝ), y t) < r := by
    rw [Prod.dist_eq]
    refine max_lt ?_ ?_
    · simpa [abs_of_pos hd] using hdr
    · rw [dist_eq_norm]; exact hzr
  have hp' : dist (dt, y t) ((0 : ℝ), y t) < r := by
    rw [Prod.dist_eq]
    refine max_lt ?_ ?_
    · simpa [abs_of_pos hd] using hdr
    · simpa using hr
  obtain ⟨hΩ, hlip⟩ := (hu t ht').2 (dt, z) (dt, y t) hp hp'
  refine ⟨hΩ, ?_⟩
  have hn : ‖((dt, z) : ℝ × Y) - (dt, y t)‖ = ‖z - y t‖ := by simp [Prod.norm_def]
  rw [hn] at hlip
  have e : z + dt • φ (dt, z) - y (t + dt) = (z - y t) + dt • (φ (dt, z) - φ (dt, y t)) - (y (t + dt) - y t - dt • φ (dt, y t)) := by
    rw [smul_sub]; abel
  have hs := bound_step (K := L * (1 + L)) (L := L) (h := h) (τ := t - t0) (dt := dt) (by positivity) hL (by linarith) hd.le hh
  have e2 : t - t0 + dt = t + dt - t0 := by ring
  rw [e2] at hs
  refine le_trans ?_ hs
  rw [e]
  have n1 := norm_sub_le ((z - y t) + dt • (φ (dt, z) - φ (dt, y t))) (y (t + dt) - y t - dt • φ (dt, y t))
  have n2 := norm_add_le (z - y t) (dt • (φ (dt, z) - φ (dt, y t)))
  have n3 : ‖dt • (φ (dt, z) - φ (dt, y t))‖ ≤ dt * (L * ‖z - y t‖) := by
    rw [norm_smul, Real.norm_eq_abs, abs_of_pos hd]
    exact mul_le_mul_of_nonneg_left hlip hd.le
  have n4 : (1 + L * dt) * ‖z - y t‖ ≤ (1 + L * dt) * bound (L * (1 + L)) L h (t - t0) := mul_le_mul_of_nonneg_left hz (by positivity)
  nlinarith

end Arboris.OneStep
