import Verif.Props.ConvergeFly
import Verif.Props.ConvergeTurnRun
import Verif.Props.Image
import Verif.Props.Drop

/-!
# C133: the exact motion exists; an example
-/

namespace Arboris
open Matrix Spec Mech Build Sim

variable {n : ℕ}

namespace Fly
open Smooth Turn

lemma pose_exists : ∀ (ls : List MLink) (a : ℕ), Numbered a ls → (∀ l ∈ ls, l.start + l.att.ndof ≤ n) →
    ∃ P : Fin n → Fin 4 → Fin 4 → ℝ, ∀ l ∈ ls, ∀ H V, l.att = .free H V → poseAt P l.start = H
  | [], _, _, _ => ⟨fun _ _ _ => 0, by simp⟩
  | l :: ls, a, h, hb => by
    obtain ⟨P, hP⟩ := pose_exists ls _ h.2 fun l hl => hb l (by simp [hl])
    have hb0 := hb l (by simp)
    obtain ⟨att, start, p0, p1⟩ := l
    dsimp only at hb0
    cases att with
    | lin k q dq =>
      refine ⟨P, fun l' hl' H V e => ?_⟩
      rcases List.mem_cons.mp hl' with rfl | hl'
      · cases e
      · exact hP _ hl' H V e
    | fixed =>
      refine ⟨P, fun l' hl' H V e => ?_⟩
      rcases List.mem_cons.mp hl' with rfl | hl'
      · cases e
      · exact hP _ hl' H V e
    | free H0 V0 =>
      have hb0 : start + 6 ≤ n := hb0
      refine ⟨fun d i j => if d.val = start then H0 i j else P d i j, fun l' hl' H V e => ?_⟩
      rcases List.mem_cons.mp hl' with rfl | hl'
      · cases e
        have hs : start < n := by omega
        simp only [poseAt, dif_pos hs]
        ext i j
        simp
      · have h1 := hP _ hl' H V e
        have hb' := hb l' (by simp [hl'])
        obtain ⟨i, hi, rfl⟩ := List.mem_iff_getElem.mp hl'
        have h2 := numbered_le h.2 hi
        have h3 : start + 6 ≤ (ls[i]).start := by
          have h4 : start = a := h.1
          have h5 : a + 6 ≤ (ls[i]).start := h2
          omega
        rw [← h1]
        unfold poseAt
        have h6 : (ls[i]).start < n := by
          rw [e] at hb'
          have : (ls[i]).start + 6 ≤ n := hb'
          omega
        rw [dif_pos h6, dif_pos h6]
        have h7 : (ls[i]).start ≠ start := by omega
        simp only [h7, if_false]

end Fly

open Fly in
/-- C133.  When its mass matrix is invertible at the beginning, such a mechanism has an exact motion during some time. -/
theorem C133_exists {up : Vec3} {m : Body → ℝ} {c : Body → Vec3} {cs : List LibCtrl} {w w0 : MWorld n Unit} (hw : FlyingWorld m c w) (hi : Mech.init w = .ok w0)
    (hM : (worldMass (worldDynamic n (linksOf w0))).det ≠ 0) (t0 : ℝ) : ∃ T > t0, ∃ x P u a, FlyPath up m c cs w0 t0 T x P u a := by
  obtain ⟨w0', h1, hst⟩ := init_started hw.dofs
  obtain rfl : w0 = w0' := Except.ok.inj (hi.symm.trans h1)
  have hb : ∀ l ∈ w0.tree.links, l.start + l.att.ndof ≤ n := fun l hl => bound_of_vel (hst.vel l hl)
  obtain ⟨q, hq⟩ := pos_exists (n := n) _ _ hst.numbered hb
  obtain ⟨Q, hQ⟩ := Fly.pose_exists (n := n) _ _ hst.numbered hb
  have htree : w0.tree = w0.tree.map (flyAt q Q w0.gvel) id := (Turn.map_self fun l hl => flyAt_self (hq l hl) (hQ l hl) (hst.vel l hl)).symm
  have hd : worldDynamic n (linksOf w0) = flyBodies w0 q Q w0.gvel := by
    unfold flyBodies linksOf
    dsimp only
    rw [← htree]
  rw [hd] at hM
  obtain ⟨bs, h1, h2⟩ := Fly.smooth_bodies w0
  obtain ⟨b, K, D, hb', hf⟩ := Fly.mixed_form up m c w0 cs
  have sM : Smooth.SM fun z : Y n => worldMass (flyBodies w0 z.1 z.2.1 z.2.2) := by simp only [h2]; exact Smooth.mass h1
  have sB : Smooth.SM fun z : Y n => worldViscosity (flyBodies w0 z.1 z.2.1 z.2.2) := by simp only [h2]; exact Smooth.viscosity h1
  have sN : Smooth.SM fun z : Y n => worldNleffects (flyBodies w0 z.1 z.2.1 z.2.2) := by simp only [h2]; exact Smooth.nleffects h1
  set M : Y n → Matrix (Fin n) (Fin n) ℝ := fun z => worldMass (flyBodies w0 z.1 z.2.1 z.2.2) with eM
  set B : Y n → Matrix (Fin n) (Fin n) ℝ := fun z => worldViscosity (flyBodies w0 z.1 z.2.1 z.2.2) with eB
  set N : Y n → Matrix (Fin n) (Fin n) ℝ := fun z => worldNleffects (flyBodies w0 z.1 z.2.1 z.2.2) with eN
  have hsm : ContDiffAt ℝ 1 (fun z : Y n => Fly.slope M B N K D b (0, z)) (q, Q, w0.gvel) := by
    have := Fly.smooth_slope (K := K) (D := D) sM sB sN hb' (p := ((0 : ℝ), (q, Q, w0.gvel))) (by simpa [Fly.lhs] using hM)
    exact this.comp (q, Q, w0.gvel) (f := fun z : Y n => ((0 : ℝ), z)) (contDiffAt_const.prodMk contDiffAt_id)
  obtain ⟨z, hz0, ε, hε, hz⟩ := hsm.exists_forall_mem_closedBall_exists_eq_forall_mem_Ioo_hasDerivAt₀ t0
  have hcont : ContinuousAt (fun t => (M (z t)).det) t0 := by
    have h3 : ContinuousAt (fun y : Y n => (M y).det) (z t0) := (Turn.smooth_det sM).continuous.continuousAt
    exact ContinuousAt.comp (f := z) h3 (hz t0 ⟨by linarith, by linarith⟩).continuousAt
  have hne : ∀ᶠ t in nhds t0, (M (z t)).det ≠ 0 := hcont.eventually_ne (by rw [hz0]; exact hM)
  obtain ⟨δ, hδ, hball⟩ := Metric.eventually_nhds_iff.mp hne
  have hin : ∀ t ∈ Set.Icc t0 (t0 + min ε δ / 2), t ∈ Set.Ioo (t0 - ε) (t0 + ε) ∧ dist t t0 < δ := by
    intro t ht
    have h3 := min_le_left ε δ
    have h4 := min_le_right ε δ
    have h5 := lt_min hε hδ
    refine ⟨⟨by linarith [ht.1], by linarith [ht.2]⟩, ?_⟩
    rw [Real.dist_eq, abs_of_nonneg (by linarith [ht.1])]
    linarith [ht.2]
  have hlaw : ∀ t ∈ Set.Icc t0 (t0 + min ε δ / 2), M (z t) *ᵥ Fly.acc M B N K D b (0, z t) + N (z t) *ᵥ (z t).2.2 + B (z t) *ᵥ (z t).2.2 =
      (cs.map (flyForce up m c w0 (z t).1 (z t).2.1 (z t).2.2)).sum := by
    intro t ht
    have hdet := hball (hin t ht).2
    have e1 : M (z t) *ᵥ Fly.acc M B N K D b (0, z t) = b (z t) - K *ᵥ (z t).1 - (B (z t) + N (z t) + D) *ᵥ (z t).2.2 := by
      simp only [Fly.acc, Fly.lhs, Fly.rhs, zero_smul, add_zero, zero_add]
      rw [Matrix.mulVec_mulVec, Matrix.mul_nonsing_inv _ (isUnit_iff_ne_zero.mpr hdet), Matrix.one_mulVec]
    rw [← Fly.mixed_same, hf, e1, Matrix.add_mulVec, Matrix.add_mulVec]
    abel
  have hder : ∀ t ∈ Set.Icc t0 (t0 + min ε δ / 2), HasDerivAt z ((z t).2.2, fun d i j => (Matrix.of ((z t).2.1 d) * hat (twistAt (z t).2.2 d)) i j,
      Fly.acc M B N K D b (0, z t)) t := by
    intro t ht
    have := hz t (hin t ht).1
    rw [show Fly.slope M B N K D b (0, z t) = _ from Fly.slope_zero (hball (hin t ht).2) (by
      have h3 := hlaw t ht
      rw [← Fly.mixed_same, hf] at h3
      exact h3)] at this
    exact this
  refine ⟨t0 + min ε δ / 2, by have := lt_min hε hδ; linarith, fun t => (z t).1, fun t => (z t).2.1, fun t => (z t).2.2, fun t => Fly.acc M B N K D b (0, z t), ?_⟩
  refine ⟨by rw [hz0]; exact hq, by rw [hz0]; exact hQ, by rw [hz0], fun t ht => (hder t ht).fst, fun t ht d i j => ?_, fun t ht => (hder t ht).snd.snd, hlaw, fun t ht => hball (hin t ht).2⟩
  exact hasDerivAt_pi.mp (hasDerivAt_pi.mp (hasDerivAt_pi.mp (hder t ht).snd.fst d) i) j

/-! ### an example -/

lemma disc_dyn : worldDynamic 6 (linksOf disc) = [(⟨1, 0⟩, ⟨1, 1, 0, ![1, 0, 0, 0, 2, 3]⟩)] := by
  have hinv : invBody (1 : Mat4) = 1 := by
    have := isRigid_one.invBody_mul; simpa using this
  have had : adjointBody (1 : Mat4) = 1 := by
    have : (1 : Mat4) = mkH 1 0 := mkH_one.symm
    rw [this, adjointBody_mkH]
    simp [skew_zero, blk_one]
  have h1 : ∀ J : Matrix (Fin 6) (Fin 6) ℝ, addCols (0 : Matrix (Fin 6) (Fin 6) ℝ) 0 6 ((1 : Mat6) * J) = J := by
    intro J
    ext i c
    simp [addCols]
  have h2 : dynStep (groundDyn 6) (MLink.link ⟨.free 1 ![1, 0, 0, 0, 2, 3], 0, 1, 1⟩) = ⟨1, 1, 0, ![1, 0, 0, 0, 2, 3]⟩ := by
    simp only [dynStep, groundDyn, MLink.link, JAttr.val, freeVal, hinv, had, Matrix.one_mul, Matrix.mul_one, Matrix.mul_zero, Matrix.mulVec_zero, zero_add, add_zero,
      Matrix.one_mulVec]
    congr 1
    · exact h1 1
    · exact h1 0
  change [(_, dynStep (groundDyn 6) _)] = _
  rw [← h2]
  rfl

end Arboris
