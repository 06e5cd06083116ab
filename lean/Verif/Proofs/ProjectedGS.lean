import Verif.Proofs.GaussSeidel
import Mathlib.Topology.MetricSpace.Cauchy
import Mathlib.Topology.Order.MonotoneConvergence
import Mathlib.Topology.Instances.Matrix

/-!
# Block Gauss–Seidel with laws that derive from a convex potential

Each block `i` of the unknowns `f` has a law between `u = v₀ + A f` and `f`.  A block solve moves the unknowns of the block until the law
holds.  If the laws are subgradients, the solves decrease a potential, hence the sweeps converge, to the only solution.
-/

namespace Arboris.BlockGS
open Matrix Spec Filter Topology

variable {β : Type} [Fintype β] [DecidableEq β] {κ : β → Type} [∀ i, Fintype (κ i)] [∀ i, DecidableEq (κ i)]

/-- only the unknowns of the block `i` move, to a place where its law holds -/
def Solves (A : Matrix (Σ i, κ i) (Σ i, κ i) ℝ) (law : (i : β) → (κ i → ℝ) → (κ i → ℝ) → Prop) (i : β)
    (s s' : ((Σ i, κ i) → ℝ) × ((Σ i, κ i) → ℝ)) : Prop :=
  ∃ d : κ i → ℝ, s'.2 = s.2 + ext i d ∧ s'.1 = s.1 + A *ᵥ ext i d ∧ law i (block s'.1 i) (block s'.2 i)

/-- the blocks of the list are solved one after the other -/
inductive Passes (A : Matrix (Σ i, κ i) (Σ i, κ i) ℝ) (law : (i : β) → (κ i → ℝ) → (κ i → ℝ) → Prop) :
    List β → ((Σ i, κ i) → ℝ) × ((Σ i, κ i) → ℝ) → ((Σ i, κ i) → ℝ) × ((Σ i, κ i) → ℝ) → Prop
  | nil s : Passes A law [] s s
  | cons {i l s s' s''} : Solves A law i s s' → Passes A law l s' s'' → Passes A law (i :: l) s s''

/-- `-u` is a subgradient of the potential at `f` -/
def SubGrad (law : (i : β) → (κ i → ℝ) → (κ i → ℝ) → Prop) (h : (i : β) → (κ i → ℝ) → ℝ) : Prop :=
  ∀ i u f, law i u f → ∀ g, h i f - u ⬝ᵥ (g - f) ≤ h i g

/-- the potential -/
noncomputable def pot (A : Matrix (Σ i, κ i) (Σ i, κ i) ℝ) (h : (i : β) → (κ i → ℝ) → ℝ) (s : ((Σ i, κ i) → ℝ) × ((Σ i, κ i) → ℝ)) : ℝ :=
  (1 / 2) * (s.2 ⬝ᵥ (s.1 + (s.1 - A *ᵥ s.2))) + ∑ i, h i (block s.2 i)

variable {A : Matrix (Σ i, κ i) (Σ i, κ i) ℝ} {law : (i : β) → (κ i → ℝ) → (κ i → ℝ) → Prop} {h : (i : β) → (κ i → ℝ) → ℝ}

lemma ext_self (i : β) (d : κ i → ℝ) (k : κ i) : ext i d ⟨i, k⟩ = d k := by simp [ext]

lemma ext_ne {i j : β} (hij : j ≠ i) (d : κ i → ℝ) (k : κ j) : ext i d ⟨j, k⟩ = 0 := by simp [ext, Pi.single_eq_of_ne hij]

lemma dot_ext (i : β) (d : κ i → ℝ) (v : (Σ i, κ i) → ℝ) : v ⬝ᵥ ext i d = block v i ⬝ᵥ d := ext_dot i d v

lemma pot_step (hA : SymPD A) (hh : SubGrad law h) {i : β} {s s' : ((Σ i, κ i) → ℝ) × ((Σ i, κ i) → ℝ)} {d : κ i → ℝ}
    (h2 : s'.2 = s.2 + ext i d) (h1 : s'.1 = s.1 + A *ᵥ ext i d) (hl : law i (block s'.1 i) (block s'.2 i)) :
    pot A h s' + (1 / 2) * (ext i d ⬝ᵥ A *ᵥ ext i d) ≤ pot A h s := by
  obtain ⟨u, f⟩ := s
  obtain ⟨u', f'⟩ := s'
  simp only at h1 h2 hl
  have hsum : ∑ j, h j (block f' j) = ∑ j, h j (block f j) + (h i (block f' i) - h i (block f i)) := by
    rw [← Finset.add_sum_erase _ _ (Finset.mem_univ i), ← Finset.add_sum_erase _ (fun j => h j (block f j)) (Finset.mem_univ i),
      Finset.sum_congr rfl (g := fun j => h j (block f j)) (fun j hj => by
        have : block f' j = block f j := by
          funext k
          rw [h2]
          simp [block, ext_ne (Finset.ne_of_mem_erase hj)]
        rw [this])]
    ring
  have hsub := hh i _ _ hl (block f i)
  have hb : block f i - block f' i = -d := by
    funext k
    rw [h2]
    simp [block, ext_self]
  rw [hb, dotProduct_neg] at hsub
  have hd : block u' i ⬝ᵥ d = u ⬝ᵥ ext i d + ext i d ⬝ᵥ A *ᵥ ext i d := by
    rw [← dot_ext, h1, add_dotProduct, dotProduct_comm (A *ᵥ ext i d)]
  have hs : f ⬝ᵥ A *ᵥ ext i d = ext i d ⬝ᵥ A *ᵥ f := by rw [← sym_dot hA.1, dotProduct_comm]
  unfold pot
  simp only
  rw [hsum]
  have e : f' ⬝ᵥ (u' + (u' - A *ᵥ f')) = f ⬝ᵥ (u + (u - A *ᵥ f)) + 2 * (u ⬝ᵥ ext i d) + ext i d ⬝ᵥ A *ᵥ ext i d := by
    rw [h1, h2]
    simp only [Matrix.mulVec_add, add_dotProduct, dotProduct_add, dotProduct_sub]
    rw [hs, dotProduct_comm u (ext i d)]
    ring
  rw [e]
  linarith

lemma passes_facts (hA : SymPD A) (hh : SubGrad law h) {c : ℝ} (hc : 0 ≤ c) (hcA : ∀ D : (Σ i, κ i) → ℝ, c * ‖D‖ ^ 2 ≤ (1 / 2) * (D ⬝ᵥ A *ᵥ D)) {l : List β}
    {s s' : ((Σ i, κ i) → ℝ) × ((Σ i, κ i) → ℝ)} (hp : Passes A law l s s') (hn : l.Nodup) :
    s'.1 = s.1 + A *ᵥ (s'.2 - s.2) ∧ (∀ j, j ∉ l → ∀ k, s'.2 ⟨j, k⟩ = s.2 ⟨j, k⟩) ∧ pot A h s' ≤ pot A h s ∧
      (∀ y, pot A h s' + c * (s'.2 y - s.2 y) ^ 2 ≤ pot A h s) ∧
      ∀ i ∈ l, ∃ w D', law i w (block s'.2 i) ∧ (∀ y, |D' y| ≤ |s'.2 y - s.2 y|) ∧ block s'.1 i = w + block (A *ᵥ D') i := by
  induction hp with
  | nil s => exact ⟨by simp, fun _ _ _ => rfl, le_rfl, fun y => by simp, fun i hi => by simp at hi⟩
  | @cons i l s s1 s' hs hp ih =>
    obtain ⟨d, h2, h1, hl⟩ := hs
    obtain ⟨hi, hn'⟩ := List.nodup_cons.mp hn
    obtain ⟨a1, a2, a3, a4, a5⟩ := ih hn'
    have hp := pot_step hA hh h2 h1 hl
    have hpos : 0 ≤ ext i d ⬝ᵥ A *ᵥ ext i d := by
      have := hcA (ext i d)
      nlinarith [sq_nonneg ‖ext i d‖]
    have hin : ∀ k, s'.2 ⟨i, k⟩ = s1.2 ⟨i, k⟩ := a2 i hi
    have hout : ∀ j, j ≠ i → ∀ k, s1.2 ⟨j, k⟩ = s.2 ⟨j, k⟩ := fun j hj k => by rw [h2]; simp [ext_ne hj]
    have hle : ∀ y, |s'.2 y - s1.2 y| ≤ |s'.2 y - s.2 y| := by
      rintro ⟨j, k⟩
      by_cases hj : j = i
      · subst hj
        rw [hin k, sub_self, abs_zero]
        exact abs_nonneg _
      · rw [hout j hj k]
    refine ⟨?_, ?_, by linarith, ?_, ?_⟩
    · rw [a1, h1, h2, add_assoc, ← Matrix.mulVec_add]
      congr 2
      abel
    · intro j hj k
      rw [List.mem_cons, not_or] at hj
      rw [a2 j hj.2 k, hout j hj.1 k]
    · rintro ⟨j, k⟩
      by_cases hj : j = i
      · subst hj
        have e : s'.2 ⟨j, k⟩ - s.2 ⟨j, k⟩ = ext j d ⟨j, k⟩ := by rw [hin k, h2]; simp
        have hk : (ext j d ⟨j, k⟩) ^ 2 ≤ ‖ext j d‖ ^ 2 := by
          rw [← sq_abs]
          exact pow_le_pow_left₀ (abs_nonneg _) (norm_le_pi_norm (ext j d) ⟨j, k⟩) 2
        have := hcA (ext j d)
        rw [e]
        nlinarith [mul_le_mul_of_nonneg_left hk hc]
      · have := a4 ⟨j, k⟩
        rw [hout j hj k] at this
        linarith
    · intro j hj
      rcases List.mem_cons.mp hj with rfl | hj
      · refine ⟨block s1.1 j, s'.2 - s1.2, ?_, fun y => hle y, ?_⟩
        · have : block s'.2 j = block s1.2 j := funext hin
          rw [this]
          exact hl
        · rw [a1]; rfl
      · obtain ⟨w, D', b1, b2, b3⟩ := a5 j hj
        exact ⟨w, D', b1, fun y => (b2 y).trans (hle y), b3⟩

/-- the constants of a symmetric positive definite matrix -/
lemma pd_constants (hA : SymPD A) : ∃ c K : ℝ, 0 < c ∧ 0 ≤ K ∧ (∀ D : (Σ i, κ i) → ℝ, c * ‖D‖ ^ 2 ≤ (1 / 2) * (D ⬝ᵥ A *ᵥ D)) ∧
    (∀ D : (Σ i, κ i) → ℝ, ‖A *ᵥ D‖ ≤ K * ‖D‖) ∧ ∀ D : (Σ i, κ i) → ℝ, ‖D‖ ≤ K * ‖A *ᵥ D‖ := by
  have hu := isUnit_iff_ne_zero.mpr (pd_det hA)
  have hinv : SymPD A⁻¹ := by
    refine ⟨by rw [Matrix.transpose_nonsing_inv, hA.1], fun x hx => energy_pos hA hx⟩
  obtain ⟨ρ, c, -, -, hc, h2⟩ := contraction hinv (0 : ((Σ i, κ i) → ℝ) →ₗ[ℝ] ((Σ i, κ i) → ℝ)) (fun r hr => by
    have := energy_pos hinv hr
    simpa [energy] using this)
  have hlin : ∀ B : Matrix (Σ i, κ i) (Σ i, κ i) ℝ, ∃ K, 0 ≤ K ∧ ∀ D : (Σ i, κ i) → ℝ, ‖B *ᵥ D‖ ≤ K * ‖D‖ := by
    intro B
    let L := LinearMap.toContinuousLinearMap (Matrix.mulVecLin B)
    exact ⟨‖L‖, norm_nonneg _, fun D => L.le_opNorm D⟩
  obtain ⟨K1, k1, hK1⟩ := hlin A
  obtain ⟨K2, k2, hK2⟩ := hlin A⁻¹
  refine ⟨c / 2, K1 + K2, by positivity, by positivity, fun D => ?_, fun D => ?_, fun D => ?_⟩
  · have := (h2 D).2
    unfold energy at this
    rw [Matrix.nonsing_inv_nonsing_inv _ hu] at this
    linarith
  · exact (hK1 D).trans (by gcongr; linarith)
  · have := hK2 (A *ᵥ D)
    rw [Matrix.mulVec_mulVec, Matrix.nonsing_inv_mul _ hu, Matrix.one_mulVec] at this
    exact this.trans (by gcongr; linarith)

/-- the laws hold up to `ε` -/
def Near (law : (i : β) → (κ i → ℝ) → (κ i → ℝ) → Prop) (ε : ℝ) (s : ((Σ i, κ i) → ℝ) × ((Σ i, κ i) → ℝ)) : Prop :=
  ∀ i, ∃ w, law i w (block s.2 i) ∧ ∀ k, |s.1 ⟨i, k⟩ - w k| ≤ ε

lemma norm_le_of_abs {D E : (Σ i, κ i) → ℝ} (hD : ∀ y, |D y| ≤ |E y|) : ‖D‖ ≤ ‖E‖ :=
  (pi_norm_le_iff_of_nonneg (norm_nonneg _)).mpr fun y => (hD y).trans (norm_le_pi_norm E y)

/-- after a sweep the laws hold up to the change of `u` in the sweep -/
lemma passes_near (hA : SymPD A) : ∃ K : ℝ, 0 ≤ K ∧ ∀ {law : (i : β) → (κ i → ℝ) → (κ i → ℝ) → Prop} {h : (i : β) → (κ i → ℝ) → ℝ}, SubGrad law h →
    ∀ {l : List β}, l.Nodup → (∀ i, i ∈ l) → ∀ {s s'}, Passes A law l s s' →
    Near law (K * ‖s'.1 - s.1‖) s' := by
  obtain ⟨c, K, hc, hK, h1, h2, h3⟩ := pd_constants hA
  refine ⟨K * K, by positivity, fun {law h} hh {l} hn hl s s' hp i => ?_⟩
  obtain ⟨a1, -, -, -, a5⟩ := passes_facts hA hh hc.le h1 hp hn
  obtain ⟨w, D', b1, b2, b3⟩ := a5 i (hl i)
  refine ⟨w, b1, fun k => ?_⟩
  have e : s'.1 ⟨i, k⟩ - w k = (A *ᵥ D') ⟨i, k⟩ := by
    have := congrFun b3 k
    simp only [block, Pi.add_apply] at this
    linarith
  have e2 : s'.1 - s.1 = A *ᵥ (s'.2 - s.2) := by rw [a1]; simp
  rw [e, e2]
  calc |(A *ᵥ D') ⟨i, k⟩| ≤ ‖A *ᵥ D'‖ := norm_le_pi_norm (A *ᵥ D') ⟨i, k⟩
    _ ≤ K * ‖D'‖ := h2 _
    _ ≤ K * ‖s'.2 - s.2‖ := by gcongr; exact norm_le_of_abs b2
    _ ≤ K * (K * ‖A *ᵥ (s'.2 - s.2)‖) := by gcongr; exact h3 _
    _ = _ := by ring

/-- the potential is bounded below -/
lemma pot_bounded (hA : SymPD A) (hh : SubGrad law h) (hex : ∀ i, ∃ w f, law i w f) (v0 : (Σ i, κ i) → ℝ) :
    ∃ B, ∀ s : ((Σ i, κ i) → ℝ) × ((Σ i, κ i) → ℝ), s.1 - A *ᵥ s.2 = v0 → B ≤ pot A h s := by
  choose w f hwf using hex
  have hu := isUnit_iff_ne_zero.mpr (pd_det hA)
  set W : (Σ i, κ i) → ℝ := fun y => w y.1 y.2
  set c : (Σ i, κ i) → ℝ := v0 - W
  refine ⟨∑ i, (h i (f i) + w i ⬝ᵥ f i) - (1 / 2) * (c ⬝ᵥ A⁻¹ *ᵥ c), fun s hs => ?_⟩
  have hlow : ∑ i, (h i (f i) + w i ⬝ᵥ f i) - s.2 ⬝ᵥ W ≤ ∑ i, h i (block s.2 i) := by
    have e : s.2 ⬝ᵥ W = ∑ i, w i ⬝ᵥ block s.2 i := by
      unfold dotProduct
      rw [Fintype.sum_sigma]
      refine Finset.sum_congr rfl fun i _ => Finset.sum_congr rfl fun k _ => ?_
      exact mul_comm _ _
    rw [e, ← Finset.sum_sub_distrib]
    refine Finset.sum_le_sum fun i _ => ?_
    have := hh i _ _ (hwf i) (block s.2 i)
    rw [dotProduct_sub] at this
    linarith
  have hsq : 0 ≤ (s.2 + A⁻¹ *ᵥ c) ⬝ᵥ A *ᵥ (s.2 + A⁻¹ *ᵥ c) := by
    by_cases h0 : s.2 + A⁻¹ *ᵥ c = 0
    · rw [h0]; simp
    · exact (hA.2 _ h0).le
  have hc : A *ᵥ (A⁻¹ *ᵥ c) = c := by rw [Matrix.mulVec_mulVec, Matrix.mul_nonsing_inv _ hu, Matrix.one_mulVec]
  rw [Matrix.mulVec_add, hc, dotProduct_add, add_dotProduct, add_dotProduct, ← sym_dot hA.1 (A⁻¹ *ᵥ c), hc, dotProduct_comm (A⁻¹ *ᵥ c) c] at hsq
  have hcs : s.2 ⬝ᵥ c = s.2 ⬝ᵥ v0 - s.2 ⬝ᵥ W := dotProduct_sub _ _ _
  have hc2 : c ⬝ᵥ s.2 = s.2 ⬝ᵥ c := dotProduct_comm _ _
  unfold pot
  have e : s.1 + (s.1 - A *ᵥ s.2) = A *ᵥ s.2 + (v0 + v0) := by rw [← hs]; abel
  rw [e, dotProduct_add, dotProduct_add]
  linarith

/-- two states in which the laws nearly hold are near -/
lemma near_near (hA : SymPD A) : ∃ K : ℝ, 0 ≤ K ∧ ∀ {law : (i : β) → (κ i → ℝ) → (κ i → ℝ) → Prop} {h : (i : β) → (κ i → ℝ) → ℝ}, SubGrad law h → ∀ {s s' : ((Σ i, κ i) → ℝ) × ((Σ i, κ i) → ℝ)} {ε ε' : ℝ},
    s.1 - A *ᵥ s.2 = s'.1 - A *ᵥ s'.2 → 0 ≤ ε → 0 ≤ ε' → Near law ε s → Near law ε' s' → ‖s.2 - s'.2‖ ≤ K * (ε + ε') ∧ ‖s.1 - s'.1‖ ≤ K * (ε + ε') := by
  obtain ⟨c, K, hc, hK, h1, h2, h3⟩ := pd_constants hA
  set M : ℝ := Fintype.card (Σ i, κ i) / c
  have hM : 0 ≤ M := by positivity
  have hMm : M ≤ (1 + K) * M := by nlinarith
  have hMk : K * M ≤ (1 + K) * M := by nlinarith
  refine ⟨(1 + K) * M, by positivity, fun {law h} hh {s s' ε ε'} hv hε hε' hs hs' => ?_⟩
  have key : ‖s.2 - s'.2‖ ≤ M * (ε + ε') := by
    set e := s.2 - s'.2
    have hu : A *ᵥ e = s.1 - s'.1 := by
      rw [Matrix.mulVec_sub]
      have := sub_eq_sub_iff_sub_eq_sub.mp hv
      exact this.symm
    have hb : e ⬝ᵥ A *ᵥ e ≤ ∑ y : (Σ i, κ i), |e y| * (ε + ε') := by
      rw [hu]
      unfold dotProduct
      rw [Fintype.sum_sigma, Fintype.sum_sigma]
      refine Finset.sum_le_sum fun i _ => ?_
      obtain ⟨w, hw, hk⟩ := hs i
      obtain ⟨w', hw', hk'⟩ := hs' i
      have m1 := hh i _ _ hw (block s'.2 i)
      have m2 := hh i _ _ hw' (block s.2 i)
      have m3 : ∑ k, e ⟨i, k⟩ * (w k - w' k) ≤ 0 := by
        have e1 : ∑ k, e ⟨i, k⟩ * (w k - w' k) = -(w ⬝ᵥ (block s'.2 i - block s.2 i)) - w' ⬝ᵥ (block s.2 i - block s'.2 i) := by
          unfold dotProduct
          rw [← Finset.sum_neg_distrib, ← Finset.sum_sub_distrib]
          refine Finset.sum_congr rfl fun k _ => ?_
          simp only [e, block, Pi.sub_apply]
          ring
        rw [e1]
        linarith
      have m4 : ∑ k, e ⟨i, k⟩ * ((s.1 - s'.1) ⟨i, k⟩) = ∑ k, e ⟨i, k⟩ * (w k - w' k) + ∑ k, e ⟨i, k⟩ * ((s.1 ⟨i, k⟩ - w k) - (s'.1 ⟨i, k⟩ - w' k)) := by
        rw [← Finset.sum_add_distrib]
        refine Finset.sum_congr rfl fun k _ => ?_
        simp only [Pi.sub_apply]
        ring
      rw [m4]
      have m5 : ∑ k, e ⟨i, k⟩ * ((s.1 ⟨i, k⟩ - w k) - (s'.1 ⟨i, k⟩ - w' k)) ≤ ∑ k, |e ⟨i, k⟩| * (ε + ε') := by
        refine Finset.sum_le_sum fun k _ => ?_
        refine (le_abs_self _).trans ?_
        rw [abs_mul]
        refine mul_le_mul_of_nonneg_left ?_ (abs_nonneg _)
        exact (abs_sub _ _).trans (add_le_add (hk k) (hk' k))
      linarith
    have hb2 : ∑ y : (Σ i, κ i), |e y| * (ε + ε') ≤ Fintype.card (Σ i, κ i) * (‖e‖ * (ε + ε')) := by
      refine (Finset.sum_le_card_nsmul _ _ (‖e‖ * (ε + ε')) fun y _ => ?_).trans (by rw [nsmul_eq_mul, Finset.card_univ])
      exact mul_le_mul_of_nonneg_right (norm_le_pi_norm e y) (by linarith)
    have h4 := h1 e
    have h5 : c * ‖e‖ * ‖e‖ ≤ Fintype.card (Σ i, κ i) * (ε + ε') * ‖e‖ := by
      have : 0 ≤ c * ‖e‖ ^ 2 := by positivity
      nlinarith
    by_cases h0 : ‖e‖ = 0
    · rw [h0]; positivity
    · have hp : 0 < ‖e‖ := lt_of_le_of_ne (norm_nonneg _) (Ne.symm h0)
      have := le_of_mul_le_mul_right h5 hp
      rw [show M * (ε + ε') = (Fintype.card (Σ i, κ i) * (ε + ε')) / c by simp only [M]; ring, le_div_iff₀ hc]
      linarith
  have hpos : 0 ≤ ε + ε' := by linarith
  refine ⟨key.trans (mul_le_mul_of_nonneg_right hMm hpos), ?_⟩
  have hu : s.1 - s'.1 = A *ᵥ (s.2 - s'.2) := by
    rw [Matrix.mulVec_sub]
    exact sub_eq_sub_iff_sub_eq_sub.mp hv
  rw [hu]
  calc _ ≤ K * ‖s.2 - s'.2‖ := h2 _
    _ ≤ K * (M * (ε + ε')) := by gcongr
    _ = K * M * (ε + ε') := by ring
    _ ≤ _ := mul_le_mul_of_nonneg_right hMk hpos

/-- a sequence of sweeps converges to a state in which the laws hold -/
lemma passes_converge (hA : SymPD A) (hh : SubGrad law h) (hcl : ∀ i, IsClosed {x : (κ i → ℝ) × (κ i → ℝ) | law i x.1 x.2}) {l : List β} (hn : l.Nodup)
    (hl : ∀ i, i ∈ l) {s : ℕ → ((Σ i, κ i) → ℝ) × ((Σ i, κ i) → ℝ)} (hs : ∀ m, Passes A law l (s m) (s (m + 1))) :
    ∃ t : ((Σ i, κ i) → ℝ) × ((Σ i, κ i) → ℝ), (∀ i, law i (block t.1 i) (block t.2 i)) ∧ t.1 - A *ᵥ t.2 = (s 0).1 - A *ᵥ (s 0).2 ∧ Tendsto s atTop (𝓝 t) := by
  obtain ⟨c, K, hc, hK, h1, h2, h3⟩ := pd_constants hA
  have hf := fun m => passes_facts hA hh hc.le h1 (hs m) hn
  have hv : ∀ m, (s m).1 - A *ᵥ (s m).2 = (s 0).1 - A *ᵥ (s 0).2 := by
    intro m
    induction m with
    | zero => rfl
    | succ m ih =>
      rw [← ih, (hf m).1, Matrix.mulVec_sub]
      abel
  obtain ⟨B, hB⟩ := pot_bounded hA hh (fun i => (let ⟨w, _, hw, _⟩ := (hf 0).2.2.2.2 i (hl i); ⟨w, _, hw⟩)) ((s 0).1 - A *ᵥ (s 0).2)
  have hanti : Antitone fun m => pot A h (s m) := antitone_nat_of_succ_le fun m => (hf m).2.2.1
  have hlim := tendsto_atTop_ciInf hanti ⟨B, by rintro _ ⟨m, rfl⟩; exact hB _ (hv m)⟩
  have hdrop : Tendsto (fun m => pot A h (s m) - pot A h (s (m + 1))) atTop (𝓝 0) := by
    have := hlim.sub (hlim.comp (tendsto_add_atTop_nat 1))
    simpa using this
  -- the changes vanish
  have hsmall : ∀ ε > 0, ∃ N, ∀ m ≥ N, ‖(s (m + 1)).1 - (s m).1‖ ≤ ε := by
    intro ε hε
    have hη : 0 < c * (ε / (K + 1)) ^ 2 := by positivity
    obtain ⟨N, hN⟩ := (Metric.tendsto_atTop.mp hdrop) _ hη
    refine ⟨N, fun m hm => ?_⟩
    have hd := hN m hm
    rw [Real.dist_eq, sub_zero] at hd
    have hd := (le_abs_self _).trans_lt hd
    have hD : ‖(s (m + 1)).2 - (s m).2‖ ≤ ε / (K + 1) := by
      refine (pi_norm_le_iff_of_nonneg (by positivity)).mpr fun y => ?_
      have := (hf m).2.2.2.1 y
      have h4 : ((s (m + 1)).2 y - (s m).2 y) ^ 2 ≤ (ε / (K + 1)) ^ 2 := le_of_mul_le_mul_left (by linarith) hc
      exact abs_le_of_sq_le_sq h4 (by positivity)
    have e2 : (s (m + 1)).1 - (s m).1 = A *ᵥ ((s (m + 1)).2 - (s m).2) := by rw [(hf m).1]; simp
    rw [e2]
    calc _ ≤ K * ‖(s (m + 1)).2 - (s m).2‖ := h2 _
      _ ≤ K * (ε / (K + 1)) := by gcongr
      _ ≤ (K + 1) * (ε / (K + 1)) := by gcongr; linarith
      _ = ε := by field_simp
  obtain ⟨K1, k1, hK1⟩ := passes_near hA
  obtain ⟨K2, k2, hK2⟩ := near_near hA
  have hnear : ∀ ε > 0, ∃ N, ∀ m ≥ N, Near law ε (s m) := by
    intro ε hε
    obtain ⟨N, hN⟩ := hsmall (ε / (K1 + 1)) (by positivity)
    refine ⟨N + 1, fun m hm => ?_⟩
    obtain ⟨m, rfl⟩ := Nat.exists_eq_add_of_le' (show 1 ≤ m by omega)
    intro i
    obtain ⟨w, hw, hk⟩ := hK1 hh hn hl (hs m) i
    refine ⟨w, hw, fun k => (hk k).trans ?_⟩
    calc _ ≤ K1 * (ε / (K1 + 1)) := by gcongr; exact hN m (by omega)
      _ ≤ (K1 + 1) * (ε / (K1 + 1)) := by gcongr; linarith
      _ = ε := by field_simp
  have hcau : CauchySeq fun m => (s m).2 := by
    refine Metric.cauchySeq_iff.mpr fun ε hε => ?_
    obtain ⟨N, hN⟩ := hnear (ε / (4 * (K2 + 1))) (by positivity)
    refine ⟨N, fun m hm n' hn' => ?_⟩
    have := (hK2 hh ((hv m).trans (hv n').symm) (by positivity) (by positivity) (hN m hm) (hN n' hn')).1
    rw [dist_eq_norm]
    refine this.trans_lt ?_
    have e : K2 * (ε / (4 * (K2 + 1)) + ε / (4 * (K2 + 1))) = (K2 / (K2 + 1)) * (ε / 2) := by field_simp; ring
    rw [e]
    have : K2 / (K2 + 1) ≤ 1 := (div_le_one (by positivity)).mpr (by linarith)
    nlinarith
  obtain ⟨f, hf2⟩ := cauchySeq_tendsto_of_complete hcau
  set v0 := (s 0).1 - A *ᵥ (s 0).2
  have hu : Tendsto (fun m => (s m).1) atTop (𝓝 (v0 + A *ᵥ f)) := by
    have e : (fun m => (s m).1) = fun m => v0 + A *ᵥ (s m).2 := by
      funext m
      rw [← hv m]
      abel
    rw [e]
    have hcont : Continuous fun x : (Σ i, κ i) → ℝ => v0 + A *ᵥ x := by fun_prop
    exact (hcont.tendsto f).comp hf2
  refine ⟨(v0 + A *ᵥ f, f), fun i => ?_, by simp, hu.prodMk_nhds hf2⟩
  -- the law holds in the limit
  suffices hm : ((block (v0 + A *ᵥ f) i, block f i) : (κ i → ℝ) × (κ i → ℝ)) ∈ {x : (κ i → ℝ) × (κ i → ℝ) | law i x.1 x.2} from hm
  refine (hcl i).closure_subset (Metric.mem_closure_iff.mpr fun ε hε => ?_)
  obtain ⟨N1, hN1⟩ := hnear (ε / 4) (by positivity)
  obtain ⟨N2, hN2⟩ := Metric.tendsto_atTop.mp hu (ε / 4) (by positivity)
  obtain ⟨N3, hN3⟩ := Metric.tendsto_atTop.mp hf2 (ε / 4) (by positivity)
  set m := max N1 (max N2 N3)
  obtain ⟨w, hw, hk⟩ := hN1 m (by omega) i
  refine ⟨(w, block (s m).2 i), hw, ?_⟩
  have d1 : dist (block (v0 + A *ᵥ f) i) w ≤ ε / 2 := by
    refine (dist_pi_le_iff (by positivity)).mpr fun k => ?_
    have a := (dist_le_pi_dist (s m).1 (v0 + A *ᵥ f) ⟨i, k⟩).trans (hN2 m (by omega)).le
    have b := hk k
    rw [Real.dist_eq] at a ⊢
    change |(v0 + A *ᵥ f) ⟨i, k⟩ - w k| ≤ _
    rw [abs_le] at a b ⊢
    constructor <;> linarith [a.1, a.2, b.1, b.2]
  have d2 : dist (block f i) (block (s m).2 i) ≤ ε / 2 := by
    refine (dist_pi_le_iff (by positivity)).mpr fun k => ?_
    have a := (dist_le_pi_dist (s m).2 f ⟨i, k⟩).trans (hN3 m (by omega)).le
    rw [dist_comm] at a
    exact a.trans (by linarith)
  rw [Prod.dist_eq]
  exact (max_le d1 d2).trans_lt (by linarith)

end Arboris.BlockGS
