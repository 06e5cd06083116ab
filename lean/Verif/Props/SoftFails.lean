import Verif.Model.SoftFinger
import Verif.Props.Contact
import Verif.Proofs.GaussSeidel

/-!
# C122: when `SoftFingerContact.solve` raises
-/

namespace Arboris
open Matrix Spec

/-- the friction law: `f` = (torsional moment, tangential force, normal force) is in the ellipsoid of radii `eps` and coefficient `mu` -/
def Spec.FrictionLaw (eps : Vec3) (mu : ℝ) (f : Vec4) : Prop :=
  (f 0 / eps 0) ^ 2 + (f 1 / eps 1) ^ 2 + (f 2 / eps 2) ^ 2 ≤ (f 3 * mu) ^ 2

lemma softS_nonpos (B : Mat6) : softS B ≤ 0 := by
  rw [softS]
  split_ifs with he
  · apply max_le _ (by norm_num)
    obtain ⟨l, hl1, hl2⟩ := he
    by_cases hb : BddBelow {l | IsEigval B l ∧ l ≤ 0}
    · exact (csInf_le hb ⟨hl1, hl2⟩).trans hl2
    · rw [Real.sInf_of_not_bddBelow hb]
  · norm_num

lemma pd_diag {k : ℕ} {Y : Matrix (Fin k) (Fin k) ℝ} (hY : SymPD Y) (i : Fin k) : 0 < Y i i := by
  have h := hY.2 (Pi.single i 1) (by intro h; simpa using congrFun h i)
  simpa using h

/-- C122.  `softSolve`, which the sweeps of the model use, is what `solve` returns when it does not raise. -/
theorem C122_same {pinv : Matrix (Fin 4) (Fin 4) ℝ → Matrix (Fin 4) (Fin 4) ℝ} {eps : Vec3} {mu sdist : ℝ} {force vel : Vec4}
    {Y : Matrix (Fin 4) (Fin 4) ℝ} {dt : ℝ} {r : Vec4 × Vec4} (h : softSolveE pinv eps mu sdist force vel Y dt = .ok r) :
    softSolve pinv eps mu sdist force vel Y dt = r := by
  unfold softSolveE at h
  unfold softSolve
  dsimp only at h ⊢
  split_ifs at h ⊢ <;> first | exact Except.ok.inj h | exact absurd h (by simp)

/-- C122.  With a symmetric positive definite admittance, `solve` raises (`LinAlgError`, from `eigvals`) in two cases and no other: the friction
coefficient is zero, or the velocity the bodies would have without the contact closes the gap exactly; and the force which would stop the
relative motion does not respect the friction law. -/
theorem C122_iff {pinv : Matrix (Fin 4) (Fin 4) ℝ → Matrix (Fin 4) (Fin 4) ℝ} {eps : Vec3} {mu sdist : ℝ} {force vel : Vec4}
    {Y : Matrix (Fin 4) (Fin 4) ℝ} {dt : ℝ} (hp : IsPinv Y (pinv Y)) (hY : SymPD Y) (hdt : 0 < dt) (e : PyErr) :
    softSolveE pinv eps mu sdist force vel Y dt = .error e ↔
      e = .linAlgError ∧ (sdist + dt * (vel - Y *ᵥ force) 3 = 0 ∨ sdist + dt * (vel - Y *ᵥ force) 3 < 0 ∧ mu = 0) ∧
        ∀ f, vel - Y *ᵥ force + Y *ᵥ f = -Pi.single 3 (sdist / dt) → ¬ FrictionLaw eps mu f := by
  have hdet := BlockGS.pd_det hY
  obtain ⟨hYP, hPY⟩ := IsPinv.eq_inv hp hdet
  have hyn := pd_diag hY 3
  set fs : Vec4 := force + (-(pinv Y)) *ᵥ (vel + Pi.single 3 (sdist / dt)) with hfs
  have hstop : ∀ f, vel - Y *ᵥ force + Y *ᵥ f = -Pi.single 3 (sdist / dt) ↔ f = fs := by
    intro f
    constructor
    · intro h
      have h1 : Y *ᵥ f = Y *ᵥ force - (vel + Pi.single 3 (sdist / dt)) := by
        rw [sub_add_eq_add_sub, sub_eq_iff_eq_add, add_comm vel] at h
        rw [eq_sub_iff_add_eq]
        calc Y *ᵥ f + (vel + Pi.single 3 (sdist / dt)) = (Y *ᵥ f + vel) + Pi.single 3 (sdist / dt) := by abel
          _ = _ := by rw [h]; abel
      calc f = (pinv Y * Y) *ᵥ f := by rw [hPY, Matrix.one_mulVec]
        _ = pinv Y *ᵥ (Y *ᵥ f) := by rw [Matrix.mulVec_mulVec]
        _ = fs := by
          rw [h1, Matrix.mulVec_sub, Matrix.mulVec_mulVec, hPY, Matrix.one_mulVec, hfs, Matrix.neg_mulVec, sub_eq_add_neg]
    · rintro rfl
      rw [hfs, Matrix.mulVec_add, Matrix.mulVec_mulVec, Matrix.mul_neg, hYP, Matrix.neg_mulVec, Matrix.one_mulVec]
      abel
  have hall : (∀ f, vel - Y *ᵥ force + Y *ᵥ f = -Pi.single 3 (sdist / dt) → ¬ FrictionLaw eps mu f) ↔ ¬ FrictionLaw eps mu fs :=
    ⟨fun h => h fs ((hstop fs).mpr rfl), fun h f hf => by rw [(hstop f).mp hf]; exact h⟩
  rw [hall]
  have hal : (vel - Y *ᵥ force + Pi.single 3 (sdist / dt) : Vec4) 3 = (sdist + dt * (vel - Y *ᵥ force) 3) / dt := by
    simp only [Pi.add_apply, Pi.single_eq_same]
    field_simp
    ring
  unfold softSolveE
  dsimp only
  rw [← hfs]
  split_ifs with h1 h2 h3 h4 h5
  · simp only [reduceCtorEq, false_iff]
    rintro ⟨-, h | ⟨h, -⟩, -⟩ <;> linarith
  · simp only [reduceCtorEq, false_iff]
    exact fun h => h.2.2 h2
  · exact absurd h3 hyn.ne'
  · have h4' : sdist + dt * (vel - Y *ᵥ force) 3 = 0 ∨ sdist + dt * (vel - Y *ᵥ force) 3 < 0 ∧ mu = 0 := by
      rw [hal] at h4
      rcases mul_eq_zero.mp h4 with h | h
      · have hmu : mu = 0 := by rcases div_eq_zero_iff.mp h with h | h; exacts [h, absurd h h3]
        rcases (not_lt.mp h1).lt_or_eq with h' | h'
        exacts [Or.inr ⟨h', hmu⟩, Or.inl h']
      · rcases div_eq_zero_iff.mp h with h | h
        exacts [Or.inl h, absurd h hdt.ne']
    constructor
    · intro h
      exact ⟨(Except.error.inj h).symm, h4', h2⟩
    · rintro ⟨rfl, -, -⟩; rfl
  · exact absurd h5 ((C42_invertible (eps := eps) hY).2 _ (softS_nonpos _))
  · simp only [reduceCtorEq, false_iff]
    rintro ⟨-, h, -⟩
    apply h4
    rw [hal]
    rcases h with h | ⟨-, h⟩
    · rw [h]; simp
    · rw [h]; simp

/-- C122, the claim: with a symmetric positive definite admittance, a contact with friction is always solved. -/
def C122_Claim : Prop :=
  ∀ (pinv : Matrix (Fin 4) (Fin 4) ℝ → Matrix (Fin 4) (Fin 4) ℝ) (eps : Vec3) (mu sdist : ℝ) (force vel : Vec4) (Y : Matrix (Fin 4) (Fin 4) ℝ) (dt : ℝ),
    IsPinv Y (pinv Y) → SymPD Y → (∀ i, 0 < eps i) → 0 ≤ mu → 0 < dt → ∃ r, softSolveE pinv eps mu sdist force vel Y dt = .ok r

/-- C122, what holds: a contact with a friction coefficient which is not zero, in which the bodies would interpenetrate or stay apart without the
contact, is solved. -/
theorem C122_answers_partial {pinv : Matrix (Fin 4) (Fin 4) ℝ → Matrix (Fin 4) (Fin 4) ℝ} {eps : Vec3} {mu sdist : ℝ} {force vel : Vec4}
    {Y : Matrix (Fin 4) (Fin 4) ℝ} {dt : ℝ} (hp : IsPinv Y (pinv Y)) (hY : SymPD Y) (hdt : 0 < dt) (hmu : mu ≠ 0)
    (hgap : sdist + dt * (vel - Y *ᵥ force) 3 ≠ 0) : ∃ r, softSolveE pinv eps mu sdist force vel Y dt = .ok r := by
  cases h : softSolveE pinv eps mu sdist force vel Y dt with
  | ok r => exact ⟨r, rfl⟩
  | error e =>
    obtain ⟨-, h1 | ⟨-, h1⟩, -⟩ := (C122_iff hp hY hdt e).mp h
    exacts [absurd h1 hgap, absurd h1 hmu]

/-- C122: a frictionless contact raises as soon as the bodies touch, unless they can be stopped by a normal force. -/
theorem C122_frictionless {pinv : Matrix (Fin 4) (Fin 4) ℝ → Matrix (Fin 4) (Fin 4) ℝ} {eps : Vec3} (heps : ∀ i, eps i ≠ 0) {sdist : ℝ} {force vel : Vec4}
    {Y : Matrix (Fin 4) (Fin 4) ℝ} {dt : ℝ} (hp : IsPinv Y (pinv Y)) (hY : SymPD Y) (hdt : 0 < dt)
    (htouch : sdist + dt * (vel - Y *ᵥ force) 3 ≤ 0) :
    softSolveE pinv eps 0 sdist force vel Y dt = .error .linAlgError ↔
      ¬ ∃ a, vel - Y *ᵥ force + Y *ᵥ Pi.single 3 a = -Pi.single 3 (sdist / dt) := by
  rw [C122_iff hp hY hdt]
  have hlaw : ∀ f : Vec4, FrictionLaw eps 0 f ↔ f = Pi.single 3 (f 3) := by
    intro f
    rw [FrictionLaw, mul_zero]
    constructor
    · intro h
      have h0 : f 0 / eps 0 = 0 := by nlinarith [sq_nonneg (f 0 / eps 0), sq_nonneg (f 1 / eps 1), sq_nonneg (f 2 / eps 2)]
      have h1 : f 1 / eps 1 = 0 := by nlinarith [sq_nonneg (f 0 / eps 0), sq_nonneg (f 1 / eps 1), sq_nonneg (f 2 / eps 2)]
      have h2 : f 2 / eps 2 = 0 := by nlinarith [sq_nonneg (f 0 / eps 0), sq_nonneg (f 1 / eps 1), sq_nonneg (f 2 / eps 2)]
      have k0 := (div_eq_zero_iff.mp h0).resolve_right (heps 0)
      have k1 := (div_eq_zero_iff.mp h1).resolve_right (heps 1)
      have k2 := (div_eq_zero_iff.mp h2).resolve_right (heps 2)
      funext i
      fin_cases i <;> simp [k0, k1, k2]
    · intro h
      have k0 := congrFun h 0
      have k1 := congrFun h 1
      have k2 := congrFun h 2
      simp at k0 k1 k2
      rw [k0, k1, k2]; simp
  constructor
  · rintro ⟨-, -, h⟩ ⟨a, ha⟩
    exact h _ ha ((hlaw _).mpr (by simp))
  · intro h
    refine ⟨rfl, ?_, fun f hf hl => h ⟨f 3, ?_⟩⟩
    · rcases htouch.lt_or_eq with h' | h'
      exacts [Or.inr ⟨h', rfl⟩, Or.inl h']
    · rw [← (hlaw f).mp hl]; exact hf

private lemma one_pd : SymPD (1 : Matrix (Fin 4) (Fin 4) ℝ) :=
  ⟨Matrix.transpose_one, fun x hx => by
    rw [Matrix.one_mulVec]
    exact lt_of_le_of_ne (by simpa [dotProduct] using Finset.sum_nonneg fun i _ => mul_self_nonneg (x i)) fun h => hx (dotProduct_self_eq_zero.mp h.symm)⟩

private lemma one_pinv : IsPinv (1 : Matrix (Fin 4) (Fin 4) ℝ) 1 := ⟨by simp, by simp, by simp, by simp⟩

/-- the hypotheses of `C122_iff`, `C122_frictionless` and `C122_answers_partial` are met -/
example : softSolveE id 1 0 0 0 ![0, 1, 0, -1] 1 1 = .error .linAlgError := by
  rw [C122_frictionless (by simp) (by exact one_pinv) one_pd one_pos (by simp)]
  rintro ⟨a, h⟩
  simpa using congrFun h 1

example : ∃ r, softSolveE id 1 1 0 0 ![0, 1, 0, -1] 1 1 = .ok r :=
  C122_answers_partial (by exact one_pinv) one_pd one_pos one_ne_zero (by simp)

/-- C122, false as stated even when the friction coefficient is not zero: two bodies touch exactly and slide along each other, no force
pushing them together. -/
theorem C122_false : ¬ C122_Claim := by
  intro h
  obtain ⟨r, hr⟩ := h id 1 1 0 0 ![0, 1, 0, 0] 1 1 one_pinv one_pd (by simp) zero_le_one one_pos
  have he : softSolveE id 1 1 0 0 ![0, 1, 0, 0] 1 1 = .error .linAlgError := by
    rw [C122_iff (by exact one_pinv) one_pd one_pos]
    refine ⟨rfl, Or.inl (by simp), fun f hf => ?_⟩
    have k1 := congrFun hf 1
    have k3 := congrFun hf 3
    simp at k1 k3
    have k1' : f 1 = -1 := by linarith
    rw [FrictionLaw, k3, k1']
    simp
    positivity
  rw [he] at hr
  exact absurd hr (by simp)

end Arboris
