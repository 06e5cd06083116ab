import Verif.Props.Drop
import Verif.Props.PDSettle

/-!
# C120: the ball does not go through the ground, and comes to rest
-/

namespace Arboris
open Matrix Spec Mech Build Sim

lemma bounce_above {γ near dt : ℝ} (hdt : 0 < dt) (hstep : -γ * dt ^ 2 ≤ near) {x : ℝ × ℝ} (hx : 0 ≤ x.1) : 0 ≤ (bounce γ near dt x).1 := by
  unfold bounce
  split_ifs with h
  · exact le_refl 0
  · simp only
    by_contra hneg
    push Not at hneg h
    have := mt h
    have h1 : ¬ x.1 + dt * x.2 < near := fun h2 => absurd (h h2) (not_lt.mpr hneg.le)
    nlinarith

/-- steps between `h` and `H` -/
def Spec.StepsIn (h H : ℝ) : List ℝ → Prop
  | t :: t' :: ts => (h ≤ t' - t ∧ t' - t ≤ H) ∧ StepsIn h H (t' :: ts)
  | _ => True

lemma fall_above {γ near H : ℝ} (hγ : γ ≤ 0) (hH : -γ * H ^ 2 ≤ near) (tl : List ℝ) (hinc : tl.Pairwise (· < ·)) (hst : StepsIn 0 H tl) {x : ℝ × ℝ} (hx : 0 ≤ x.1) :
    0 ≤ (fall γ near tl x).1 := by
  induction tl generalizing x with
  | nil => exact hx
  | cons t rest ih =>
    cases rest with
    | nil => exact hx
    | cons t' ts =>
      obtain ⟨h1, h2⟩ := List.pairwise_cons.mp hinc
      have hdt : 0 < t' - t := sub_pos.mpr (h1 t' (by simp))
      obtain ⟨⟨-, h4⟩, h5⟩ := hst
      refine ih h2 h5 (bounce_above hdt ?_ hx)
      have : (t' - t) ^ 2 ≤ H ^ 2 := pow_le_pow_left₀ hdt.le h4 2
      nlinarith

lemma bounce_rest {γ near dt : ℝ} (hγ : γ < 0) (hnear : 0 < near) (hdt : 0 < dt) {v : ℝ} (hv : v ≤ 0) : bounce γ near dt (0, v) = (0, 0) := by
  have h1 : dt * v ≤ 0 := mul_nonpos_of_nonneg_of_nonpos hdt.le hv
  have h2 : dt * γ < 0 := mul_neg_of_pos_of_neg hdt hγ
  unfold bounce
  rw [if_pos]
  · simp
  · simp only
    constructor
    · linarith
    · nlinarith [mul_neg_of_pos_of_neg hdt h2]

lemma fall_rest {γ near : ℝ} (hγ : γ < 0) (hnear : 0 < near) (tl : List ℝ) (hinc : tl.Pairwise (· < ·)) : fall γ near tl (0, 0) = (0, 0) := by
  induction tl with
  | nil => rfl
  | cons t rest ih =>
    cases rest with
    | nil => rfl
    | cons t' ts =>
      obtain ⟨h1, h2⟩ := List.pairwise_cons.mp hinc
      have hdt : 0 < t' - t := sub_pos.mpr (h1 t' (by simp))
      rw [fall, bounce_rest hγ hnear hdt le_rfl]
      exact ih h2

/-- after one step on the ground the ball is at rest -/
lemma fall_grounded {γ near : ℝ} (hγ : γ < 0) (hnear : 0 < near) (tl : List ℝ) (hinc : tl.Pairwise (· < ·)) (hlen : 2 ≤ tl.length) {v : ℝ} (hv : v ≤ 0) :
    fall γ near tl (0, v) = (0, 0) := by
  match tl, hlen with
  | t :: t' :: ts, _ =>
    obtain ⟨h1, h2⟩ := List.pairwise_cons.mp hinc
    have hdt : 0 < t' - t := sub_pos.mpr (h1 t' (by simp))
    rw [fall, bounce_rest hγ hnear hdt hv]
    exact fall_rest hγ hnear _ h2

/-- the ball goes down: it lands -/
lemma fall_down {γ near h H : ℝ} (hγ : γ < 0) (hh : 0 < h) (hnear : 0 < near) (hH : -γ * H ^ 2 ≤ near) (N : ℕ) :
    ∀ (tl : List ℝ), tl.Pairwise (· < ·) → StepsIn h H tl → N + 4 ≤ tl.length → ∀ x : ℝ × ℝ, 0 ≤ x.1 → x.1 ≤ N * (-γ * h ^ 2) → x.2 ≤ 0 → fall γ near tl x = (0, 0) := by
  induction N with
  | zero =>
    intro tl hinc hst hlen x h0 h1 h2
    have hz : x.1 = 0 := by
      simp only [Nat.cast_zero, zero_mul] at h1
      linarith
    have : x = (0, x.2) := Prod.ext hz rfl
    rw [this]
    exact fall_grounded hγ hnear tl hinc (by omega) h2
  | succ N ih =>
    intro tl hinc hst hlen x h0 h1 h2
    match tl, hlen with
    | t :: t' :: ts, hlen =>
      obtain ⟨k1, k2⟩ := List.pairwise_cons.mp hinc
      have hdt : 0 < t' - t := sub_pos.mpr (k1 t' (by simp))
      obtain ⟨⟨k3, k4⟩, k5⟩ := hst
      have habove : 0 ≤ (bounce γ near (t' - t) x).1 := bounce_above hdt (by
        have : (t' - t) ^ 2 ≤ H ^ 2 := pow_le_pow_left₀ hdt.le k4 2
        nlinarith) h0
      rw [fall]
      by_cases hc : x.1 + (t' - t) * x.2 < near ∧ x.1 + (t' - t) * (x.2 + (t' - t) * γ) ≤ 0
      · have hb : bounce γ near (t' - t) x = (0, -x.1 / (t' - t)) := by unfold bounce; rw [if_pos hc]
        rw [hb]
        refine fall_grounded hγ hnear _ k2 ?_ ?_
        · simp only [List.length_cons] at hlen ⊢; omega
        · exact div_nonpos_of_nonpos_of_nonneg (by linarith) hdt.le
      · have hb : bounce γ near (t' - t) x = (x.1 + (t' - t) * (x.2 + (t' - t) * γ), x.2 + (t' - t) * γ) := by unfold bounce; rw [if_neg hc]
        have m1 : (t' - t) * γ ≤ 0 := mul_nonpos_of_nonneg_of_nonpos hdt.le hγ.le
        have m2 : (t' - t) * x.2 ≤ 0 := mul_nonpos_of_nonneg_of_nonpos hdt.le h2
        have m3 : h ^ 2 ≤ (t' - t) ^ 2 := pow_le_pow_left₀ hh.le k3 2
        refine ih (t' :: ts) k2 k5 ?_ _ habove ?_ ?_
        · simp only [List.length_cons] at hlen ⊢; omega
        · rw [hb]
          push_cast at h1 ⊢
          nlinarith
        · rw [hb]
          simp only
          linarith

/-- the ball goes up, then down: it lands -/
lemma fall_lands {γ near h H : ℝ} (hγ : γ < 0) (hh : 0 < h) (hnear : 0 < near) (hH : -γ * H ^ 2 ≤ near) (K : ℕ) :
    ∀ Z : ℝ, ∃ N : ℕ, ∀ (tl : List ℝ), tl.Pairwise (· < ·) → StepsIn h H tl → N ≤ tl.length → ∀ x : ℝ × ℝ, 0 ≤ x.1 → x.1 ≤ Z → x.2 ≤ K * (-γ * h) → fall γ near tl x = (0, 0) := by
  induction K with
  | zero =>
    intro Z
    have hpos : 0 < -γ * h ^ 2 := by have := pow_pos hh 2; nlinarith
    obtain ⟨N, hN⟩ := exists_nat_ge (Z / (-γ * h ^ 2))
    refine ⟨N + 4, fun tl hinc hst hlen x h0 h1 h2 => fall_down hγ hh hnear hH N tl hinc hst hlen x h0 ?_ (by simpa using h2)⟩
    rw [div_le_iff₀ hpos] at hN
    linarith
  | succ K ih =>
    intro Z
    obtain ⟨N, hN⟩ := ih (Z + H * ((K + 1 : ℕ) * (-γ * h)))
    refine ⟨max (N + 1) 4, fun tl hinc hst hlen x h0 h1 h2 => ?_⟩
    have l1 : N + 1 ≤ tl.length := le_trans (le_max_left _ _) hlen
    have l2 : 4 ≤ tl.length := le_trans (le_max_right _ _) hlen
    match tl, l1, l2 with
    | t :: t' :: ts, l1, l2 =>
      obtain ⟨k1, k2⟩ := List.pairwise_cons.mp hinc
      have hdt : 0 < t' - t := sub_pos.mpr (k1 t' (by simp))
      obtain ⟨⟨k3, k4⟩, k5⟩ := hst
      have habove : 0 ≤ (bounce γ near (t' - t) x).1 := bounce_above hdt (by
        have : (t' - t) ^ 2 ≤ H ^ 2 := pow_le_pow_left₀ hdt.le k4 2
        nlinarith) h0
      have hV : (0 : ℝ) ≤ (K + 1 : ℕ) * (-γ * h) := by
        have : 0 < -γ * h := by nlinarith
        positivity
      have hHp : 0 < H := lt_of_lt_of_le hdt k4
      rw [fall]
      by_cases hc : x.1 + (t' - t) * x.2 < near ∧ x.1 + (t' - t) * (x.2 + (t' - t) * γ) ≤ 0
      · have hb : bounce γ near (t' - t) x = (0, -x.1 / (t' - t)) := by unfold bounce; rw [if_pos hc]
        rw [hb]
        refine fall_grounded hγ hnear _ k2 ?_ ?_
        · simp only [List.length_cons] at l2 ⊢; omega
        · exact div_nonpos_of_nonpos_of_nonneg (by linarith) hdt.le
      · have hb : bounce γ near (t' - t) x = (x.1 + (t' - t) * (x.2 + (t' - t) * γ), x.2 + (t' - t) * γ) := by unfold bounce; rw [if_neg hc]
        have m1 : (t' - t) * γ ≤ h * γ := mul_le_mul_of_nonpos_right k3 hγ.le
        refine hN (t' :: ts) k2 k5 ?_ _ habove ?_ ?_
        · simp only [List.length_cons] at l1 ⊢; omega
        · rw [hb]
          simp only
          have m2 : x.2 + (t' - t) * γ ≤ (K + 1 : ℕ) * (-γ * h) := by
            have : h * γ ≤ 0 := mul_nonpos_of_nonneg_of_nonpos hh.le hγ.le
            linarith
          have m3 : (t' - t) * (x.2 + (t' - t) * γ) ≤ (t' - t) * ((K + 1 : ℕ) * (-γ * h)) := mul_le_mul_of_nonneg_left m2 hdt.le
          have m4 : (t' - t) * ((K + 1 : ℕ) * (-γ * h)) ≤ H * ((K + 1 : ℕ) * (-γ * h)) := mul_le_mul_of_nonneg_right k4 hV
          linarith
        · rw [hb]
          push_cast at h2
          simp only
          linarith

lemma lastReaction_append {m γ near : ℝ} (l : List ℝ) (t t' : ℝ) (x : ℝ × ℝ) :
    lastReaction m γ near (l ++ [t, t']) x = reaction m γ near (t' - t) (fall γ near (l ++ [t]) x) := by
  induction l generalizing x with
  | nil => rfl
  | cons a l ih =>
    cases l with
    | nil => exact ih (bounce γ near (t - a) x)
    | cons b l =>
      have := ih (bounce γ near (b - a) x)
      cases l with
      | nil => exact this
      | cons d l => exact this

lemma reaction_rest {m γ near dt : ℝ} (hγ : γ < 0) (hnear : 0 < near) (hdt : 0 < dt) : reaction m γ near dt (0, 0) = m * -γ := by
  have := mul_neg_of_pos_of_neg hdt (mul_neg_of_pos_of_neg hdt hγ)
  rw [reaction, if_pos]
  · simp
  · constructor <;> simp <;> linarith

lemma stepsIn_prefix {h H : ℝ} (l l' : List ℝ) (hst : StepsIn h H (l ++ l')) : StepsIn h H l := by
  induction l with
  | nil => trivial
  | cons a l ih =>
    cases l with
    | nil => trivial
    | cons b l => exact ⟨hst.1, ih hst.2⟩

section
variable {S : BallSetup} {p : TouchParams} {sort : Vec3 → Equiv.Perm (Fin 3)}

/-- C120, full statement: the ball never goes through the ground, whatever the steps. -/
def C120_Claim : Prop :=
  ∀ {S : BallSetup} {p : TouchParams} {sort : Vec3 → Equiv.Perm (Fin 3)}, (∀ z, IsArgsortAbs z (sort z)) → p.collide = planeSphereShapes sort 1 S.up S.d 1 S.r →
    (∀ A, A.det ≠ 0 → IsPinv A (p.pinv A)) → 0 < p.proximity → ∀ {γ : ℝ}, γ < 0 → ∀ {x : ℝ × ℝ} {w : MWorld 6 Unit}, BallAt S p x w → 0 ≤ x.1 →
    ∀ {tl : List ℝ}, tl ≠ [] → tl.Pairwise (· < ·) → ∀ k : ℕ,
    ∃ tr w' t' y, simulate (touchEngine 6 S.up [.weight γ] p none (some 0)) w tl (.list k) = (tr, .ok (w', t')) ∧ BallAt S p y w' ∧ 0 ≤ y.1

/-- C120.  It does not when no step `dt` is longer than `H`, with `|γ| H² ≤ proximity`: from any height above the ground and any vertical
speed, on any such timeline. -/
theorem C120_above_partial (hs : ∀ z, IsArgsortAbs z (sort z)) (hcol : p.collide = planeSphereShapes sort 1 S.up S.d 1 S.r)
    (hp : ∀ A, A.det ≠ 0 → IsPinv A (p.pinv A)) {γ : ℝ} (hγ : γ ≤ 0) {H : ℝ} (hH : -γ * H ^ 2 ≤ p.proximity) {x : ℝ × ℝ}
    {w : MWorld 6 Unit} (hw : BallAt S p x w) (hx : 0 ≤ x.1) {tl : List ℝ} (htl : tl ≠ []) (hinc : tl.Pairwise (· < ·)) (hst : StepsIn 0 H tl) (k : ℕ) :
    ∃ tr w' t' y, simulate (touchEngine 6 S.up [.weight γ] p none (some 0)) w tl (.list k) = (tr, .ok (w', t')) ∧ BallAt S p y w' ∧ 0 ≤ y.1 := by
  obtain ⟨tr, w', t', h1, -, h2, -⟩ := C120_run (S := S) (p := p) hs hcol hp γ hw htl hinc k
  exact ⟨tr, w', t', _, h1, h2, fall_above hγ hH tl hinc hst hx⟩

/-- C120.  Under the same condition, and if the steps are not shorter than some `h > 0`, the ball comes to rest on the ground: after a number `N` of
steps, that depends on its initial height and speed, it is on the ground with zero velocity; the contact carries its weight, and no
friction. -/
theorem C120_rests_partial (hs : ∀ z, IsArgsortAbs z (sort z)) (hcol : p.collide = planeSphereShapes sort 1 S.up S.d 1 S.r)
    (hp : ∀ A, A.det ≠ 0 → IsPinv A (p.pinv A)) (hprox : 0 < p.proximity) {γ : ℝ} (hγ : γ < 0) {h H : ℝ} (hh : 0 < h) (hH : -γ * H ^ 2 ≤ p.proximity) {x : ℝ × ℝ}
    {w : MWorld 6 Unit} (hw : BallAt S p x w) (hx : 0 ≤ x.1) :
    ∃ N, ∀ {tl : List ℝ}, tl.Pairwise (· < ·) → StepsIn h H tl → N ≤ tl.length → ∀ k : ℕ,
      ∃ tr w' t', simulate (touchEngine 6 S.up [.weight γ] p none (some 0)) w tl (.list k) = (tr, .ok (w', t')) ∧ BallAt S p (0, 0) w' ∧
        ∃ s : TouchState 6, w'.cons = [⟨softContact 6 p, s⟩] ∧ s.force = Pi.single 3 (S.m * -γ) := by
  have hpos : 0 < -γ * h := by nlinarith
  obtain ⟨K, hK⟩ := exists_nat_ge (x.2 / (-γ * h))
  rw [div_le_iff₀ hpos] at hK
  obtain ⟨N, hN⟩ := fall_lands hγ hh hprox hH K x.1
  refine ⟨N + 2, fun {tl} hinc hst hlen k => ?_⟩
  have htl : tl ≠ [] := by
    intro h0
    rw [h0] at hlen
    simp at hlen
  obtain ⟨tr, w', t', h1, -, h2, h3⟩ := C120_run (S := S) (p := p) hs hcol hp γ hw htl hinc k
  rw [hN tl hinc hst (by omega) x hx le_rfl hK] at h2
  refine ⟨tr, w', t', h1, h2, ?_⟩
  obtain ⟨s, h4, h5⟩ := h3 (by omega)
  refine ⟨s, h4, ?_⟩
  rw [h5]
  congr 1
  obtain ⟨l, b, rfl⟩ : ∃ l b, tl = l ++ [b] := ⟨_, _, (List.dropLast_append_getLast htl).symm⟩
  have hl : l ≠ [] := by
    intro h0
    rw [h0] at hlen
    simp at hlen
  obtain ⟨l, a, rfl⟩ : ∃ l' a, l = l' ++ [a] := ⟨_, _, (List.dropLast_append_getLast hl).symm⟩
  have hab : 0 < b - a := by
    have := (List.pairwise_append.mp hinc).2.2 a (by simp) b (by simp)
    linarith
  have hpre := hN (l ++ [a]) (List.pairwise_append.mp hinc).1 (stepsIn_prefix _ _ hst) (by simp at hlen ⊢; omega) x hx le_rfl hK
  rw [List.append_assoc]
  change lastReaction S.m γ p.proximity (l ++ [a, b]) x = _
  rw [lastReaction_append, hpre, reaction_rest hγ hprox hab]

/-- C120.  A ball found below the ground, not going up, is thrown out: at the end of the step it is on the ground, going up at the speed depth / `dt`. -/
theorem C120_thrown (hs : ∀ z, IsArgsortAbs z (sort z)) (hcol : p.collide = planeSphereShapes sort 1 S.up S.d 1 S.r)
    (hp : ∀ A, A.det ≠ 0 → IsPinv A (p.pinv A)) (hprox : 0 < p.proximity) {γ : ℝ} (hγ : γ ≤ 0) {x : ℝ × ℝ}
    {w : MWorld 6 Unit} (hw : BallAt S p x w) (hx : x.1 < 0) (hv : x.2 ≤ 0) {t t' : ℝ} (ht : t < t') (k : ℕ) :
    ∃ tr w', simulate (touchEngine 6 S.up [.weight γ] p none (some 0)) w [t, t'] (.list k) = (tr, .ok (w', t')) ∧ BallAt S p (0, -x.1 / (t' - t)) w' ∧ 0 < -x.1 / (t' - t) := by
  have hdt : 0 < t' - t := sub_pos.mpr ht
  obtain ⟨tr, w', t'', h1, h1', h2, -⟩ := C120_run (S := S) (p := p) hs hcol hp γ hw (tl := [t, t']) (by simp) (by simpa using ht) k
  have e : t' = t'' := by simpa using h1'
  subst e
  have hb : fall γ p.proximity [t, t'] x = (0, -x.1 / (t' - t)) := by
    simp only [fall, bounce]
    rw [if_pos]
    have a1 : (t' - t) * x.2 ≤ 0 := mul_nonpos_of_nonneg_of_nonpos hdt.le hv
    have a2 : (t' - t) * γ ≤ 0 := mul_nonpos_of_nonneg_of_nonpos hdt.le hγ
    have a3 : (t' - t) * ((t' - t) * γ) ≤ 0 := mul_nonpos_of_nonneg_of_nonpos hdt.le a2
    constructor
    · linarith
    · rw [mul_add]; linarith
  rw [hb] at h2
  exact ⟨tr, w', h1, h2, div_pos (by linarith) hdt⟩

/-- a ball of radius and mass 1, of unit inertia, above the plane z = 0 -/
noncomputable def unitBall : BallSetup where
  R := 1
  m := 1
  I := 1
  M := 1
  up := ![0, 0, 1]
  d := 0
  r := 1
  foot := ![0, 0, 1]
  rot := ⟨by simp, by simp, by simp⟩
  mass_pos := one_pos
  mass := ⟨Matrix.transpose_one, by simp [skew_zero, blk_one]⟩
  pd := by
    refine ⟨Matrix.transpose_one, fun x hx => ?_⟩
    rw [Matrix.one_mulVec]
    exact lt_of_le_of_ne (by simp only [dotProduct]; exact Finset.sum_nonneg fun i _ => mul_self_nonneg _) (fun h => hx (dotProduct_self_eq_zero.mp h.symm))
  unit := by simp [norm3]
  radius := zero_le_one
  touch := by simp [dotProduct, Fin.sum_univ_three]

/-- the contact that watches it: default proximity, friction coefficient 0.5 -/
noncomputable def unitTouch (sort : Vec3 → Equiv.Perm (Fin 3)) : TouchParams where
  pinv A := A⁻¹
  mu := 0.5
  collide := planeSphereShapes sort 1 ![0, 0, 1] 0 1 1

/-- the world of the ball at height `x.1` and of vertical speed `x.2` -/
noncomputable def ballWorld (S : BallSetup) (p : TouchParams) (x : ℝ × ℝ) : MWorld 6 Unit where
  tree := ballTree S x
  gvel := 0
  dyn := []
  mass := 0
  viscosity := 0
  nleffects := 0
  ctrl := ⟨0, 0, 0⟩
  mem := ()
  cons := [⟨softContact 6 p, ⟨true, groundDyn 6, groundDyn 6, 1, 1, 0, false, 0⟩⟩]

lemma ballWorld_at (S : BallSetup) (p : TouchParams) (x : ℝ × ℝ) : BallAt S p x (ballWorld S p x) := ⟨⟨0, rfl⟩, ⟨_, rfl, rfl⟩⟩

lemma inv_pinv (A : Matrix (Fin 4) (Fin 4) ℝ) (h : A.det ≠ 0) : IsPinv A A⁻¹ := by
  have h1 : A * A⁻¹ = 1 := Matrix.mul_nonsing_inv _ (isUnit_iff_ne_zero.mpr h)
  have h2 : A⁻¹ * A = 1 := Matrix.nonsing_inv_mul _ (isUnit_iff_ne_zero.mpr h)
  constructor <;> simp [h1, h2]

lemma ballAt_unique {S : BallSetup} {p : TouchParams} {x y : ℝ × ℝ} {w : MWorld 6 Unit} (hx : BallAt S p x w) (hy : BallAt S p y w) : x.1 = y.1 := by
  obtain ⟨s, hs⟩ := hx.tree
  obtain ⟨s', hs'⟩ := hy.tree
  rw [hs] at hs'
  injection hs' with h1 h2 h3 h4
  injection h1 with h5 h6 h7 h8
  injection h5 with h9 h10
  have := congrArg pos h9
  rw [pos_mkH, pos_mkH] at this
  have h11 : x.1 • S.up = y.1 • S.up := add_left_cancel this
  have := congrArg (fun a => S.up ⬝ᵥ a) h11
  simpa [dotProduct_smul, up_dot] using this

/-- C120, full statement, is false of the code: with steps of one second, and the default proximity of 2 cm, a ball at rest 5 m above the ground is 4.81 m below it
after one step; the contact was never active. -/
theorem C120_false : ¬ C120_Claim := by
  intro hC
  obtain ⟨sort, hs⟩ := C48_sort_exists
  have hw := ballWorld_at unitBall (unitTouch sort) (5, 0)
  have hinc : ([0, 1] : List ℝ).Pairwise (· < ·) := by simp
  obtain ⟨tr, w', t', y, h1, h2, h3⟩ := hC (S := unitBall) (p := unitTouch sort) hs rfl (fun A h => inv_pinv A h) (by norm_num [unitTouch]) (γ := -9.81) (by norm_num) hw (by norm_num)
    (tl := [0, 1]) (by simp) hinc 0
  obtain ⟨tr', w'', t'', k1, -, k2, -⟩ := C120_run (S := unitBall) (p := unitTouch sort) hs rfl (fun A h => inv_pinv A h) (-9.81) hw (tl := [0, 1]) (by simp) hinc 0
  have hb : fall (-9.81) (unitTouch sort).proximity [0, 1] (5, 0) = (-4.81, -9.81) := by
    simp only [fall, bounce]
    rw [if_neg]
    · norm_num
    · norm_num [unitTouch]
  rw [hb] at k2
  have e := h1.symm.trans k1
  have e' : w' = w'' := by
    have := (Prod.mk.inj e).2
    exact (Prod.mk.inj (Except.ok.inj this)).1
  subst e'
  have := ballAt_unique h2 k2
  norm_num at this
  linarith

/-- the hypotheses of `C120_rests_partial` are met by the same ball dropped from 5 m with steps of 10 ms -/
example : ∃ (sort : Vec3 → Equiv.Perm (Fin 3)) (w : MWorld 6 Unit), (∀ z, IsArgsortAbs z (sort z)) ∧
    (unitTouch sort).collide = planeSphereShapes sort 1 unitBall.up unitBall.d 1 unitBall.r ∧ (∀ A, A.det ≠ 0 → IsPinv A ((unitTouch sort).pinv A)) ∧
    0 < (unitTouch sort).proximity ∧ -(-9.81) * (0.01 : ℝ) ^ 2 ≤ (unitTouch sort).proximity ∧ BallAt unitBall (unitTouch sort) (5, 0) w ∧
    StepsIn 0.01 0.01 [0, 0.01, 0.02] := by
  obtain ⟨sort, hs⟩ := C48_sort_exists
  refine ⟨sort, _, hs, rfl, fun A h => inv_pinv A h, by norm_num [unitTouch], by norm_num [unitTouch], ballWorld_at _ _ _, ?_⟩
  norm_num [StepsIn]

/-- the hypotheses of `C119_contact` are met by the same ball on the ground: the contact is active, every relative velocity can be reached -/
example : ∃ (sort : Vec3 → Equiv.Perm (Fin 3)) (s : TouchState 6) (c : Collision), s.enabled = true ∧ Touching (unitTouch sort) s c ∧
    (s.body0.twist = s.body0.jac *ᵥ (0 : Vec6) ∧ s.body1.twist = s.body1.jac *ᵥ (0 : Vec6)) ∧ c.sdist + 0.01 * slipOf s c 0 3 < (unitTouch sort).proximity ∧
    SymPD (1 : Mat6) ∧ Function.Surjective (slipOf s c) := by
  obtain ⟨sort, hs⟩ := C48_sort_exists
  obtain ⟨c, hc, h⟩ := ball_collision (S := unitBall) (p := unitTouch sort) hs rfl (0, 0)
  obtain ⟨h1, h2, ⟨J, hJ⟩, -⟩ := h ⟨true, groundDyn 6, ballDyn unitBall (0, 0), 1, 1, 0, false, 0⟩ ⟨rfl, rfl, rfl⟩
  refine ⟨sort, _, c, rfl, h1, ⟨?_, ?_⟩, ?_, unitBall.pd, h2⟩
  · exact (Matrix.zero_mulVec _).symm
  · change tw 0 ((0 : ℝ) • _) = _
    rw [zero_smul, tw_zero, Matrix.mulVec_zero]
  · rw [hc, hJ, Matrix.mulVec_zero]
    norm_num [unitTouch]

end
end Arboris
