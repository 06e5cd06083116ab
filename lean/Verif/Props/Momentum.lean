import Verif.Props.Contact
import Verif.Props.PDStable

/-!
# C123: constraints between bodies and momentum
-/

namespace Arboris
open Matrix Spec Mech Build Sim

variable {n : ℕ}

/-- when the generalized velocity is `ν` the body moves as part of a rigid motion of the whole: angular velocity `ω`, velocity `u` at the
origin of the ground -/
def Spec.Carried (ω u : Vec3) (ν : Fin n → ℝ) (d : BodyDyn n) : Prop :=
  rot d.pose *ᵥ ang (d.jac *ᵥ ν) = ω ∧ rot d.pose *ᵥ lin (d.jac *ᵥ ν) = u + ω ⨯₃ pos d.pose

/-- the constraint is between two bodies of the list `bs`: a contact between shapes of these bodies, whose collision solver answers; or a
ball-and-socket between the frames `F0` and `F1` of these bodies -/
inductive Spec.BetweenBodies (bs : List (Body × BodyDyn n)) : Con n → Prop
  | contact {p : TouchParams} {s : TouchState n} {c : Collision} (h : Touching p s c) {x y : Body × BodyDyn n} (hx : x ∈ bs) (hy : y ∈ bs)
      (h0 : s.body0 = x.2) (h1 : s.body1 = y.2) : BetweenBodies bs ⟨softContact n p, s⟩
  | ball {pinv : Mat3 → Mat3} {s : BSState n} {x y : Body × BodyDyn n} {F0 F1 : Mat4} (hx : x ∈ bs) (hy : y ∈ bs)
      (hp0 : IsRigid x.2.pose) (hp1 : IsRigid y.2.pose) (hF0 : IsRigid F0) (hF1 : IsRigid F1)
      (h0 : s.pose0 = x.2.pose * F0 ∧ s.jac0 = iadjointBody F0 * x.2.jac)
      (h1 : s.pose1 = y.2.pose * F1 ∧ s.jac1 = iadjointBody F1 * y.2.jac) : BetweenBodies bs ⟨ballAndSocket n pinv, s⟩

lemma carried_slip {ω u : Vec3} {ν : Fin n → ℝ} {s : TouchState n} {c : Collision} (h0 : Carried ω u ν s.body0) (h1 : Carried ω u ν s.body1) :
    slipOf s c ν = 0 := by
  have e : ∀ a : Vec3, u + ω ⨯₃ a + (ω ⨯₃ pos c.H0 - ω ⨯₃ a) = u + ω ⨯₃ pos c.H0 := by
    intro a
    abel
  unfold slipOf slip
  simp only [h0.1, h1.1, h0.2, h1.2, map_sub, e, sub_self, dotProduct_zero]
  funext i
  fin_cases i <;> rfl

lemma carried_adj {ω u : Vec3} {ν : Fin n → ℝ} {d : BodyDyn n} (hp : IsRigid d.pose) (h : Carried ω u ν d) : adjointBody d.pose *ᵥ (d.jac *ᵥ ν) = tw ω u := by
  have := frame_twist hp isRigid_one (d.jac *ᵥ ν)
  have e1 : invBody (1 : Mat4) = 1 := by
    have := isRigid_one.mul_invBody
    rwa [Matrix.one_mul] at this
  have e2 : adjointBody (1 : Mat4) = 1 := adjointBody_one
  have e3 : rot (1 : Mat4) = 1 := by
    ext i j
    fin_cases i <;> fin_cases j <;> simp [rot, Matrix.one_apply]
  have e4 : pos (1 : Mat4) = 0 := by
    funext i
    fin_cases i <;> simp [pos, Matrix.one_apply]
  rw [e1, e2, Matrix.one_mulVec, e3, e4, Matrix.transpose_one, Matrix.one_mulVec, Matrix.one_mulVec, h.1, h.2, zero_sub, map_neg] at this
  rw [this]
  congr 1
  abel

/-- a constraint between two bodies does not see a motion of the whole -/
lemma between_jac {bs : List (Body × BodyDyn n)} {k : Con n} (h : BetweenBodies bs k) {ω u : Vec3} {ν : Fin n → ℝ} (hν : ∀ x ∈ bs, Carried ω u ν x.2) (dt : ℝ) :
    Lawful k.cls ∧ k.cls.jac (k.cls.update k.st dt) *ᵥ ν = 0 := by
  cases h with
  | @contact p s c h x y hx hy h0 h1 =>
    refine ⟨C36_softContact n p, ?_⟩
    obtain ⟨s', e, -, eb0, eb1, -, -, ep0, ep1, -⟩ := touch_update h dt
    have hu : (softContact n p).update s dt = s' := by
      change (match touchUpdate p s dt with | .ok s' => s' | .error _ => s) = s'
      rw [e]
    change touchJac ((softContact n p).update s dt) *ᵥ ν = 0
    rw [hu, touch_jac (s := s') (c := c) (by rw [eb0]; exact h.pose0) (by rw [eb1]; exact h.pose1) h.frame0 h.frame1 (by rw [eb0]; exact ep0) (by rw [eb1]; exact ep1)]
    refine carried_slip (ω := ω) (u := u) ?_ ?_
    · rw [eb0, h0]; exact hν x hx
    · rw [eb1, h1]; exact hν y hy
  | @ball pinv s x y F0 F1 hx hy hp0 hp1 hF0 hF1 h0 h1 =>
    refine ⟨C36_ballAndSocket n pinv, ?_⟩
    change bsJac s.pose0 s.pose1 s.jac0 s.jac1 *ᵥ ν = 0
    have hP0 : IsRigid s.pose0 := h0.1 ▸ hp0.mul hF0
    have hP1 : IsRigid s.pose1 := h1.1 ▸ hp1.mul hF1
    have e : ∀ {B F J : _} (P : Mat4) (d : BodyDyn n), IsRigid B → IsRigid F → P = B * F → B = d.pose → J = iadjointBody F * d.jac → Carried ω u ν d →
        adjointBody P *ᵥ (J *ᵥ ν) = tw ω u := by
      intro B F J P d hB hF hP hd hJ hc
      have h2 : adjointBody F * iadjointBody F = 1 := hF.adjoint_mul_inv
      rw [hP, hJ, adjointBody_mul hB hF, Matrix.mulVec_mulVec, Matrix.mul_assoc, ← Matrix.mul_assoc (adjointBody F), h2, Matrix.one_mul, ← Matrix.mulVec_mulVec, hd]
      exact carried_adj (hd ▸ hB) hc
    have e0 := e s.pose0 x.2 hp0 hF0 h0.1 rfl h0.2 (hν x hx)
    have e1 := e s.pose1 y.2 hp1 hF1 h1.1 rfl h1.2 (hν y hy)
    have hr : ∀ {m : ℕ} (A : Matrix (Fin 6) (Fin m) ℝ) (x : Fin m → ℝ), rows36 A *ᵥ x = fun i : Fin 3 => (A *ᵥ x) (![3, 4, 5] i) := by
      intro m A x
      funext i
      fin_cases i <;> rfl
    have k1 : (adjointBody (relFrame s.pose0 s.pose1) * s.jac1) *ᵥ ν = s.jac0 *ᵥ ν := by
      rw [relFrame, adjointBody_mul hP0.invBody hP1, ← Matrix.mulVec_mulVec, ← Matrix.mulVec_mulVec, e1, ← e0, Matrix.mulVec_mulVec]
      have : adjointBody (invBody s.pose0) * adjointBody s.pose0 = 1 := by
        rw [← adjointBody_mul hP0.invBody hP0, hP0.invBody_mul]
        exact adjointBody_one
      rw [this, Matrix.one_mulVec]
    have hb : bsJac s.pose0 s.pose1 s.jac0 s.jac1 = rows36 (adjointBody (relFrame s.pose0 s.pose1) * s.jac1) - rows36 s.jac0 := by
      unfold bsJac
      congr 1
    rw [hb, Matrix.sub_mulVec, hr, hr, k1, sub_self]

lemma resolves_jac {cls : ConClass n} (hl : Lawful cls) {dt : ℝ} {s t : cls.St} (h : Resolves cls dt s t) : cls.jac t = cls.jac s := by
  induction h with
  | refl => rfl
  | solve h vel Y ih => rw [hl.jac, ih]

/-- constraints which do not see `ν` push without work on it -/
lemma solved_work {dt : ℝ} {cs cs' : List (Con n)} {F : Fin n → ℝ} (h : Solved dt cs cs' F) {ν : Fin n → ℝ}
    (hc : ∀ k ∈ cs, Lawful k.cls ∧ k.cls.jac (k.cls.update k.st dt) *ᵥ ν = 0) : ν ⬝ᵥ F = 0 := by
  induction h with
  | nil => simp
  | disabled _ _ ih => exact ih fun k hk => hc k (by simp [hk])
  | inactive _ _ _ ih => exact ih fun k hk => hc k (by simp [hk])
  | @active c cs cs' F h ha s hr hs ih =>
    rw [dotProduct_add, ih fun k hk => hc k (by simp [hk]), add_zero, dot_transpose_mul]
    obtain ⟨h1, h2⟩ := hc c (by simp)
    rw [resolves_jac h1 hr, h2, zero_dotProduct]

lemma solved_classes {dt : ℝ} {cs cs' : List (Con n)} {F : Fin n → ℝ} (h : Solved dt cs cs' F) : cs'.map (·.cls) = cs.map (·.cls) := by
  induction h with
  | nil => rfl
  | disabled _ _ ih => simp [ih]
  | inactive _ _ _ ih => simp [ih]
  | active _ _ _ _ _ ih => simp [ih]

/-- C123.  One step of any world whose constraints, any number of them, are contacts and ball-and-sockets between its bodies, for a rigid motion `ν` of
the whole: the momentum of the world along `ν` changes as if there was no constraint. -/
theorem C123_step {σ : Type} {P : Plug n σ} {dt : ℝ} {w s w' : MWorld n σ} (h : WStep P dt w s w') {ω u : Vec3} {ν : Fin n → ℝ}
    (hν : ∀ x ∈ s.dyn, Carried ω u ν x.2)
    (hB : ∀ b : MWorld n σ, b.tree = w.tree → b.dyn = s.dyn → ∀ k ∈ w.cons, BetweenBodies s.dyn (P.look b k)) :
    ∃ vals, (∃ a : MWorld n σ, a.tree = w.tree ∧ a.gvel = w.gvel ∧ a.dyn = s.dyn ∧ P.ctrl a dt = .ok (s.mem, vals)) ∧
      (s.dyn.map fun x => (x.2.jac *ᵥ ν) ⬝ᵥ x.1.mass *ᵥ (x.2.jac *ᵥ w'.gvel - x.2.twist)).sum =
        dt * (ν ⬝ᵥ ((vals.map (·.gforce)).sum - (s.viscosity + s.nleffects - (vals.map (·.impedance)).sum) *ᵥ w'.gvel)) := by
  obtain ⟨vals, F, hs, hm⟩ := h.motion
  obtain ⟨a, a1, a2, a3, -, -, -, a7⟩ := hs.ctrl
  refine ⟨vals, ⟨a, a1, a2, a3, a7⟩, ?_⟩
  obtain ⟨b, b1, -, b3, -, b5⟩ := hs.cons
  have hF : ν ⬝ᵥ F = 0 := by
    refine solved_work b5 fun k hk => ?_
    obtain ⟨k0, hk0, rfl⟩ := List.mem_map.mp hk
    exact between_jac (hB b b1 b3 k0 hk0) hν dt
  have hmass : ∀ x : Fin n → ℝ, ν ⬝ᵥ s.mass *ᵥ x = (s.dyn.map fun y => (y.2.jac *ᵥ ν) ⬝ᵥ y.1.mass *ᵥ (y.2.jac *ᵥ x)).sum := by
    intro x
    rw [hs.mass, worldMass_eq, dot_sum_mulVec, List.map_map]
    congr 1
    apply List.map_congr_left
    intro y _
    simp only [Function.comp_apply, dot_JtMJ]
  have e1 : (s.dyn.map fun x => (x.2.jac *ᵥ ν) ⬝ᵥ x.1.mass *ᵥ (x.2.jac *ᵥ w'.gvel - x.2.twist)).sum = ν ⬝ᵥ s.mass *ᵥ (w'.gvel - w.gvel) := by
    rw [hmass]
    congr 1
    apply List.map_congr_left
    intro y hy
    rw [hs.twist y hy, ← Matrix.mulVec_sub]
  rw [e1]
  have e2 := congrArg (fun x => dt * (ν ⬝ᵥ x)) hm
  simp only [Matrix.sub_mulVec, Matrix.add_mulVec, Matrix.smul_mulVec, dotProduct_add, dotProduct_sub, dotProduct_smul, smul_eq_mul, hF, add_zero, mul_add, mul_sub,
    ← mul_assoc, mul_inv_cancel₀ h.pos.ne', one_mul] at e2
  rw [Matrix.mulVec_sub, dotProduct_sub]
  simp only [Matrix.sub_mulVec, Matrix.add_mulVec, dotProduct_add, dotProduct_sub, mul_sub, mul_add]
  linarith

end Arboris
