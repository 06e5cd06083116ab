import Verif.Model.Contact
import Verif.Props.WorldLimits
import Verif.Props.World

/-!
# C119: one contact in a world

What `SoftFingerContact` does to a step of a world of any size, from the collision detection to the velocity after `integrate`.
-/

namespace Arboris
open Matrix Spec Mech Build

/-- Velocity of the body of pose `B1` and twist `T1` relative to the body of pose `B0` and twist `T0`: spin about the z axis of
the frame `C`, and velocity, at the origin of `C`, along its axes x, y, z. -/
noncomputable def Spec.slip (C B0 B1 : Mat4) (T0 T1 : Vec6) : Vec4 :=
  let W : Mat4 → Vec6 → Vec3 := fun B T => rot B *ᵥ ang T
  let V : Mat4 → Vec6 → Vec3 := fun B T => rot B *ᵥ lin T + W B T ⨯₃ (pos C - pos B)
  let axis : Fin 3 → Vec3 := fun i k => C k.castSucc i.castSucc
  ![axis 2 ⬝ᵥ (W B1 T1 - W B0 T0), axis 0 ⬝ᵥ (V B1 T1 - V B0 T0), axis 1 ⬝ᵥ (V B1 T1 - V B0 T0), axis 2 ⬝ᵥ (V B1 T1 - V B0 T0)]

variable {n : ℕ}

/-- a contact whose bodies have rigid poses, and whose collision solver finds `c`, with rigid frames -/
structure Spec.Touching (p : TouchParams) (s : TouchState n) (c : Collision) : Prop where
  pose0 : IsRigid s.body0.pose
  pose1 : IsRigid s.body1.pose
  found : p.collide s.body0.pose s.body1.pose = .ok c
  frame0 : IsRigid c.H0
  frame1 : IsRigid c.H1

/-- relative velocity at the contact when the generalized velocity is `ν` -/
noncomputable def Spec.slipOf (s : TouchState n) (c : Collision) (ν : Fin n → ℝ) : Vec4 :=
  slip c.H0 s.body0.pose s.body1.pose (s.body0.jac *ᵥ ν) (s.body1.jac *ᵥ ν)

lemma touch_update {p : TouchParams} {s : TouchState n} {c : Collision} (h : Touching p s c) (dt : ℝ) :
    ∃ s', touchUpdate p s dt = .ok s' ∧ s'.enabled = s.enabled ∧ s'.body0 = s.body0 ∧ s'.body1 = s.body1 ∧ s'.force = 0 ∧ s'.sdist = c.sdist ∧
      s'.bpose0 = invBody s.body0.pose * c.H0 ∧ s'.bpose1 = invBody s.body1.pose * c.H1 ∧
      (s'.isActive = true ↔ c.sdist + slip c.H0 s.body0.pose s.body1.pose s.body0.twist s.body1.twist 3 * dt < p.proximity) := by
  obtain ⟨u, e, e0, e1, es, ed, ea⟩ := contactUpdate_ok h.pose0 h.pose1 h.frame0 h.frame1 s.body0.twist s.body1.twist p.proximity dt
  refine ⟨{ s with bpose0 := u.bpose0, bpose1 := u.bpose1, sdist := u.sdist, isActive := u.active, force := 0 }, ?_, rfl, rfl, rfl, rfl, es, e0, e1, ?_⟩
  · unfold touchUpdate
    simp only [h.found, e]
  · change u.active = true ↔ _
    rw [ea, ed, dsdist_eq h.pose0 h.pose1 h.frame0 h.frame1, ← dotProduct_sub]
    have hz : ∀ a : Vec3, zAxis c.H0 ⬝ᵥ a = (fun k : Fin 3 => c.H0 k.castSucc (2 : Fin 3).castSucc) ⬝ᵥ a := by
      intro a
      simp [zAxis, dotProduct, Fin.sum_univ_three]
    rw [hz]
    rfl

lemma touch_jac {s : TouchState n} {c : Collision} (hB0 : IsRigid s.body0.pose) (hB1 : IsRigid s.body1.pose) (h0 : IsRigid c.H0) (h1 : IsRigid c.H1)
    (e0 : s.bpose0 = invBody s.body0.pose * c.H0) (e1 : s.bpose1 = invBody s.body1.pose * c.H1) (ν : Fin n → ℝ) :
    touchJac s *ᵥ ν = slipOf s c ν := by
  have f0 : s.body0.pose * s.bpose0 = c.H0 := by rw [e0, ← Matrix.mul_assoc, hB0.mul_invBody, Matrix.one_mul]
  have f1 : s.body1.pose * s.bpose1 = c.H1 := by rw [e1, ← Matrix.mul_assoc, hB1.mul_invBody, Matrix.one_mul]
  have e : ∀ {B C : Mat4}, IsRigid B → IsRigid C → iadjointBody (invBody B * C) = adjointBody (invBody C) * adjointBody B := by
    intro B C hB hC
    rw [iadjointBody, hB.invBody.invBody_mul_rev hC, hB.invBody_invBody, adjointBody_mul hC.invBody hB]
  have k1 : adjointBody (relFrame c.H0 c.H1) * (iadjointBody s.bpose1 * s.body1.jac) =
      adjointBody (invBody c.H0) * (adjointBody s.body1.pose * s.body1.jac) := by
    rw [e1, e hB1 h1, relFrame, adjointBody_mul h0.invBody h1]
    calc adjointBody (invBody c.H0) * adjointBody c.H1 * (adjointBody (invBody c.H1) * adjointBody s.body1.pose * s.body1.jac)
        = adjointBody (invBody c.H0) * (adjointBody c.H1 * adjointBody (invBody c.H1)) * (adjointBody s.body1.pose * s.body1.jac) := by
          simp only [Matrix.mul_assoc]
      _ = _ := by rw [h1.adjoint_mul_inv, Matrix.mul_one]
  have k0 : iadjointBody s.bpose0 * s.body0.jac = adjointBody (invBody c.H0) * (adjointBody s.body0.pose * s.body0.jac) := by
    rw [e0, e hB0 h0, Matrix.mul_assoc]
  have hr : ∀ {m : ℕ} (A : Matrix (Fin 6) (Fin m) ℝ) (x : Fin m → ℝ), rows26 A *ᵥ x = ![(A *ᵥ x) 2, (A *ᵥ x) 3, (A *ᵥ x) 4, (A *ᵥ x) 5] := by
    intro m A x
    funext i
    fin_cases i <;> simp [rows26, Matrix.mulVec, dotProduct]
  have hm : ∀ (A : Mat6) (B : Matrix (Fin 6) (Fin n) ℝ), rows26 A * B = rows26 (A * B) := by
    intro A B
    ext i j
    fin_cases i <;> simp [rows26, Matrix.mul_apply]
  have key : ∀ i, ((adjointBody (invBody c.H0) * (adjointBody s.body1.pose * s.body1.jac)) *ᵥ ν) i - ((adjointBody (invBody c.H0) * (adjointBody s.body0.pose * s.body0.jac)) *ᵥ ν) i =
      tw ((rot c.H0)ᵀ *ᵥ (rot s.body1.pose *ᵥ ang (s.body1.jac *ᵥ ν) - rot s.body0.pose *ᵥ ang (s.body0.jac *ᵥ ν)))
        ((rot c.H0)ᵀ *ᵥ ((rot s.body1.pose *ᵥ lin (s.body1.jac *ᵥ ν) + (rot s.body1.pose *ᵥ ang (s.body1.jac *ᵥ ν)) ⨯₃ (pos c.H0 - pos s.body1.pose)) -
          (rot s.body0.pose *ᵥ lin (s.body0.jac *ᵥ ν) + (rot s.body0.pose *ᵥ ang (s.body0.jac *ᵥ ν)) ⨯₃ (pos c.H0 - pos s.body0.pose)))) i := by
    intro i
    simp only [← Matrix.mulVec_mulVec]
    rw [frame_twist hB1 h0, frame_twist hB0 h0]
    simp only [Matrix.mulVec_sub]
    fin_cases i <;> simp [tw]
  rw [touchJac, f0, f1, sfJac, hm, k1, k0, Matrix.sub_mulVec, hr, hr, slipOf, slip]
  funext i
  fin_cases i
  · simpa [tw, rot, Matrix.mulVec, dotProduct, Fin.sum_univ_three] using key 2
  · simpa [tw, rot, Matrix.mulVec, dotProduct, Fin.sum_univ_three] using key 3
  · simpa [tw, rot, Matrix.mulVec, dotProduct, Fin.sum_univ_three] using key 4
  · simpa [tw, rot, Matrix.mulVec, dotProduct, Fin.sum_univ_three] using key 5

/-- with an invertible admittance, a solve does not depend on the force found before -/
lemma soft_fresh {pinv : Matrix (Fin 4) (Fin 4) ℝ → Matrix (Fin 4) (Fin 4) ℝ} {A : Matrix (Fin 4) (Fin 4) ℝ} (hp : IsPinv A (pinv A)) (hA : A.det ≠ 0)
    (eps : Vec3) (mu sdist : ℝ) (f0 u : Vec4) (dt : ℝ) :
    (softSolve pinv eps mu sdist f0 (u + A *ᵥ f0) A dt).1 = (softSolve pinv eps mu sdist 0 u A dt).1 := by
  have hPA := (IsPinv.eq_inv hp hA).2
  have e1 : u + A *ᵥ f0 - A *ᵥ f0 = u - A *ᵥ 0 := by simp
  have e2 : f0 + (-(pinv A)) *ᵥ (u + A *ᵥ f0 + Pi.single 3 (sdist / dt)) = 0 + (-(pinv A)) *ᵥ (u + Pi.single 3 (sdist / dt)) := by
    rw [show u + A *ᵥ f0 + Pi.single 3 (sdist / dt) = A *ᵥ f0 + (u + Pi.single 3 (sdist / dt)) by abel, Matrix.mulVec_add,
      Matrix.mulVec_mulVec, Matrix.neg_mul, hPA, Matrix.neg_mulVec, Matrix.one_mulVec]
    abel
  unfold softSolve
  simp only [e1, e2]
  split_ifs <;> rfl

lemma C36_softContact (n : ℕ) (p : TouchParams) : Lawful (softContact n p) := by
  refine ⟨fun _ _ _ _ => rfl, fun s v Y dt => ?_⟩
  have h : ∀ (s : TouchState n) (v : Vec4) (Y : Matrix (Fin 4) (Fin 4) ℝ),
      (softSolve p.pinv p.eps p.mu s.sdist s.force v Y dt).1 = s.force + (softSolve p.pinv p.eps p.mu s.sdist s.force v Y dt).2 := by
    intro s v Y
    rw [soft_vel]
    abel
  exact h s v Y

/-- with one contact, the solver's result is that of one call of `solve` -/
lemma touch_run {p : TouchParams} (hp : ∀ A, A.det ≠ 0 → IsPinv A (p.pinv A)) (s : TouchState n) (Y mass : Matrix (Fin n) (Fin n) ℝ) (gvel gforce : Fin n → ℝ) (dt : ℝ)
    {maxiters : ℕ} (hm : 0 < maxiters) (tol : ℝ) (hA : (touchJac s * Y * (touchJac s)ᵀ).det ≠ 0) :
    (gsRun [(⟨softContact n p, s⟩ : Con n)] Y mass gvel gforce dt maxiters tol).st ⟨0, by simp⟩ =
      { s with force := (softSolve p.pinv p.eps p.mu s.sdist 0 (touchJac s *ᵥ (Y *ᵥ (dt⁻¹ • (mass *ᵥ gvel) + gforce))) (touchJac s * Y * (touchJac s)ᵀ) dt).1 } := by
  obtain ⟨st, ⟨f0, hf0⟩, -, hrun⟩ := single_run (c := (⟨softContact n p, s⟩ : Con n)) (C36_softContact n p) (fun st : TouchState n => ∃ f, st = { s with force := f })
    ⟨s.force, rfl⟩ (by rintro st vel A dt ⟨f, rfl⟩; exact ⟨_, rfl⟩) Y mass gvel gforce dt hm tol
  rw [hrun]
  subst hf0
  change ({ s with force := (softSolve p.pinv p.eps p.mu s.sdist f0 (touchJac s *ᵥ (Y *ᵥ (dt⁻¹ • (mass *ᵥ gvel) + (gforce + (touchJac s)ᵀ *ᵥ f0))))
    (touchJac s * Y * (touchJac s)ᵀ) dt).1 } : TouchState n) = _
  rw [← soft_fresh (hp _ hA) hA p.eps p.mu s.sdist f0]
  congr 2
  rw [← add_assoc, Matrix.mulVec_add, Matrix.mulVec_add]
  simp only [Matrix.mulVec_mulVec]
  rw [Matrix.mul_assoc]

lemma touch_total {p : TouchParams} {s : TouchState n} (g : GS [(⟨softContact n p, s⟩ : Con n)]) (s' : TouchState n) (h : g.st ⟨0, by simp⟩ = s') :
    totalForce g.cons = (touchJac s')ᵀ *ᵥ s'.force := by
  rw [totalForce_single, h]
  rfl

lemma touch_cons {p : TouchParams} {s : TouchState n} (g : GS [(⟨softContact n p, s⟩ : Con n)]) (s' : TouchState n) (h : g.st ⟨0, by simp⟩ = s') :
    g.cons = [⟨softContact n p, s'⟩] := by
  rw [← h]
  simp [GS.cons, List.finRange_succ]

lemma pd_congr {k : ℕ} {Y : Matrix (Fin n) (Fin n) ℝ} (hY : SymPD Y) (J : Matrix (Fin k) (Fin n) ℝ) (hJ : Function.Surjective fun ν => J *ᵥ ν) :
    SymPD (J * Y * Jᵀ) := by
  refine ⟨?_, fun x hx => ?_⟩
  · rw [Matrix.transpose_mul, Matrix.transpose_mul, Matrix.transpose_transpose, hY.1, Matrix.mul_assoc]
  · have e : x ⬝ᵥ (J * Y * Jᵀ) *ᵥ x = (Jᵀ *ᵥ x) ⬝ᵥ Y *ᵥ (Jᵀ *ᵥ x) := by
      simp only [← Matrix.mulVec_mulVec]
      rw [Matrix.dotProduct_mulVec, Matrix.mulVec_transpose]
    rw [e]
    refine hY.2 _ fun h0 => hx ?_
    obtain ⟨ν, hν⟩ := hJ x
    have hν' : J *ᵥ ν = x := hν
    have h1 : x ⬝ᵥ x = 0 := by
      calc x ⬝ᵥ x = x ⬝ᵥ J *ᵥ ν := by rw [hν']
        _ = (Jᵀ *ᵥ x) ⬝ᵥ ν := by rw [Matrix.dotProduct_mulVec, Matrix.mulVec_transpose]
        _ = 0 := by rw [h0, zero_dotProduct]
    exact dotProduct_self_eq_zero.mp h1

/-- C119.  In a world of any size, whose only constraint is a contact `p` in the state `s`, enabled; the collision solver finds `c`.  The
admittance is symmetric positive definite, and every relative velocity of the bodies at the contact can be reached.  If the gap predicted at
the end of the step from the present velocity is below the proximity then, whatever the controllers, and whatever the number of iterations and the
tolerance of the solver: the contact finds a force `f`, and adds to the generalized forces the ones of virtual power `f · slip`;  if, without
contact, the velocity `v0` after the step keeps the bodies apart, the contact does nothing; otherwise with the velocity `v` after the step
the gap closes exactly; the bodies stick, without relative spin nor tangential velocity, and `f` is in the friction ellipsoid, or they slip, and the
friction opposes the slip. -/
theorem C119_contact {p : TouchParams} (hp : ∀ A, A.det ≠ 0 → IsPinv A (p.pinv A)) {s : TouchState n} (hen : s.enabled = true) {c : Collision} (ht : Touching p s c)
    {mass : Matrix (Fin n) (Fin n) ℝ} {gvel : Fin n → ℝ} {w : CtrlOut n} {dt : ℝ} (htw : s.body0.twist = s.body0.jac *ᵥ gvel ∧ s.body1.twist = s.body1.jac *ᵥ gvel)
    (hnear : c.sdist + dt * slipOf s c gvel 3 < p.proximity) (hY : SymPD w.admittance) (hJ : Function.Surjective (slipOf s c))
    {maxiters : ℕ} (hmax : 0 < maxiters) {tol : ℝ} {g v v0 : Fin n → ℝ} {cs : List (Con n)}
    (hu : updateConstraints mass gvel w [⟨softContact n p, s⟩] dt maxiters tol = .ok (g, cs))
    (hi : integrateGvel mass w.admittance gvel g dt = .ok v) (hi0 : integrateGvel mass w.admittance gvel w.gforce dt = .ok v0) :
    ∃ (f : Vec4) (s' : TouchState n), cs = [⟨softContact n p, s'⟩] ∧ s'.force = f ∧ s'.sdist = c.sdist ∧ s'.enabled = true ∧
      (∀ ν, g ⬝ᵥ ν = w.gforce ⬝ᵥ ν + f ⬝ᵥ slipOf s c ν) ∧
      (0 < c.sdist + dt * slipOf s c v0 3 → f = 0 ∧ v = v0) ∧
      (c.sdist + dt * slipOf s c v0 3 ≤ 0 → c.sdist + dt * slipOf s c v 3 = 0 ∧
        (((∀ i : Fin 3, slipOf s c v i.castSucc = 0) ∧ (f 0 / p.eps 0) ^ 2 + (f 1 / p.eps 1) ^ 2 + (f 2 / p.eps 2) ^ 2 ≤ (f 3 * p.mu) ^ 2) ∨
          (∃ a ≤ 0, ∀ i : Fin 3, slipOf s c v i.castSucc = a * (p.eps i)⁻¹ ^ 2 * f i.castSucc))) ∧
      (slipOf s c v 0 * f 0 + slipOf s c v 1 * f 1 + slipOf s c v 2 * f 2 ≤ 0) := by
  have hdt : 0 < dt := by
    unfold integrateGvel at hi
    by_contra h
    rw [if_neg h] at hi; cases hi
  obtain ⟨s1, hup, h1e, h10, h11, h1f, h1s, h1b0, h1b1, h1a⟩ := touch_update ht dt
  have hJac : ∀ ν, touchJac s1 *ᵥ ν = slipOf s c ν := by
    intro ν
    have := touch_jac (s := s1) (c := c) (by rw [h10]; exact ht.pose0) (by rw [h11]; exact ht.pose1) ht.frame0 ht.frame1 (by rw [h10]; exact h1b0) (by rw [h11]; exact h1b1) ν
    rw [this]
    unfold slipOf
    rw [h10, h11]
  have hact : activeCons dt [(⟨softContact n p, s⟩ : Con n)] = [⟨softContact n p, s1⟩] := by
    have e1 : (softContact n p).update s dt = s1 := by simp only [softContact, hup]
    have e2 : (softContact n p).active s1 = true := by
      change s1.isActive = true
      rw [h1a, htw.1, htw.2]
      have : slip c.H0 s.body0.pose s.body1.pose (s.body0.jac *ᵥ gvel) (s.body1.jac *ᵥ gvel) = slipOf s c gvel := rfl
      rw [this]
      linarith
    have e3 : (softContact n p).enabled s = true := hen
    simp [activeCons, e1, e2, e3]
  have hA : SymPD (touchJac s1 * w.admittance * (touchJac s1)ᵀ) := pd_congr hY _ (by rw [funext hJac]; exact hJ)
  obtain ⟨hdet, hslide⟩ := C42_invertible (eps := p.eps) hA
  rw [updateConstraints_eq hdt hact] at hu
  obtain ⟨hg, hcs⟩ := Prod.mk.inj (Except.ok.inj hu)
  have hrun := touch_run hp s1 w.admittance mass gvel w.gforce dt hmax tol hdet
  have hv0 : v0 = w.admittance *ᵥ (dt⁻¹ • (mass *ᵥ gvel) + w.gforce) := by
    unfold integrateGvel at hi0
    rw [if_pos hdt] at hi0
    rw [← Except.ok.inj hi0, Matrix.mulVec_smul]
  rw [← hv0] at hrun
  set A := touchJac s1 * w.admittance * (touchJac s1)ᵀ with hAdef
  set r := softSolve p.pinv p.eps p.mu s1.sdist 0 (touchJac s1 *ᵥ v0) A dt with hr
  have hg' : g = w.gforce + (touchJac s1)ᵀ *ᵥ r.1 := by
    rw [← hg, addGforces_eq, ← totalForce_cons, touch_total _ _ hrun]
    rfl
  have hv : v = v0 + w.admittance *ᵥ ((touchJac s1)ᵀ *ᵥ r.1) := by
    unfold integrateGvel at hi
    rw [if_pos hdt] at hi
    rw [← Except.ok.inj hi, hg', ← add_assoc, Matrix.mulVec_add, hv0, Matrix.mulVec_smul]
  have hr2 : r.2 = r.1 := by
    have := soft_vel p.pinv p.eps p.mu s1.sdist 0 (touchJac s1 *ᵥ v0) A dt
    rw [← hr, sub_zero] at this
    exact this
  have hslip : slipOf s c v = touchJac s1 *ᵥ v0 + A *ᵥ r.2 := by
    rw [← hJac, hv, Matrix.mulVec_add, hr2, hAdef]
    simp only [Matrix.mulVec_mulVec, Matrix.mul_assoc]
  have hapart : Apart s1.sdist 0 (touchJac s1 *ᵥ v0) A dt ↔ 0 < c.sdist + dt * slipOf s c v0 3 := by
    unfold Apart
    rw [hJac, h1s, Matrix.mulVec_zero, Pi.zero_apply, sub_zero]
  refine ⟨r.1, { s1 with force := r.1 }, ?_, rfl, h1s, h1e.trans hen, ?_, ?_, ?_, ?_⟩
  · rw [← hcs, touch_cons _ _ hrun]
  · intro ν
    rw [hg', add_dotProduct, ← hJac, Matrix.mulVec_transpose, ← Matrix.dotProduct_mulVec]
  · intro h
    have h0 : r.1 = 0 := C42_free (hapart.mpr h)
    refine ⟨h0, ?_⟩
    rw [hv, h0, Matrix.mulVec_zero, Matrix.mulVec_zero, add_zero]
  · intro h
    have hna : ¬ Apart s1.sdist 0 (touchJac s1 *ᵥ v0) A dt := by rw [hapart]; linarith
    have key := C42_contact (mu := p.mu) (hp A hdet) hdet hdt hna hslide
    simp only [← hr, ← hslip] at key
    rw [h1s] at key
    exact key
  · have key := C42_dissipative (mu := p.mu) (sdist := s1.sdist) (force := 0) (vel := touchJac s1 *ᵥ v0) (hp A hdet) hdet hdt hslide
    simp only [← hr, ← hslip] at key
    exact key

/-- C119: a contact whose predicted gap is not below the proximity does nothing -/
theorem C119_far {p : TouchParams} {s : TouchState n} {c : Collision} (ht : Touching p s c)
    {mass : Matrix (Fin n) (Fin n) ℝ} {gvel : Fin n → ℝ} {w : CtrlOut n} {dt : ℝ} (hdt : 0 < dt)
    (htw : s.body0.twist = s.body0.jac *ᵥ gvel ∧ s.body1.twist = s.body1.jac *ᵥ gvel)
    (hfar : p.proximity ≤ c.sdist + dt * slipOf s c gvel 3) (maxiters : ℕ) (tol : ℝ) :
    updateConstraints mass gvel w [⟨softContact n p, s⟩] dt maxiters tol = .ok (w.gforce, []) := by
  obtain ⟨s1, hup, h1e, h10, h11, h1f, h1s, h1b0, h1b1, h1a⟩ := touch_update ht dt
  have hact : activeCons dt [(⟨softContact n p, s⟩ : Con n)] = [] := by
    have e1 : (softContact n p).update s dt = s1 := by simp only [softContact, hup]
    have e2 : (softContact n p).active s1 = false := by
      change s1.isActive = false
      rw [Bool.eq_false_iff, ne_eq, h1a, htw.1, htw.2]
      have : slip c.H0 s.body0.pose s.body1.pose (s.body0.jac *ᵥ gvel) (s.body1.jac *ᵥ gvel) = slipOf s c gvel := rfl
      rw [this]
      linarith
    simp [activeCons, e1, e2]
  rw [updateConstraints_eq hdt hact]
  rfl

/-- C119: with one contact, the number of iterations and the tolerance of the solver do not matter: it finds the solution at the first sweep. -/
theorem C119_once {p : TouchParams} (hp : ∀ A, A.det ≠ 0 → IsPinv A (p.pinv A)) {s : TouchState n} {c : Collision} (ht : Touching p s c)
    {mass : Matrix (Fin n) (Fin n) ℝ} {gvel : Fin n → ℝ} {w : CtrlOut n} {dt : ℝ} (hY : SymPD w.admittance) (hJ : Function.Surjective (slipOf s c))
    {k k' : ℕ} (hk : 0 < k) (hk' : 0 < k') (tol tol' : ℝ) :
    updateConstraints mass gvel w [⟨softContact n p, s⟩] dt k tol = updateConstraints mass gvel w [⟨softContact n p, s⟩] dt k' tol' := by
  obtain ⟨s1, hup, h1e, h10, h11, h1f, h1s, h1b0, h1b1, h1a⟩ := touch_update ht dt
  have hJac : ∀ ν, touchJac s1 *ᵥ ν = slipOf s c ν := by
    intro ν
    have := touch_jac (s := s1) (c := c) (by rw [h10]; exact ht.pose0) (by rw [h11]; exact ht.pose1) ht.frame0 ht.frame1 (by rw [h10]; exact h1b0) (by rw [h11]; exact h1b1) ν
    rw [this]
    unfold slipOf
    rw [h10, h11]
  have hA : SymPD (touchJac s1 * w.admittance * (touchJac s1)ᵀ) := pd_congr hY _ (by rw [funext hJac]; exact hJ)
  have hdet := (C42_invertible (eps := p.eps) hA).1
  by_cases hdt : 0 < dt
  · have e1 : (softContact n p).update s dt = s1 := by simp only [softContact, hup]
    have hact : activeCons dt [(⟨softContact n p, s⟩ : Con n)] = [] ∨ activeCons dt [(⟨softContact n p, s⟩ : Con n)] = [⟨softContact n p, s1⟩] := by
      rw [activeCons_cons]
      simp only [e1]
      split_ifs
      · exact .inr rfl
      · exact .inl rfl
      · exact .inl rfl
    rcases hact with h | h
    · rw [updateConstraints_eq hdt h, updateConstraints_eq hdt h]
      rfl
    · rw [updateConstraints_eq hdt h, updateConstraints_eq hdt h]
      have r1 := touch_run hp s1 w.admittance mass gvel w.gforce dt hk tol hdet
      have r2 := touch_run hp s1 w.admittance mass gvel w.gforce dt hk' tol' hdet
      rw [touch_cons _ _ r1, touch_cons _ _ r2, addGforces_eq, addGforces_eq, ← totalForce_cons, ← totalForce_cons, touch_total _ _ r1, touch_total _ _ r2]
  · unfold updateConstraints
    rw [if_neg hdt, if_neg hdt]

end Arboris
