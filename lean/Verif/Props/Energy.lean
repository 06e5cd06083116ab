import Verif.Props.Step
import Verif.Props.Mass

/-! # Property C74: energy and momentum over one step -/

namespace Arboris
open Matrix Real Spec

/-- C74, what holds in general: without controllers and constraints, if the non-linear effects and the viscosity matrices
never feed power (`xᵀ N x ≥ 0`, `xᵀ B x ≥ 0` for all `x`), a step does not increase the kinetic energy. -/
theorem C74_energy_partial {n : ℕ} {mass visc nle : Matrix (Fin n) (Fin n) ℝ} {gvel gvel' : Fin n → ℝ} {dt : ℝ} {cs : List (Con n)}
    (hM : SymPD mass) (hN : ∀ x, 0 ≤ x ⬝ᵥ nle *ᵥ x) (hB : ∀ x, 0 ≤ x ⬝ᵥ visc *ᵥ x)
    (h : stepGvel mass visc nle gvel [] [] dt = .ok (gvel', cs)) :
    gvel' ⬝ᵥ mass *ᵥ gvel' ≤ gvel ⬝ᵥ mass *ᵥ gvel := by
  have hdt : 0 < dt := ((C32_succeeds _ _ _ _ _ _ _).mp ⟨_, h⟩).1
  have hcs : cs = [] := by
    have := C43_only_active h
    simpa using this
  have he := C32_motion h
  rw [hcs] at he
  simp only [EquationOfMotion, List.map_nil, List.sum_nil, sub_zero, totalForce, add_zero] at he
  have h1 := congrArg (fun v => gvel' ⬝ᵥ v) he
  simp only [Matrix.add_mulVec, Matrix.smul_mulVec, dotProduct_add, dotProduct_smul, smul_eq_mul] at h1
  have h2 := hN gvel'
  have h3 := hB gvel'
  have h4 : 0 ≤ (gvel - gvel') ⬝ᵥ mass *ᵥ (gvel - gvel') := by
    by_cases hz : gvel - gvel' = 0
    · rw [hz]; simp
    · exact (hM.2 _ hz).le
  have hsym : gvel ⬝ᵥ mass *ᵥ gvel' = gvel' ⬝ᵥ mass *ᵥ gvel := dot_mulVec_symm mass hM.1 _ _
  rw [Matrix.mulVec_sub, sub_dotProduct, dotProduct_sub, dotProduct_sub, hsym] at h4
  have h5 : dt⁻¹ * (gvel' ⬝ᵥ mass *ᵥ gvel') ≤ dt⁻¹ * (gvel' ⬝ᵥ mass *ᵥ gvel) := by linarith
  have h6 := le_of_mul_le_mul_left h5 (inv_pos.mpr hdt)
  linarith

/-- a world made of one free body hung on the ground by a `FreeJoint` -/
noncomputable def freeBodyWorld (H : Mat4) (T : Vec6) (M : Mat6) : Forest Link Body :=
  .cons ⟨6, 0, freeVal H T, 1, 1⟩ ⟨M, 0⟩ .nil .nil

lemma selMat_self : selMat 6 0 6 = 1 := by
  ext i j
  simp only [selMat, Matrix.of_apply, zero_add, Matrix.one_apply, Fin.ext_iff, eq_comm]

lemma freeBody_dyn {H : Mat4} (T : Vec6) (M : Mat6) :
    worldMass (worldDynamic 6 (freeBodyWorld H T M)) = M ∧
    worldViscosity (worldDynamic 6 (freeBodyWorld H T M)) = 0 ∧
    worldNleffects (worldDynamic 6 (freeBodyWorld H T M)) = bodyNleffects M T := by
  have hd : worldDynamic 6 (freeBodyWorld H T M) =
      [(⟨M, 0⟩, dynStep (groundDyn 6) ⟨6, 0, freeVal H T, 1, 1⟩)] := rfl
  have hj : (dynStep (groundDyn 6) ⟨6, 0, freeVal H T, 1, 1⟩).jac = 1 := by
    rw [dynStep]; simp only [groundDyn, addCols_eq, selMat_self, adjointBody_one, freeVal]; simp
  have hdj : (dynStep (groundDyn 6) ⟨6, 0, freeVal H T, 1, 1⟩).djac = 0 := by
    rw [dynStep]; simp only [groundDyn, addCols_eq, selMat_self, adjointBody_one, freeVal]; simp
  have ht : (dynStep (groundDyn 6) ⟨6, 0, freeVal H T, 1, 1⟩).twist = T := by
    rw [dynStep]; simp only [groundDyn, adjointBody_one, freeVal]; simp
  rw [hd, worldMass_eq, worldViscosity_eq, worldNleffects_eq]
  simp [hj, hdj, ht]

/-- momentum of a rigid body: linear, and angular about the centre of mass, in body coordinates -/
def linMomentum (M : Mat6) (T : Vec6) : Vec3 := lin (M *ᵥ T)
/-- angular momentum about the centre of mass -/
def angMomentum (M : Mat6) (c : Vec3) (T : Vec6) : Vec3 := ang (M *ᵥ T) - c ⨯₃ lin (M *ᵥ T)

lemma nle_general {M : Mat6} {m : ℝ} {c : Vec3} {I : Mat3} (h : IsRigidMass M m c I) (hm : 1e-10 < m) (T X : Vec6) :
    lin (bodyNleffects M T *ᵥ X) = ang T ⨯₃ linMomentum M X ∧
    ang (bodyNleffects M T *ᵥ X) = ang T ⨯₃ ang (M *ᵥ X) + (c ⨯₃ ang T) ⨯₃ lin (M *ᵥ X) := by
  have hne : m ≠ 0 := by intro e; rw [e] at hm; norm_num at hm
  unfold bodyNleffects
  simp only
  rw [h.m55, if_neg (not_le.mpr hm), h.b12, smul_smul, inv_mul_cancel₀ hne, one_smul, ← skew_cross,
    ← Matrix.mulVec_mulVec]
  have e : tw (ang (M *ᵥ X)) (lin (M *ᵥ X)) = M *ᵥ X := tw_ang_lin _
  rw [← e, blk_mulVec, lin_tw, ang_tw, ang_tw, lin_tw]
  simp [skew_mulVec, linMomentum]

lemma cross_decay {dt : ℝ} (hdt : 0 < dt) {w x y : Vec3} (h : dt⁻¹ • x + w ⨯₃ x = dt⁻¹ • y) : x ⬝ᵥ x ≤ y ⬝ᵥ y := by
  have h1 := congrArg (fun v => x ⬝ᵥ v) h
  simp only [dotProduct_add, dotProduct_smul, dot_cross_self, add_zero, smul_eq_mul] at h1
  have h2 : x ⬝ᵥ x = x ⬝ᵥ y := mul_left_cancel₀ (inv_pos.mpr hdt).ne' h1
  have h3 : 0 ≤ (y - x) ⬝ᵥ (y - x) := by
    rw [dotProduct]; exact Finset.sum_nonneg fun i _ => mul_self_nonneg _
  rw [dotProduct_sub, sub_dotProduct, sub_dotProduct, dotProduct_comm y x] at h3
  linarith

lemma free_equation {M : Mat6} {m : ℝ} {c : Vec3} {I : Mat3} (h : IsRigidMass M m c I) (hm : 1e-10 < m) {T X U : Vec6}
    {dt : ℝ} (he : (dt⁻¹ • M + bodyNleffects M T) *ᵥ X = dt⁻¹ • (M *ᵥ U)) :
    dt⁻¹ • linMomentum M X + ang T ⨯₃ linMomentum M X = dt⁻¹ • linMomentum M U ∧
    dt⁻¹ • angMomentum M c X + ang T ⨯₃ angMomentum M c X = dt⁻¹ • angMomentum M c U := by
  obtain ⟨n1, n2⟩ := nle_general h hm T X
  rw [Matrix.add_mulVec, Matrix.smul_mulVec] at he
  have hl := congrArg lin he
  have ha := congrArg ang he
  have ladd : ∀ A B : Vec6, lin (A + B) = lin A + lin B := fun _ _ => rfl
  have aadd : ∀ A B : Vec6, ang (A + B) = ang A + ang B := fun _ _ => rfl
  have lsm : ∀ (r : ℝ) (A : Vec6), lin (r • A) = r • lin A := fun _ _ => rfl
  have asm' : ∀ (r : ℝ) (A : Vec6), ang (r • A) = r • ang A := fun _ _ => rfl
  rw [ladd, lsm, lsm, n1] at hl
  rw [aadd, asm', asm', n2] at ha
  refine ⟨hl, ?_⟩
  simp only [angMomentum]
  have hc : c ⨯₃ (dt⁻¹ • lin (M *ᵥ X) + ang T ⨯₃ lin (M *ᵥ X)) = c ⨯₃ (dt⁻¹ • lin (M *ᵥ U)) := by
    rw [← hl]; rfl
  rw [map_add, map_smul, map_smul] at hc
  rw [smul_sub, smul_sub, map_sub, ← ha, ← hc]
  have jac : ang T ⨯₃ (c ⨯₃ lin (M *ᵥ X)) = c ⨯₃ (ang T ⨯₃ lin (M *ᵥ X)) - (c ⨯₃ ang T) ⨯₃ lin (M *ᵥ X) := by
    generalize ang T = w
    generalize lin (M *ᵥ X) = p
    ext i; fin_cases i <;> simp [cross_apply] <;> ring
  rw [jac]
  abel

/-- C74: one step of a free rigid body (any centre of mass, any inertia, mass above 1e-10): linear momentum and central
angular momentum do not grow in norm. -/
theorem C74_momentum_partial {H : Mat4} {T gvel' : Vec6} {M : Mat6} {m : ℝ} {c : Vec3} {I : Mat3} {dt : ℝ} {cs : List (Con 6)}
    (hM : IsRigidMass M m c I) (hm : 1e-10 < m) :
    let bs := worldDynamic 6 (freeBodyWorld H T M)
    stepGvel (worldMass bs) (worldViscosity bs) (worldNleffects bs) T [] [] dt = .ok (gvel', cs) →
    linMomentum M gvel' ⬝ᵥ linMomentum M gvel' ≤ linMomentum M T ⬝ᵥ linMomentum M T ∧
    angMomentum M c gvel' ⬝ᵥ angMomentum M c gvel' ≤ angMomentum M c T ⬝ᵥ angMomentum M c T := by
  intro bs h
  obtain ⟨e1, e2, e3⟩ := freeBody_dyn (H := H) T M
  simp only [bs, e1, e2, e3] at h
  have hdt : 0 < dt := ((C32_succeeds _ _ _ _ _ _ _).mp ⟨_, h⟩).1
  have hcs : cs = [] := by
    have := C43_only_active h
    simpa using this
  have he := C32_motion h
  rw [hcs] at he
  simp only [EquationOfMotion, List.map_nil, List.sum_nil, sub_zero, totalForce, add_zero] at he
  obtain ⟨h1, h2⟩ := free_equation hM hm he
  exact ⟨cross_decay hdt h1, cross_decay hdt h2⟩

/-- C74: such a step never fails, for any positive time step. -/
theorem C74_succeeds_partial {H : Mat4} (T : Vec6) {M : Mat6} {m : ℝ} {c : Vec3} {I : Mat3} {dt : ℝ}
    (hM : IsRigidMass M m c I) (hpd : SymPD M) (hm : 1e-10 < m) (hdt : 0 < dt) :
    let bs := worldDynamic 6 (freeBodyWorld H T M)
    ∃ r, stepGvel (worldMass bs) (worldViscosity bs) (worldNleffects bs) T [] [] dt = .ok r := by
  intro bs
  obtain ⟨e1, e2, e3⟩ := freeBody_dyn (H := H) T M
  simp only [bs, e1, e2, e3]
  rw [C32_succeeds]
  refine ⟨hdt, ?_⟩
  simp only [List.map_nil, List.sum_nil, sub_zero, add_zero]
  intro hdet
  obtain ⟨x, hx, h0⟩ := Matrix.exists_mulVec_eq_zero_iff.mpr hdet
  have he : (dt⁻¹ • M + bodyNleffects M T) *ᵥ x = dt⁻¹ • (M *ᵥ 0) := by rw [h0]; simp
  obtain ⟨h1, h2⟩ := free_equation hM hm he
  have z1 := cross_decay hdt h1
  have z2 := cross_decay hdt h2
  have hz : ∀ v : Vec3, v ⬝ᵥ v ≤ 0 → v = 0 := by
    intro v hv
    exact dotProduct_self_eq_zero.mp (le_antisymm hv
      (by rw [dotProduct]; exact Finset.sum_nonneg fun i _ => mul_self_nonneg _))
  have l0 : linMomentum M 0 = 0 := by simp [linMomentum]; rfl
  have a0 : angMomentum M c 0 = 0 := by
    have e : ang (M *ᵥ (0 : Vec6)) = 0 := by rw [Matrix.mulVec_zero]; rfl
    have e' : lin (M *ᵥ (0 : Vec6)) = 0 := by rw [Matrix.mulVec_zero]; rfl
    rw [angMomentum, e, e']; simp
  rw [l0] at z1; rw [a0] at z2
  have p0 : lin (M *ᵥ x) = 0 := hz _ (by simpa [linMomentum] using z1)
  have q0 : ang (M *ᵥ x) = 0 := by
    have := hz _ (by simpa using z2)
    rw [angMomentum, p0] at this; simpa using this
  have hMx : M *ᵥ x = 0 := by
    rw [← tw_ang_lin (M *ᵥ x), p0, q0]
    ext i; fin_cases i <;> simp [tw]
  have := hpd.2 x hx
  rw [hMx] at this; simp at this

/-- C74, the claim: a step of a free rigid body without controllers and constraints does not increase its kinetic
energy. -/
def C74_Claim : Prop :=
  ∀ (H : Mat4) (T gvel' : Vec6) (M : Mat6) (m : ℝ) (c : Vec3) (I : Mat3) (dt : ℝ) (cs : List (Con 6)), IsRigid H →
    IsRigidMass M m c I → SymPD M → 1e-10 < m →
    let bs := worldDynamic 6 (freeBodyWorld H T M)
    stepGvel (worldMass bs) (worldViscosity bs) (worldNleffects bs) T [] [] dt = .ok (gvel', cs) →
    gvel' ⬝ᵥ M *ᵥ gvel' ≤ T ⬝ᵥ M *ᵥ T
/-- C74 is false of the code: unit mass, central inertia diag(1,2,4), angular velocity (1,1,0), dt = 1: twice the kinetic
energy goes from 3 to 115/36. -/
theorem C74_false : ¬ C74_Claim := by
  intro h
  let M := diag6 1 2 4 1
  have hM := diag6_rigid 1 2 4 1
  have hpd : SymPD M := diag6_pd one_pos two_pos (by norm_num) one_pos
  have hm : (1e-10 : ℝ) < 1 := by norm_num
  let T : Vec6 := ![1, 1, 0, 0, 0, 0]
  let V : Vec6 := ![4/3, 5/6, -1/12, 0, 0, 0]
  obtain ⟨⟨g, cs⟩, hg⟩ := C74_succeeds_partial (H := 1) T hM hpd hm one_pos
  have hbad := h 1 T g M 1 0 _ 1 cs isRigid_one hM hpd hm hg
  obtain ⟨e1, e2, e3⟩ := freeBody_dyn (H := 1) T M
  simp only [M, e1, e2, e3] at hg
  have hdet := ((C32_succeeds _ _ _ _ _ _ _).mp ⟨_, hg⟩).2
  have hcs : cs = [] := by
    have := C43_only_active hg
    simpa using this
  have he := C32_motion hg
  rw [hcs] at he
  simp only [EquationOfMotion, List.map_nil, List.sum_nil, sub_zero, totalForce, add_zero, inv_one, one_smul] at he hdet
  have hN : bodyNleffects M T = blk (skew ![1, 1, 0]) 0 0 (skew ![1, 1, 0]) * M := by
    have ha : ang T = ![1, 1, 0] := by ext i; fin_cases i <;> rfl
    unfold bodyNleffects
    simp only [ha]
    congr 1
    have : b12 M = 0 := by rw [hM.b12]; simp [skew_zero]
    rw [this]; simp
  have hV : (M + bodyNleffects M T) *ᵥ V = M *ᵥ T := by
    rw [hN, Matrix.add_mulVec, ← Matrix.mulVec_mulVec]
    have hMV : M *ᵥ V = tw ![4/3, 5/3, -1/3] 0 := by
      simp only [M, diag6, V]
      ext i; rw [Matrix.mulVec_diagonal]; fin_cases i <;> simp [tw] <;> norm_num
    have hMT : M *ᵥ T = tw ![1, 2, 0] 0 := by
      simp only [M, diag6, T]
      ext i; rw [Matrix.mulVec_diagonal]; fin_cases i <;> simp [tw]
    rw [hMV, hMT, blk_mulVec, tw_add]
    congr 1
    · simp only [skew_mulVec]
      ext i; fin_cases i <;> simp [cross_apply] <;> norm_num
    · simp
  have hgV : g = V := by
    have hz : (M + bodyNleffects M T) *ᵥ (g - V) = 0 := by
      rw [Matrix.mulVec_sub, hV, sub_eq_zero]; exact he
    by_contra hne
    exact hdet (Matrix.exists_mulVec_eq_zero_iff.mp ⟨g - V, sub_ne_zero.mpr hne, hz⟩)
  rw [hgV] at hbad
  simp only [M, diag6, V, T, Matrix.mulVec_diagonal, dotProduct, Fin.sum_univ_six] at hbad
  simp at hbad
  norm_num at hbad

end Arboris
