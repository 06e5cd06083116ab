import Verif.Props.Dynamics

/-! # Counterexamples: C23 and C29 fail for a two-axis joint below a moving body -/

namespace Arboris
open Matrix Real Spec

/-- the jacobian of the second body of a two-joint chain without offsets -/
lemma chain_jac {n : ℕ} (l0 l1 : Link) (hv : ValidLink l1) (h00 : l0.bpose0 = 1) (h01 : l0.bpose1 = 1)
    (h10 : l1.bpose0 = 1) (h11 : l1.bpose1 = 1) :
    ([l0, l1].foldl dynStep (groundDyn n)).jac =
      adjointBody (invBody l1.joint.pose) * (l0.joint.jac * selMat n l0.start l0.k) +
        l1.joint.jac * selMat n l1.start l1.k := by
  simp only [List.foldl_cons, List.foldl_nil]
  rw [dynStep_jac, dynStep_jac, iadjoint_relPose hv, h11, h10, h01]
  have : invBody (1 : Mat4) = 1 := by
    have := isRigid_one.mul_invBody; rwa [Matrix.one_mul] at this
  simp [groundDyn, adjointBody_one, this]

lemma chain_djac {n : ℕ} (l0 l1 : Link) (h0 : ValidLink l0) (hv : ValidLink l1) (h00 : l0.bpose0 = 1)
    (h01 : l0.bpose1 = 1)
    (h10 : l1.bpose0 = 1) (h11 : l1.bpose1 = 1) (hd : l0.joint.djac = 0) :
    ([l0, l1].foldl dynStep (groundDyn n)).djac =
      l1.joint.idadjoint * (l0.joint.jac * selMat n l0.start l0.k) +
        l1.joint.djac * selMat n l1.start l1.k := by
  simp only [List.foldl_cons, List.foldl_nil]
  have : invBody (1 : Mat4) = 1 := by
    have := isRigid_one.mul_invBody; rwa [Matrix.one_mul] at this
  rw [dynStep_djac, dynStep_jac, dynStep_djac, iadjoint_relPose hv, h11, h10, h01]
  simp [groundDyn, adjointBody_one, this, hd]

lemma rotzy_eq (z y : ℝ) : rotzy z y = mkH (Rz z * Ry y) 0 := by
  rw [C02_rotzy, rotz_eq, roty_eq, mkH_mul]; simp

lemma adj_inv_rot (R : Mat3) : adjointBody (invBody (mkH R 0)) = blk Rᵀ 0 0 Rᵀ := by
  simp [invBody, adjointBody_mkH, skew_zero]

lemma RzRy_eq (z y : ℝ) : Rz z * Ry y =
    !![cos z * cos y, -sin z, cos z * sin y; sin z * cos y, cos z, sin z * sin y; -sin y, 0, cos y] := by
  ext i j; fin_cases i <;> fin_cases j <;> simp [Rz, Ry, Matrix.mul_apply, Fin.sum_univ_three]

/-- `TzJoint` moving at unit speed -/
noncomputable def exTz : LinkT := ⟨1, 0, fun s => (LinKind.Tz.val (fun _ : Fin 1 => s) (fun _ => 1) : JointVal 1), 1, 1⟩
/-- `RzRyJoint` at `z`, `y = y0 + s ẏ`, moving -/
noncomputable def exRzRy (z0 y0 zd yd : ℝ) : LinkT :=
  ⟨2, 1, fun s => (LinKind.RzRy.val (![z0 + s * zd, y0 + s * yd] : Fin 2 → ℝ) (![zd, yd] : Fin 2 → ℝ) : JointVal 2), 1, 1⟩

lemma exRzRy_pose (z0 y0 zd yd s : ℝ) : ((exRzRy z0 y0 zd yd).joint s).pose =
    mkH (Rz (z0 + s * zd) * Ry (y0 + s * yd)) 0 := by
  rw [← rotzy_eq]; rfl

lemma exRzRy_twist (z0 y0 zd yd s : ℝ) : ((exRzRy z0 y0 zd yd).joint s).twist =
    tw ![-sin (y0 + s * yd) * zd, yd, cos (y0 + s * yd) * zd] 0 := by
  have := twist_RzRy (![z0 + s * zd, y0 + s * yd] : Fin 2 → ℝ) ![zd, yd]
  have z3 : (![0,0,0] : Vec3) = 0 := by ext i; fin_cases i <;> rfl
  refine this.trans ?_
  rw [vec6_tw, z3]; simp

lemma hasDerivV_lin (z0 y0 zd yd t : ℝ) :
    HasDerivV (fun s => (![z0 + s * zd, y0 + s * yd] : Fin 2 → ℝ)) ![zd, yd] t := by
  intro i
  fin_cases i
  · simpa using ((hasDerivAt_id t).mul_const zd).const_add z0
  · simpa using ((hasDerivAt_id t).mul_const yd).const_add y0

lemma exRzRy_ok (z0 y0 zd yd t : ℝ) : ValidLink ((exRzRy z0 y0 zd yd).at t) ∧
    (exRzRy z0 y0 zd yd).Moving t ∧ (exRzRy z0 y0 zd yd).MovingJac t :=
  ⟨(C20_library_valid .RzRy (fun s => ![z0 + s * zd, y0 + s * yd]) (fun _ => ![zd, yd]) 1 isRigid_one isRigid_one t
      (H := fun _ => 1) isRigid_one (fun _ => 0)).1,
   (C24_library_moving .RzRy (fun s => ![z0 + s * zd, y0 + s * yd]) (fun _ => ![zd, yd]) 1 1 1 t
      (hasDerivV_lin _ _ _ _ t) (H := fun _ => 1) (T := fun _ => 0) (HasTwist.const t)).1,
   (C23_library_movingJac .RzRy (fun s => ![z0 + s * zd, y0 + s * yd]) (fun _ => ![zd, yd]) 1 1 1 t
      (hasDerivV_lin _ _ _ _ t) (fun _ => 1) (fun _ => 0)).1⟩

lemma exTz_ok (t : ℝ) : ValidLink (exTz.at t) ∧ exTz.Moving t ∧ exTz.MovingJac t := by
  have hd : HasDerivV (fun s (_ : Fin 1) => s) (fun _ => 1) t := fun _ => hasDerivAt_id t
  exact ⟨(C20_library_valid .Tz (fun s _ => s) (fun _ _ => 1) 0 isRigid_one isRigid_one t
      (H := fun _ => 1) isRigid_one (fun _ => 0)).1,
   (C24_library_moving .Tz (fun s _ => s) (fun _ _ => 1) 0 1 1 t hd (H := fun _ => 1) (T := fun _ => 0)
     (HasTwist.const t)).1,
   (C23_library_movingJac .Tz (fun s _ => s) (fun _ _ => 1) 0 1 1 t hd (fun _ => 1) (fun _ => 0)).1⟩

lemma exTz_jac (s : ℝ) : (exTz.joint s).jac * selMat 3 0 exTz.k =
    !![0,0,0; 0,0,0; 0,0,0; 0,0,0; 0,0,0; 1,0,0] := by
  change (!![0; 0; 0; 0; 0; 1] : Matrix (Fin 6) (Fin 1) ℝ) * selMat 3 0 1 = _
  ext i j; fin_cases i <;> fin_cases j <;> simp [selMat, Matrix.mul_apply]

lemma mul_sel_col0 (A : Matrix (Fin 6) (Fin 2) ℝ) (i : Fin 6) : (A * selMat 3 1 2) i 0 = 0 := by
  rw [Matrix.mul_apply]
  apply Finset.sum_eq_zero
  intro j _
  rw [selMat_col] <;> simp

/-- C23 is false of the code: a `TzJoint` followed by an `RzRyJoint`; all joint-level attributes are correct
derivatives, but the second body's `djacobian` is not the derivative of its `jacobian`. -/
theorem C23_false : ∃ (F : Forest LinkT Unit) (D : ℝ → BodyDyn 3),
    (∀ s, ∀ l ∈ F.links, ValidLink (l.at s) ∧ l.Moving s ∧ l.MovingJac s) ∧
    (∀ s, (worldDynamic 3 (treeAt F s))[1]? = some ((), D s)) ∧
    ¬ HasDeriv (fun s => (D s).jac) (D 0).djac 0 := by
  let l1 := exRzRy (π / 2) 0 0 1
  let F : Forest LinkT Unit := .cons exTz () (.cons l1 () .nil .nil) .nil
  refine ⟨F, fun s => dynAt 3 [exTz, l1] s, ?_, fun s => ?_, ?_⟩
  · intro s l hl
    simp only [F, Forest.links, List.cons_append, List.nil_append, List.append_nil, List.mem_cons,
      List.not_mem_nil, or_false] at hl
    rcases hl with rfl | rfl
    · exact exTz_ok s
    · exact exRzRy_ok _ _ _ _ s
  · rw [worldDynamic_treeAt]; rfl
  · intro h
    have h1 := h 3 0
    have ej : ∀ s, (dynAt 3 [exTz, l1] s).jac 3 0 = -sin s := by
      intro s
      have := chain_jac (n := 3) (exTz.at s) (l1.at s) (exRzRy_ok _ _ _ _ s).1 rfl rfl rfl rfl
      rw [dynAt]
      change (([exTz.at s, l1.at s].foldl dynStep (groundDyn 3)).jac) 3 0 = _
      rw [this]
      change (adjointBody (invBody (l1.joint s).pose) * ((exTz.joint s).jac * selMat 3 0 exTz.k) +
        (l1.joint s).jac * selMat 3 1 l1.k) 3 0 = _
      rw [exTz_jac, Matrix.add_apply]
      have e0 : ((l1.joint s).jac * selMat 3 1 l1.k) 3 0 = 0 := mul_sel_col0 _ _
      rw [e0, add_zero]
      simp only [l1, exRzRy_pose]
      rw [adj_inv_rot, RzRy_eq]
      simp [Matrix.mul_apply, Fin.sum_univ_six, blk]
    have ed : (dynAt 3 [exTz, l1] 0).djac 3 0 = 1 := by
      have := chain_djac (n := 3) (exTz.at 0) (l1.at 0) (exTz_ok 0).1 (exRzRy_ok _ _ _ _ 0).1 rfl rfl rfl rfl rfl
      rw [dynAt]
      change (([exTz.at 0, l1.at 0].foldl dynStep (groundDyn 3)).djac) 3 0 = _
      rw [this]
      change ((l1.joint 0).idadjoint * ((exTz.joint 0).jac * selMat 3 0 exTz.k) +
        (l1.joint 0).djac * selMat 3 1 l1.k) 3 0 = _
      rw [exTz_jac, Matrix.add_apply]
      have e0 : ((l1.joint 0).djac * selMat 3 1 l1.k) 3 0 = 0 := mul_sel_col0 _ _
      rw [e0, add_zero]
      have ei : (l1.joint 0).ipose = invBody (l1.joint 0).pose := (exRzRy_ok _ _ _ _ 0).1.ipose_eq
      simp only [JointVal.idadjoint, JointVal.itwist, JointVal.iadjoint, ei]
      simp only [l1, exRzRy_pose, exRzRy_twist]
      rw [adj_inv_rot, RzRy_eq, blk_mulVec, tw_neg, adjacency_eq, ang_tw, lin_tw, blk_mul]
      simp only [mulVec3]
      simp [Matrix.mul_apply, Fin.sum_univ_six, Fin.sum_univ_three, blk, skew]
    simp only [ej, ed] at h1
    have h2 := (hasDerivAt_sin (0:ℝ)).fun_neg
    have := h1.unique h2
    simp at this
    norm_num at this

/-! ### C29 -/

/-- `RxJoint` turning at unit rate -/
noncomputable def exRx : LinkT := ⟨1, 0, fun s => (LinKind.Rx.val (fun _ : Fin 1 => s) (fun _ => 1) : JointVal 1), 1, 1⟩

lemma exRx_ok (t : ℝ) : ValidLink (exRx.at t) ∧ exRx.Moving t ∧ exRx.MovingJac t := by
  have hd : HasDerivV (fun s (_ : Fin 1) => s) (fun _ => 1) t := fun _ => hasDerivAt_id t
  exact ⟨(C20_library_valid .Rx (fun s _ => s) (fun _ _ => 1) 0 isRigid_one isRigid_one t
      (H := fun _ => 1) isRigid_one (fun _ => 0)).1,
   (C24_library_moving .Rx (fun s _ => s) (fun _ _ => 1) 0 1 1 t hd (H := fun _ => 1) (T := fun _ => 0)
     (HasTwist.const t)).1,
   (C23_library_movingJac .Rx (fun s _ => s) (fun _ _ => 1) 0 1 1 t hd (fun _ => 1) (fun _ => 0)).1⟩

lemma exRx_cons (s : ℝ) : Consistent (fun _ : Fin 3 => (1:ℝ)) (exRx.at s) :=
  ⟨by simp [exRx, LinkT.at], rfl⟩
lemma exRzRy_cons (z0 y0 s : ℝ) : Consistent (fun _ : Fin 3 => (1:ℝ)) ((exRzRy z0 y0 1 1).at s) := by
  refine ⟨by simp [exRzRy, LinkT.at], ?_⟩
  have e : (![1, 1] : Fin 2 → ℝ) = fun _ => 1 := by ext i; fin_cases i <;> rfl
  exact congrArg (fun v => LinKind.jac .RzRy (![z0 + s * 1, y0 + s * 1] : Fin 2 → ℝ) *ᵥ v) e

/-- the two-body chain of the counterexample: a massless first body, unit mass matrix for the second -/
noncomputable def exF : Forest LinkT Body :=
  .cons exRx ⟨0, 0⟩ (.cons (exRzRy 0 (π / 2) 1 1) ⟨1, 0⟩ .nil .nil) .nil

lemma exRx_jac_ones (s : ℝ) : ((exRx.joint s).jac * selMat 3 0 exRx.k) *ᵥ (fun _ => (1:ℝ)) = tw ![1,0,0] 0 := by
  rw [← Matrix.mulVec_mulVec, selMat_mulVec _ _ _ (by simp [exRx])]
  have z3 : (![0,0,0] : Vec3) = 0 := by ext i; fin_cases i <;> rfl
  rw [← z3, ← vec6_tw]
  exact (twist_Rx (fun _ => s) (fun _ => 1))

lemma exRzRy_jac_ones (s : ℝ) : ((((exRzRy 0 (π / 2) 1 1).joint s).jac * selMat 3 1 (exRzRy 0 (π / 2) 1 1).k) *ᵥ
      (fun _ => (1:ℝ))) = tw ![-sin (π / 2 + s), 1, cos (π / 2 + s)] 0 := by
  obtain ⟨h, e⟩ := exRzRy_cons 0 (π / 2) s
  rw [← Matrix.mulVec_mulVec, selMat_mulVec _ _ _ (show 1 + (exRzRy 0 (π / 2) 1 1).k ≤ 3 from h)]
  refine e.symm.trans ?_
  have := exRzRy_twist 0 (π / 2) 1 1 s
  simp only [mul_one] at this
  exact this

lemma exRzRy_djac_ones : ((((exRzRy 0 (π / 2) 1 1).joint 0).djac * selMat 3 1 (exRzRy 0 (π / 2) 1 1).k) *ᵥ
      (fun _ => (1:ℝ))) = tw ![0, 0, -1] 0 := by
  have h : 1 + (exRzRy 0 (π / 2) 1 1).k ≤ 3 := by simp [exRzRy]
  rw [← Matrix.mulVec_mulVec, selMat_mulVec _ _ _ h]
  change (LinKind.djac .RzRy (![0 + 0 * 1, π / 2 + 0 * 1] : Fin 2 → ℝ) (![1, 1] : Fin 2 → ℝ) :
    Matrix (Fin 6) (Fin 2) ℝ) *ᵥ (fun _ : Fin 2 => (1:ℝ)) = _
  ext i
  have e : ∀ (A : Matrix (Fin 6) (Fin 2) ℝ), (A *ᵥ (fun _ : Fin 2 => (1:ℝ))) i = A i 0 + A i 1 := by
    intro A; simp [Matrix.mulVec, dotProduct, Fin.sum_univ_two]
  refine (e _).trans ?_
  fin_cases i <;> simp [LinKind.djac, tw, e6, finSumFinEquiv, Fin.addCases]

lemma exF_world (s : ℝ) : worldDynamic 3 (treeAt exF s) =
    [(⟨0, 0⟩, dynAt 3 [exRx] s), (⟨1, 0⟩, dynAt 3 [exRx, exRzRy 0 (π / 2) 1 1] s)] := by
  rw [worldDynamic_treeAt]; rfl

lemma exF_jac (s : ℝ) : (dynAt 3 [exRx, exRzRy 0 (π / 2) 1 1] s).jac *ᵥ (fun _ => (1:ℝ)) =
    tw ![cos s * cos (π / 2 + s) - sin (π / 2 + s), 1 - sin s, cos s * sin (π / 2 + s) + cos (π / 2 + s)] 0 := by
  have h := chain_jac (n := 3) (exRx.at s) ((exRzRy 0 (π / 2) 1 1).at s) (exRzRy_ok _ _ _ _ s).1 rfl rfl rfl rfl
  have h' : (dynAt 3 [exRx, exRzRy 0 (π / 2) 1 1] s).jac =
    adjointBody (invBody ((exRzRy 0 (π / 2) 1 1).joint s).pose) * ((exRx.joint s).jac * selMat 3 0 exRx.k) +
        ((exRzRy 0 (π / 2) 1 1).joint s).jac * selMat 3 1 (exRzRy 0 (π / 2) 1 1).k := h
  rw [h', Matrix.add_mulVec, exRzRy_jac_ones, ← Matrix.mulVec_mulVec, exRx_jac_ones, exRzRy_pose,
    adj_inv_rot, blk_mulVec, RzRy_eq, tw_add]
  simp only [mulVec3]
  congr 1
  · ext i; fin_cases i <;> simp <;> ring
  · simp

lemma exF_djac : (dynAt 3 [exRx, exRzRy 0 (π / 2) 1 1] 0).djac *ᵥ (fun _ => (1:ℝ)) = tw ![-1, 1, -1] 0 := by
  have h := chain_djac (n := 3) (exRx.at 0) ((exRzRy 0 (π / 2) 1 1).at 0) (exRx_ok 0).1
    (exRzRy_ok _ _ _ _ 0).1 rfl rfl rfl rfl rfl
  have h' : (dynAt 3 [exRx, exRzRy 0 (π / 2) 1 1] 0).djac =
    ((exRzRy 0 (π / 2) 1 1).joint 0).idadjoint * ((exRx.joint 0).jac * selMat 3 0 exRx.k) +
        ((exRzRy 0 (π / 2) 1 1).joint 0).djac * selMat 3 1 (exRzRy 0 (π / 2) 1 1).k := h
  have ei : ((exRzRy 0 (π / 2) 1 1).joint 0).ipose = invBody ((exRzRy 0 (π / 2) 1 1).joint 0).pose :=
    (exRzRy_ok _ _ _ _ 0).1.ipose_eq
  rw [h', Matrix.add_mulVec, exRzRy_djac_ones, ← Matrix.mulVec_mulVec, exRx_jac_ones]
  simp only [JointVal.idadjoint, JointVal.itwist, JointVal.iadjoint, ei]
  simp only [exRzRy_pose, exRzRy_twist]
  rw [adj_inv_rot, RzRy_eq, blk_mulVec, tw_neg, adjacency_eq, ang_tw, lin_tw, blk_mul, blk_mulVec, tw_add]
  simp only [mulVec3, Matrix.zero_mulVec, Matrix.mulVec_zero, Matrix.mul_zero, Matrix.zero_mul, add_zero, zero_add,
    neg_zero, skew_zero]
  congr 1
  ext i; fin_cases i <;> simp [skew, Matrix.mul_apply, Fin.sum_univ_three]

/-- the energy of `RxJoint` then `RzRyJoint` with constant velocities -/
lemma exF_energy :
    (∀ s, ∀ l ∈ exF.links, ValidLink (l.at s) ∧ l.Moving s ∧ l.MovingJac s ∧ Consistent (fun _ : Fin 3 => (1:ℝ)) (l.at s)) ∧
    (∀ b ∈ exF.bodies, ∃ m c I, IsRigidMass b.mass m c I ∧ (1e-10 < m ∨ m • c = 0)) ∧
    HasDerivAt (fun s => 1 / 2 * ((fun _ : Fin 3 => (1:ℝ)) ⬝ᵥ worldMass (worldDynamic 3 (treeAt exF s)) *ᵥ fun _ => 1)) (-1) 0 ∧
    (fun _ : Fin 3 => (1:ℝ)) ⬝ᵥ (worldMass (worldDynamic 3 (treeAt exF 0)) *ᵥ 0 +
        worldNleffects (worldDynamic 3 (treeAt exF 0)) *ᵥ fun _ => 1) = 1 := by
  have hall : ∀ s, ∀ l ∈ exF.links,
      ValidLink (l.at s) ∧ l.Moving s ∧ l.MovingJac s ∧ Consistent (fun _ : Fin 3 => (1:ℝ)) (l.at s) := by
    intro s l hl
    simp only [exF, Forest.links, List.cons_append, List.nil_append, List.append_nil, List.mem_cons,
      List.not_mem_nil, or_false] at hl
    rcases hl with rfl | rfl
    · exact ⟨(exRx_ok s).1, (exRx_ok s).2.1, (exRx_ok s).2.2, exRx_cons s⟩
    · exact ⟨(exRzRy_ok _ _ _ _ s).1, (exRzRy_ok _ _ _ _ s).2.1, (exRzRy_ok _ _ _ _ s).2.2, exRzRy_cons _ _ s⟩
  have hM0 : IsRigidMass (0 : Mat6) 0 0 0 := ⟨Matrix.transpose_zero, by simp [blk_zero]⟩
  have hM1 : IsRigidMass (1 : Mat6) 1 0 1 := ⟨Matrix.transpose_one, by simp [skew_zero, blk_one]⟩
  refine ⟨hall, ?_, ?_, ?_⟩
  · intro b hb
    simp only [exF, Forest.bodies, List.cons_append, List.nil_append, List.append_nil, List.mem_cons,
      List.not_mem_nil, or_false] at hb
    rcases hb with rfl | rfl
    · exact ⟨0, 0, 0, hM0, Or.inr (by simp)⟩
    · exact ⟨1, 0, 1, hM1, Or.inl (by norm_num)⟩
  · have e : (fun s => 1 / 2 * ((fun _ : Fin 3 => (1:ℝ)) ⬝ᵥ worldMass (worldDynamic 3 (treeAt exF s)) *ᵥ fun _ => 1)) =
        fun s => 3 / 2 - sin s := by
      funext s
      rw [exF_world, worldMass_eq]
      simp only [List.map_cons, List.map_nil, List.sum_cons, List.sum_nil, Matrix.mul_zero, Matrix.zero_mul,
        zero_add, add_zero]
      rw [dot_JtMJ, exF_jac, Matrix.one_mulVec, tw_dot]
      have h1 : cos (π / 2 + s) = -sin s := by rw [add_comm, cos_add_pi_div_two]
      have h2 : sin (π / 2 + s) = cos s := by rw [add_comm, sin_add_pi_div_two]
      rw [h1, h2]
      simp only [dotProduct, Fin.sum_univ_three]
      simp
      have := sin_sq_add_cos_sq s
      have : cos s ^ 2 = 1 - sin s ^ 2 := by linarith
      have h4 : cos s ^ 4 = (1 - sin s ^ 2) ^ 2 := by rw [← this]; ring
      ring_nf
      rw [h4, this]; ring
    rw [e]
    have := (hasDerivAt_sin (0:ℝ)).const_sub (3/2)
    simpa using this
  · have ht := C21_twist (fun _ => (1:ℝ)) (treeAt exF 0) (n := 3) (by
      intro l hl
      have : (treeAt exF 0).links = exF.links.map (fun l => l.at 0) := rfl
      rw [this] at hl
      obtain ⟨l', hl', rfl⟩ := List.mem_map.mp hl
      exact (hall 0 l' hl').2.2.2)
    rw [Matrix.mulVec_zero, zero_add, nle_power _ _ ht]
    · rw [exF_world] at ht ⊢
      simp only [List.map_cons, List.map_nil, List.sum_cons, List.sum_nil, Matrix.zero_mulVec, dotProduct_zero,
        zero_add, add_zero, Matrix.one_mulVec]
      rw [ht (⟨1, 0⟩, dynAt 3 [exRx, exRzRy 0 (π / 2) 1 1] 0) (by simp)]
      simp only
      rw [exF_jac, exF_djac, tw_dot]
      simp only [dotProduct, Fin.sum_univ_three]
      simp
    · intro x hx
      rw [exF_world] at hx
      simp only [List.mem_cons, List.not_mem_nil, or_false] at hx
      rcases hx with rfl | rfl
      · exact ((C28_small hM0 (by norm_num) _).2 (by simp)).2
      · exact (C28_bias hM1 (by norm_num) _).2

/-- C29 is false of the code: `RxJoint` then `RzRyJoint`, constant joint velocities; the kinetic energy decreases at
unit rate while `νᵀ(mass ν' + nleffects ν)` is `+1`. -/
theorem C29_false : ∃ (F : Forest LinkT Body) (ν : Fin 3 → ℝ),
    (∀ s, ∀ l ∈ F.links, ValidLink (l.at s) ∧ l.Moving s ∧ l.MovingJac s ∧ Consistent ν (l.at s)) ∧
    (∀ b ∈ F.bodies, ∃ m c I, IsRigidMass b.mass m c I ∧ (1e-10 < m ∨ m • c = 0)) ∧
    HasDerivAt (fun s => 1 / 2 * (ν ⬝ᵥ worldMass (worldDynamic 3 (treeAt F s)) *ᵥ ν)) (-1) 0 ∧
    ν ⬝ᵥ (worldMass (worldDynamic 3 (treeAt F 0)) *ᵥ 0 +
        worldNleffects (worldDynamic 3 (treeAt F 0)) *ᵥ ν) = 1 :=
  ⟨exF, fun _ => 1, exF_energy⟩

end Arboris
