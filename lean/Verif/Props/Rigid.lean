import Verif.Proofs.Rigid
import Verif.Model.RigidMotion

/-! # Properties C01–C07, C12: rigid motions -/

namespace Arboris
open Matrix Real Spec

private lemma rigid_of_rot {H : Mat4} (h : (rot H)ᵀ * rot H = 1) (hd : (rot H).det = 1)
    (h0 : H 3 0 = 0) (h1 : H 3 1 = 0) (h2 : H 3 2 = 0) (h3 : H 3 3 = 1) : IsRigid H :=
  isRigid_iff.mpr ⟨_, _, IsRotation.of_orth h hd, eq_mkH_of_row h0 h1 h2 h3⟩

/-- C02: the multi-angle constructors are the documented products. -/
theorem C02_rotzyx (z y x : ℝ) : rotzyx z y x = rotz z * roty y * rotx x := by
  ext i j; fin_cases i <;> fin_cases j <;>
    simp [rotzyx, rotx, roty, rotz, Matrix.mul_apply, Fin.sum_univ_four] <;> ring
theorem C02_rotzy (z y : ℝ) : rotzy z y = rotz z * roty y := by
  ext i j; fin_cases i <;> fin_cases j <;>
    simp [rotzy, roty, rotz, Matrix.mul_apply, Fin.sum_univ_four]
theorem C02_rotzx (z x : ℝ) : rotzx z x = rotz z * rotx x := by
  ext i j; fin_cases i <;> fin_cases j <;>
    simp [rotzx, rotx, rotz, Matrix.mul_apply, Fin.sum_univ_four]
theorem C02_rotyx (y x : ℝ) : rotyx y x = roty y * rotx x := by
  ext i j; fin_cases i <;> fin_cases j <;>
    simp [rotyx, roty, rotx, Matrix.mul_apply, Fin.sum_univ_four]
theorem C02_T_DH (d t r a : ℝ) :
    T_DH d t r a = rotz t * transl 0 0 d * transl r 0 0 * rotx a := by
  ext i j; fin_cases i <;> fin_cases j <;>
    simp [T_DH, rotx, rotz, transl, Matrix.mul_apply, Fin.sum_univ_four] <;> ring

/-- C01: elementary constructors build rigid motions. -/
theorem C01_transl (x y z : ℝ) : IsRigid (transl x y z) := by
  have : transl x y z = mkH 1 ![x, y, z] := by
    ext i j; fin_cases i <;> fin_cases j <;> simp [transl, mkH]
  rw [this]; exact isRigid_mkH IsRotation.one
theorem C01_rotx (a : ℝ) : IsRigid (rotx a) := by
  apply rigid_of_rot
  · ext i j; fin_cases i <;> fin_cases j <;>
      simp [rotx, rot, Matrix.mul_apply, Fin.sum_univ_three] <;> nlinarith [sin_sq_add_cos_sq a]
  · simp [rotx, rot, det_fin_three]; nlinarith [sin_sq_add_cos_sq a]
  all_goals simp [rotx]
theorem C01_roty (a : ℝ) : IsRigid (roty a) := by
  apply rigid_of_rot
  · ext i j; fin_cases i <;> fin_cases j <;>
      simp [roty, rot, Matrix.mul_apply, Fin.sum_univ_three] <;> nlinarith [sin_sq_add_cos_sq a]
  · simp [roty, rot, det_fin_three]; nlinarith [sin_sq_add_cos_sq a]
  all_goals simp [roty]
theorem C01_rotz (a : ℝ) : IsRigid (rotz a) := by
  apply rigid_of_rot
  · ext i j; fin_cases i <;> fin_cases j <;>
      simp [rotz, rot, Matrix.mul_apply, Fin.sum_univ_three] <;> nlinarith [sin_sq_add_cos_sq a]
  · simp [rotz, rot, det_fin_three]; nlinarith [sin_sq_add_cos_sq a]
  all_goals simp [rotz]
theorem C01_mul {H K : Mat4} (hH : IsRigid H) (hK : IsRigid K) : IsRigid (H * K) := hH.mul hK
theorem C01_rotzyx (z y x : ℝ) : IsRigid (rotzyx z y x) := by
  rw [C02_rotzyx]; exact ((C01_rotz z).mul (C01_roty y)).mul (C01_rotx x)
theorem C01_rotzy (z y : ℝ) : IsRigid (rotzy z y) := by
  rw [C02_rotzy]; exact (C01_rotz z).mul (C01_roty y)
theorem C01_rotzx (z x : ℝ) : IsRigid (rotzx z x) := by
  rw [C02_rotzx]; exact (C01_rotz z).mul (C01_rotx x)
theorem C01_rotyx (y x : ℝ) : IsRigid (rotyx y x) := by
  rw [C02_rotyx]; exact (C01_roty y).mul (C01_rotx x)
theorem C01_T_DH (d t r a : ℝ) : IsRigid (T_DH d t r a) := by
  rw [C02_T_DH]
  exact (((C01_rotz t).mul (C01_transl _ _ _)).mul (C01_transl _ _ _)).mul (C01_rotx a)
/-- C01: whatever is rigid passes the library's own check `ishomogeneousmatrix`. -/
theorem C01_accepted {H : Mat4} (h : IsRigid H) : ishomogeneousmatrix H := h.ishom
/-- C01: the rotation axes and senses are the right-handed ones: `rotx(a)` fixes the x axis and turns `e_y` to
`cos a e_y + sin a e_z`, and so on cyclically; `transl` moves the origin to its arguments. -/
theorem C01_axes (a x y z : ℝ) :
    pdotBody (rotx a) ![1,0,0] = ![1,0,0] ∧ pdotBody (rotx a) ![0,1,0] = ![0, cos a, sin a] ∧
    pdotBody (roty a) ![0,1,0] = ![0,1,0] ∧ pdotBody (roty a) ![0,0,1] = ![sin a, 0, cos a] ∧
    pdotBody (rotz a) ![0,0,1] = ![0,0,1] ∧ pdotBody (rotz a) ![1,0,0] = ![cos a, sin a, 0] ∧
    pdotBody (transl x y z) ![0,0,0] = ![x, y, z] := by
  refine ⟨?_, ?_, ?_, ?_, ?_, ?_, ?_⟩ <;> ext i <;> fin_cases i <;>
    simp only [pdotBody, Matrix.mulVec, dotProduct, Fin.sum_univ_three, Pi.add_apply] <;>
    simp [rotx, roty, rotz, transl, rot, pos]

example : ¬ IsRigid (2 • (1 : Mat4)) := by
  intro h; have := h.2.2.2.2; simp at this

/-- C03: `inv` succeeds on rigid motions and is the two-sided inverse. -/
theorem C03_inv {H : Mat4} (h : IsRigid H) :
    ∃ K, inv H = .ok K ∧ IsRigid K ∧ H * K = 1 ∧ K * H = 1 ∧ inv K = .ok H := by
  refine ⟨invBody H, assertHom_ok h.ishom _, h.invBody, h.mul_invBody, h.invBody_mul, ?_⟩
  rw [inv, assertHom_ok h.invBody.ishom, h.invBody_invBody]
/-- C03: `inv(H K) = inv(K) inv(H)`. -/
theorem C03_inv_mul {H K : Mat4} (hH : IsRigid H) (hK : IsRigid K) {A B C : Mat4}
    (hA : inv (H * K) = .ok A) (hB : inv H = .ok B) (hC : inv K = .ok C) : A = C * B := by
  rw [inv, assertHom_ok (hH.mul hK).ishom] at hA
  rw [inv, assertHom_ok hH.ishom] at hB
  rw [inv, assertHom_ok hK.ishom] at hC
  cases hA; cases hB; cases hC
  exact hH.invBody_mul_rev hK
/-- the hypotheses of C03 are met by a non-trivial motion -/
example : IsRigid (rotz 1 * transl 1 2 3) := (C01_rotz 1).mul (C01_transl 1 2 3)

/-- C04 is false of the code: a shear is accepted by `ishomogeneousmatrix` and `inv` returns something which is
not its inverse, on either side. -/
theorem C04_false : ∃ H K : Mat4, ishomogeneousmatrix H ∧ inv H = .ok K ∧ K * H ≠ 1 ∧ H * K ≠ 1 := by
  have hh : ishomogeneousmatrix (!![1,1,0,0; 0,1,0,0; 0,0,1,0; 0,0,0,1] : Mat4) := by
    refine ⟨?_, ?_, ?_, ?_, ?_⟩
    · simp [rot, det_fin_three, tol_pos.le]
    all_goals simp
  refine ⟨!![1,1,0,0; 0,1,0,0; 0,0,1,0; 0,0,0,1], _, hh, assertHom_ok hh _, ?_, ?_⟩
  · intro h
    have := congrFun (congrFun h 0) 1
    simp [invBody, mkH, rot, Matrix.mul_apply, Fin.sum_univ_four] at this
  · intro h
    have := congrFun (congrFun h 0) 1
    simp [invBody, mkH, rot, Matrix.mul_apply, Fin.sum_univ_four] at this
/-- C04, what does hold: for an accepted matrix, `inv` always succeeds and its result is the inverse exactly when
the rotation block is orthogonal.  Missing for the full claim: `ishomogeneousmatrix` does not check
orthogonality. -/
theorem C04_partial {H : Mat4} (h : ishomogeneousmatrix H) :
    ∃ K, inv H = .ok K ∧ (K * H = 1 ↔ (rot H)ᵀ * rot H = 1) := by
  refine ⟨_, assertHom_ok h _, ?_⟩
  have e := eq_mkH_of_row h.2.1 h.2.2.1 h.2.2.2.1 h.2.2.2.2
  generalize rot H = R at *
  generalize pos H = p at *
  subst e
  simp only [invBody, rot_mkH, pos_mkH, mkH_mul, ← mkH_one, mkH_inj]
  simp

/-- C05: `adjoint` succeeds on rigid motions, is multiplicative, maps identity to identity. -/
theorem C05_adjoint_mul {H K : Mat4} (hH : IsRigid H) (hK : IsRigid K) :
    ∃ A B, adjoint H = .ok A ∧ adjoint K = .ok B ∧ adjoint (H * K) = .ok (A * B) := by
  refine ⟨_, _, assertHom_ok hH.ishom _, assertHom_ok hK.ishom _, ?_⟩
  rw [adjoint, assertHom_ok (hH.mul hK).ishom, adjointBody_mul hH hK]
theorem C05_adjoint_one : adjoint 1 = .ok 1 := by
  rw [adjoint, assertHom_ok isRigid_one.ishom, adjointBody_one]
/-- C05: `iadjoint(H)` is the two-sided inverse of `adjoint(H)`; `adjointmatrix.inv` computes it too; and
`adjointmatrix.isadjointmatrix` accepts both. -/
theorem C05_iadjoint {H : Mat4} (h : IsRigid H) :
    ∃ A B, adjoint H = .ok A ∧ iadjoint H = .ok B ∧ A * B = 1 ∧ B * A = 1 ∧ adjInv A = B ∧
      isadjointmatrix A ∧ isadjointmatrix B := by
  refine ⟨_, adjointBody (invBody H), assertHom_ok h.ishom _, ?_, h.adjoint_mul_inv, h.adjoint_inv_mul,
    adjInv_adjointBody h, ?_, ?_⟩
  · simp only [iadjoint, inv, assertHom_ok h.ishom]
    exact assertHom_ok h.invBody.ishom _
  · simp [isadjointmatrix, adjointBody, h.rotation.2.2]
  · simp [isadjointmatrix, adjointBody, h.invBody.rotation.2.2]
/-- C05: what `adjointmatrix.isadjointmatrix` tests: the two diagonal blocks are the same matrix of determinant 1 and the upper right
block is zero; neither the orthogonality of the diagonal block nor the shape of the lower left block is looked at, so that it also accepts
matrices that are the adjoint of no rigid motion. -/
theorem C05_isadjointmatrix (A : Mat6) :
    (isadjointmatrix A ↔ ∃ R X : Mat3, R.det = 1 ∧ A = blk R 0 X R) ∧
    (∃ B : Mat6, isadjointmatrix B ∧ ∀ H, IsRigid H → adjoint H ≠ .ok B) := by
  refine ⟨⟨fun ⟨h1, h2, h3⟩ => ⟨b11 A, b21 A, h1, ?_⟩, ?_⟩, blk 1 0 1 1, by simp [isadjointmatrix], ?_⟩
  · have e := blk_eta A
    rw [← h2, h3] at e
    exact e.symm
  · rintro ⟨R, X, h, rfl⟩
    simp [isadjointmatrix, h]
  · intro H hH e
    obtain ⟨R, p, hR, rfl⟩ := isRigid_iff.mp hH
    rw [adjoint, assertHom_ok hH.ishom, adjointBody_mkH] at e
    have e' := Except.ok.inj e
    obtain ⟨e1, _, e3, _⟩ := blk_inj.mp e'
    rw [e1, Matrix.mul_one] at e3
    have := congrFun (congrFun e3 0) 0
    simp [skew] at this

/-- C05: `adjoint(H)` transports twists: `hat(Ad_H T) = H hat(T) H⁻¹`. -/
theorem C05_adjoint_acts {H : Mat4} (h : IsRigid H) (T : Vec6) {A : Mat6} {K : Mat4}
    (hA : adjoint H = .ok A) (hK : inv H = .ok K) : hat (A *ᵥ T) = H * hat T * K := by
  rw [adjoint, assertHom_ok h.ishom] at hA; cases hA
  rw [inv, assertHom_ok h.ishom] at hK; cases hK
  rw [h.mul_hat, Matrix.mul_assoc, h.mul_invBody, Matrix.mul_one]

/-- C06: `pdot`/`vdot` are actions of rigid motions; they succeed on every rigid motion. -/
theorem C06_pdot_mul {H K : Mat4} (hH : IsRigid H) (hK : IsRigid K) (p : Vec3) :
    ∃ q, pdot K p = .ok q ∧ pdot (H * K) p = pdot H q := by
  refine ⟨_, assertHom_ok hK.ishom _, ?_⟩
  rw [pdot, pdot, assertHom_ok (hH.mul hK).ishom, assertHom_ok hH.ishom]
  obtain ⟨R, p, hR, rfl⟩ := isRigid_iff.mp hH
  obtain ⟨S, q, hS, rfl⟩ := isRigid_iff.mp hK
  simp [pdotBody, mkH_mul, Matrix.mulVec_add, Matrix.mulVec_mulVec, add_assoc]
theorem C06_vdot_mul {H K : Mat4} (hH : IsRigid H) (hK : IsRigid K) (p : Vec3) :
    ∃ q, vdot K p = .ok q ∧ vdot (H * K) p = vdot H q := by
  refine ⟨_, assertHom_ok hK.ishom _, ?_⟩
  rw [vdot, vdot, assertHom_ok (hH.mul hK).ishom, assertHom_ok hH.ishom]
  obtain ⟨R, p, hR, rfl⟩ := isRigid_iff.mp hH
  obtain ⟨S, q, hS, rfl⟩ := isRigid_iff.mp hK
  simp [vdotBody, mkH_mul, Matrix.mulVec_mulVec]
theorem C06_pdot_inv {H : Mat4} (h : IsRigid H) (p : Vec3) :
    ∃ K q, inv H = .ok K ∧ pdot H p = .ok q ∧ pdot K q = .ok p := by
  refine ⟨_, _, assertHom_ok h.ishom _, assertHom_ok h.ishom _, ?_⟩
  rw [pdot, assertHom_ok h.invBody.ishom]
  obtain ⟨R, p, hR, rfl⟩ := isRigid_iff.mp h
  simp [pdotBody, invBody, Matrix.mulVec_add, Matrix.mulVec_mulVec, hR.2.1]
theorem C06_pdot_sub {H : Mat4} (h : IsRigid H) (p q : Vec3) :
    ∃ p' q', pdot H p = .ok p' ∧ pdot H q = .ok q' ∧ vdot H (p - q) = .ok (p' - q') := by
  refine ⟨_, _, assertHom_ok h.ishom _, assertHom_ok h.ishom _, ?_⟩
  rw [vdot, assertHom_ok h.ishom]
  simp [pdotBody, vdotBody, Matrix.mulVec_sub]
theorem C06_vdot_dot {H : Mat4} (h : IsRigid H) (u v : Vec3) :
    ∃ u' v', vdot H u = .ok u' ∧ vdot H v = .ok v' ∧ u' ⬝ᵥ v' = u ⬝ᵥ v := by
  exact ⟨_, _, assertHom_ok h.ishom _, assertHom_ok h.ishom _, h.rotation.dot u v⟩

/-- C07: `dAdjoint` is the time derivative of `adjoint`. -/
theorem C07_dAdjoint {H : ℝ → Mat4} {T : Vec6} {t : ℝ} (hr : ∀ s, IsRigid (H s)) (hT : HasTwist H T t) :
    ∃ Ad : ℝ → Mat6, (∀ s, adjoint (H s) = .ok (Ad s)) ∧ HasDeriv Ad (dAdjoint (Ad t) T) t :=
  ⟨fun s => adjointBody (H s), fun s => assertHom_ok (hr s).ishom _, hT.adjoint (hr t)⟩
/-- C07 hypotheses: rotation about z at unit rate while the frame sits off-axis. -/
theorem rotz_hasTwist (a : ℝ → ℝ) (a' t : ℝ) (h : HasDerivAt a a' t) :
    HasTwist (fun s => rotz (a s)) ![0,0,a',0,0,0] t := by
  intro i j
  fin_cases i <;> fin_cases j <;>
    simp [rotz, hat, Matrix.mul_apply, Fin.sum_univ_four] <;>
    first
      | exact hasDerivAt_const t _
      | exact h.sin.congr_deriv (by ring)
      | exact h.cos.congr_deriv (by ring)
      | exact h.sin.fun_neg.congr_deriv (by ring)
example : ∃ (H : ℝ → Mat4) (T : Vec6), T ≠ 0 ∧ (∀ s, IsRigid (H s)) ∧ HasTwist H T 1 := by
  refine ⟨fun s => rotz (id s), ![0,0,1,0,0,0], ?_, fun s => C01_rotz _, rotz_hasTwist id 1 1 (hasDerivAt_id 1)⟩
  intro h; simpa using congrFun h 2

/-! ### C12 -/

/-- C12, the part that holds for all motions: `ipose`, `adjoint`, `iadjoint`, `dadjoint`. -/
theorem C12_partial {H : ℝ → Mat4} {T : ℝ → Vec6} (hr : ∀ s, IsRigid (H s)) {t : ℝ}
    (hT : HasTwist H (T t) t) :
    let m : ℝ → RigidMotion := fun s => ⟨H s, T s⟩
    (m t).pose * (m t).ipose = 1 ∧ (m t).ipose * (m t).pose = 1 ∧
    (m t).adjoint * (m t).iadjoint = 1 ∧ (m t).iadjoint * (m t).adjoint = 1 ∧
    HasDeriv (fun s => (m s).adjoint) (m t).dadjoint t := by
  refine ⟨(hr t).mul_invBody, (hr t).invBody_mul, (hr t).adjoint_mul_inv, (hr t).adjoint_inv_mul, ?_⟩
  exact hT.adjoint (hr t)

/-- C12, `itwist`/`idadjoint` are right exactly when `adjoint·twist = iadjoint·twist`: the twist of the inverse
motion is `-adjoint·twist`, whereas the code computes `-iadjoint·twist`. -/
theorem C12_itwist_iff_partial {H : ℝ → Mat4} {T : ℝ → Vec6} (hr : ∀ s, IsRigid (H s)) {t : ℝ}
    (hT : HasTwist H (T t) t) :
    let m : ℝ → RigidMotion := fun s => ⟨H s, T s⟩
    (HasTwist (fun s => (m s).ipose) (m t).itwist t ↔ (m t).adjoint *ᵥ T t = (m t).iadjoint *ᵥ T t) ∧
    (HasDeriv (fun s => (m s).iadjoint) (m t).idadjoint t ↔
      (m t).adjoint *ᵥ T t = (m t).iadjoint *ᵥ T t) := by
  intro m
  have h1 : HasTwist (fun s => (m s).ipose) (-((m t).adjoint *ᵥ T t)) t := hT.inv (hr t)
  have h2 : HasDeriv (fun s => (m s).iadjoint) ((m t).iadjoint * adjacency (-((m t).adjoint *ᵥ T t))) t :=
    HasTwist.adjoint (hr t).invBody h1
  constructor
  · constructor
    · intro h
      have e : (m t).ipose * hat (m t).itwist = (m t).ipose * hat (-((m t).adjoint *ᵥ T t)) :=
        HasDeriv.unique h h1
      have e2 := congrArg (fun X => (m t).pose * X) e
      simp only [← Matrix.mul_assoc] at e2
      have e3 : (m t).pose * (m t).ipose = 1 := (hr t).mul_invBody
      rw [e3, Matrix.one_mul, Matrix.one_mul] at e2
      have e4 := hat_inj e2
      simp only [RigidMotion.itwist] at e4
      exact (neg_inj.mp e4).symm
    · intro h
      have : (m t).itwist = -((m t).adjoint *ᵥ T t) := by rw [h]; rfl
      rw [this]; exact h1
  · constructor
    · intro h
      have e : (m t).iadjoint * adjacency (m t).itwist =
          (m t).iadjoint * adjacency (-((m t).adjoint *ᵥ T t)) := HasDeriv.unique h h2
      have e2 := congrArg (fun X => (m t).adjoint * X) e
      simp only [← Matrix.mul_assoc] at e2
      have e3 : (m t).adjoint * (m t).iadjoint = 1 := (hr t).adjoint_mul_inv
      rw [e3, Matrix.one_mul, Matrix.one_mul, adjacency_eq, adjacency_eq, blk_inj] at e2
      have e4 : (m t).itwist = -((m t).adjoint *ᵥ T t) := by
        rw [← tw_ang_lin (m t).itwist, ← tw_ang_lin (-((m t).adjoint *ᵥ T t)), skew_inj e2.1,
          skew_inj e2.2.2.1]
      simp only [RigidMotion.itwist] at e4
      exact (neg_inj.mp e4).symm
    · intro h
      have : (m t).itwist = -((m t).adjoint *ᵥ T t) := by rw [h]; rfl
      simp only [RigidMotion.idadjoint, RigidMotion.iadjacency]
      rw [this]; exact h2

/-- C12 is false of the code for `itwist` and `idadjoint`: a concrete motion (the RzRy joint at `q = (π/2, s)`,
turning about its second axis). -/
theorem C12_false : ∃ (H : ℝ → Mat4) (T : Vec6), (∀ s, IsRigid (H s)) ∧ HasTwist H T 0 ∧
    (let m : ℝ → RigidMotion := fun s => ⟨H s, T⟩
     ¬ HasTwist (fun s => (m s).ipose) (m 0).itwist 0 ∧
     ¬ HasDeriv (fun s => (m s).iadjoint) (m 0).idadjoint 0) := by
  have hr : ∀ s : ℝ, IsRigid (rotzy (π/2) s) := fun s => C01_rotzy _ _
  have hT : HasTwist (fun s => rotzy (π/2) s) ![0,1,0,0,0,0] 0 := by
    intro i j
    fin_cases i <;> fin_cases j <;>
      simp [rotzy, hat, Matrix.mul_apply, Fin.sum_univ_four] <;>
      first
        | exact hasDerivAt_const (0:ℝ) _
        | (have := Real.hasDerivAt_sin 0; simpa using this)
        | (have := Real.hasDerivAt_cos 0; simpa using this)
        | (have := (Real.hasDerivAt_sin 0).fun_neg; simpa using this)
  refine ⟨fun s => rotzy (π/2) s, ![0,1,0,0,0,0], hr, hT, ?_⟩
  have key := C12_itwist_iff_partial (T := fun _ => ![0,1,0,0,0,0]) hr hT
  intro m
  have hne : ¬ ((m 0).adjoint *ᵥ (![0,1,0,0,0,0] : Vec6) = (m 0).iadjoint *ᵥ ![0,1,0,0,0,0]) := by
    intro h
    have := congrFun h 0
    simp [m, RigidMotion.adjoint, RigidMotion.iadjoint, RigidMotion.ipose, adjointBody, invBody, blk, rotzy, rot,
      Matrix.mulVec, dotProduct, Fin.sum_univ_six, mkH] at this
    norm_num at this
  exact ⟨fun h => hne (key.1.mp h), fun h => hne (key.2.mp h)⟩

/-- C12: when the twist is invariant under the motion (screw about a fixed axis, pure translation, rest) the
condition holds, so `itwist`/`idadjoint` are right there. -/
theorem C12_invariant_partial (m : RigidMotion) (hr : IsRigid m.pose) (h : m.adjoint *ᵥ m.twist = m.twist) :
    m.adjoint *ᵥ m.twist = m.iadjoint *ᵥ m.twist := by
  rw [h]
  nth_rw 2 [← h]
  rw [Matrix.mulVec_mulVec]
  have : m.iadjoint * m.adjoint = 1 := hr.adjoint_inv_mul
  rw [this, Matrix.one_mulVec]
/-- e.g. every rotation about z -/
example (a w : ℝ) : (⟨rotz a, ![0,0,w,0,0,0]⟩ : RigidMotion).adjoint *ᵥ ![0,0,w,0,0,0] = ![0,0,w,0,0,0] := by
  have e : rotz a = mkH !![cos a, -sin a, 0; sin a, cos a, 0; 0, 0, 1] 0 := by
    ext i j; fin_cases i <;> fin_cases j <;> simp [rotz, mkH]
  have e2 : (![0,0,w,0,0,0] : Vec6) = tw ![0,0,w] 0 := by
    ext i; fin_cases i <;> simp [tw]
  simp only [RigidMotion.adjoint]
  rw [e, e2, adjointBody_mkH, blk_mulVec, skew_zero]
  congr 1
  · ext i; fin_cases i <;> simp
  · simp

end Arboris
