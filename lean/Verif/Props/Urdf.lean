import Verif.Spec.Urdf
import Verif.Props.Human36
import Verif.Proofs.Contact

/-!
# C69, C83: URDF joints and inertias
-/

namespace Arboris
open Matrix Graph Build Urdf Spec

/-! ### C69: joints -/

lemma toPose_origin {o : Option UPose} {H : Mat4} (h : IsOrigin o H) : toPose o = .ok H ∧ IsRigid H := by
  cases o with
  | none => subst h; exact ⟨rfl, isRigid_one⟩
  | some p =>
    obtain ⟨x, y, z, r, pi, ya, hp, hr, rfl⟩ := h
    refine ⟨?_, ?_⟩
    · simp only [toPose, hp, hr, star3, bind, Except.bind]
      rw [rpy, C02_rotzyx, transl_eq, pos_mkH, rotz_eq, roty_eq, rotx_eq, mkH_mul, mkH_mul, rot_mkH]
      rfl
    · exact isRigid_mkH (((isRotation_Rz ya).mul (isRotation_Ry pi)).mul (isRotation_Rx r))

lemma axisRotation_x (q : ℝ) : axisRotation ![1, 0, 0] q = Rx q := by
  ext i j; fin_cases i <;> fin_cases j <;> simp [axisRotation, skew, Rx, Matrix.mul_apply, Fin.sum_univ_three]
lemma axisRotation_y (q : ℝ) : axisRotation ![0, 1, 0] q = Ry q := by
  ext i j; fin_cases i <;> fin_cases j <;> simp [axisRotation, skew, Ry, Matrix.mul_apply, Fin.sum_univ_three]
lemma axisRotation_z (q : ℝ) : axisRotation ![0, 0, 1] q = Rz q := by
  ext i j; fin_cases i <;> fin_cases j <;> simp [axisRotation, skew, Rz, Matrix.mul_apply, Fin.sum_univ_three]

lemma axisRotation_rotated {R : Mat3} (hR : IsRotation R) (a : Vec3) (q : ℝ) :
    R * axisRotation a q * Rᵀ = axisRotation (R *ᵥ a) q := by
  simp only [axisRotation, hR.skew_mulVec]
  have : R * skew a * Rᵀ * (R * skew a * Rᵀ) = R * (skew a * skew a) * Rᵀ := by
    rw [show R * skew a * Rᵀ * (R * skew a * Rᵀ) = R * skew a * (Rᵀ * R) * (skew a * Rᵀ) by simp only [Matrix.mul_assoc], hR.2.1]
    simp only [Matrix.mul_assoc, Matrix.mul_one, Matrix.one_mul]
  rw [this]
  simp only [Matrix.mul_add, Matrix.add_mul, Matrix.mul_one, hR.1, Matrix.mul_smul, Matrix.smul_mul]

lemma col2 {R : Mat3} {v : Vec3} (h : (fun i => R i 2) = v) : R *ᵥ ![0, 0, 1] = v := by
  rw [← h]; ext i; simp [Matrix.mulVec, dotProduct, Fin.sum_univ_three]

lemma conj_rot {R : Mat3} (hR : IsRotation R) (A : Mat3) (v : Vec3) : mkH R 0 * (mkH A v * invBody (mkH R 0)) = mkH (R * A * Rᵀ) (R *ᵥ v) := by
  simp only [invBody, rot_mkH, pos_mkH, mkH_mul, mkH_inj]
  constructor
  · rw [Matrix.mul_assoc]
  · simp

lemma axisCase_spec {sort : Vec3 → Equiv.Perm (Fin 3)} (hs : ∀ v, IsArgsortAbs v (sort v)) (kx ky kz : LinKind) {a : Vec3} (hn : norm3 a = 1)
    {M : Vec3 → ℝ → Mat4} (h1 : kx.ndof = 1 ∧ ky.ndof = 1 ∧ kz.ndof = 1)
    (hx : ∀ q, kx.pose (fun _ => q) = M ![1, 0, 0] q) (hy : ∀ q, ky.pose (fun _ => q) = M ![0, 1, 0] q)
    (hz : ∀ q, kz.pose (fun _ => q) = M ![0, 0, 1] q)
    (hR : ∀ {R : Mat3}, IsRotation R → ∀ v q, mkH R 0 * (M v q * invBody (mkH R 0)) = M (R *ᵥ v) q) :
    ∃ K k a', axisCase sort kx ky kz a = .ok (K, .zero k) ∧ AxisUsed a a' ∧ k.ndof = 1 ∧ IsRigid (K.getD 1) ∧
      ∀ q, K.getD 1 * (k.pose (fun _ => q) * invBody (K.getD 1)) = M a' q := by
  have one : ∀ X : Mat4, (none : Option Mat4).getD 1 * (X * invBody ((none : Option Mat4).getD 1)) = X := by
    intro X; simp [invBody_one]
  unfold axisCase
  by_cases c1 : close3 a ![1, 0, 0]
  · rw [if_pos c1]
    exact ⟨none, kx, ![1, 0, 0], rfl, .inr ⟨.inl rfl, c1⟩, h1.1, isRigid_one, fun q => by rw [one, hx]⟩
  rw [if_neg c1]
  by_cases c2 : close3 a ![0, 1, 0]
  · rw [if_pos c2]
    exact ⟨none, ky, ![0, 1, 0], rfl, .inr ⟨.inr (.inl rfl), c2⟩, h1.2.1, isRigid_one, fun q => by rw [one, hy]⟩
  rw [if_neg c2]
  by_cases c3 : close3 a ![0, 0, 1]
  · rw [if_pos c3]
    exact ⟨none, kz, ![0, 0, 1], rfl, .inr ⟨.inr (.inr rfl), c3⟩, h1.2.2, isRigid_one, fun q => by rw [one, hz]⟩
  rw [if_neg c3]
  obtain ⟨R, e, hr, hc⟩ := zaligned_mkH hn (hs a)
  refine ⟨some (mkH R 0), kz, a, ?_, .inl rfl, h1.2.2, isRigid_mkH hr, ?_⟩
  · rw [e]; rfl
  · intro q
    simp only [Option.getD_some]
    rw [hz, hR hr, col2 hc]

/-- C69: for every origin and every unit axis, a revolute or prismatic URDF joint becomes a joint of one degree of
freedom that turns about (slides along) the axis, in a frame placed at the origin: `H` is the pose of the child
relative to the parent at position zero. -/
theorem C69_joint {sort : Vec3 → Equiv.Perm (Fin 3)} (hs : ∀ v, IsArgsortAbs v (sort v)) {j : UJoint} {H : Mat4} {a : Vec3}
    (ho : IsOrigin j.origin H) (ha : j.axis = some a) (hn : norm3 a = 1) (ht : j.joint_type = .revolute ∨ j.joint_type = .prismatic) :
    ∃ K k a', toJoint sort j = .ok ⟨j.parent, j.child, H, K, .zero k⟩ ∧ AxisUsed a a' ∧ k.ndof = 1 ∧ IsRigid (K.getD 1) ∧
      ∀ q, H * K.getD 1 * (k.pose (fun _ => q) * invBody (K.getD 1)) = H * motion j.joint_type a' q := by
  obtain ⟨hp, hH⟩ := toPose_origin ho
  have key : ∃ K k a', typeCase sort a j.joint_type = .ok (K, .zero k) ∧ AxisUsed a a' ∧ k.ndof = 1 ∧ IsRigid (K.getD 1) ∧
      ∀ q, K.getD 1 * (k.pose (fun _ => q) * invBody (K.getD 1)) = motion j.joint_type a' q := by
    rcases ht with ht | ht
    · rw [ht]
      refine axisCase_spec hs _ _ _ hn ⟨rfl, rfl, rfl⟩ ?_ ?_ ?_ ?_
      · intro q; simp only [LinKind.pose, motion, axisRotation_x, rotx_eq]
      · intro q; simp only [LinKind.pose, motion, axisRotation_y, roty_eq]
      · intro q; simp only [LinKind.pose, motion, axisRotation_z, rotz_eq]
      · intro R hR v q
        simp only [motion]
        rw [conj_rot hR, axisRotation_rotated hR, Matrix.mulVec_zero]
    · rw [ht]
      refine axisCase_spec hs _ _ _ hn ⟨rfl, rfl, rfl⟩ ?_ ?_ ?_ ?_
      · intro q; simp only [LinKind.pose, motion, transl_eq, mkH_inj]; simp
      · intro q; simp only [LinKind.pose, motion, transl_eq, mkH_inj]; simp
      · intro q; simp only [LinKind.pose, motion, transl_eq, mkH_inj]; simp
      · intro R hR v q
        simp only [motion]
        rw [conj_rot hR, Matrix.mul_one, hR.1, Matrix.mulVec_smul]
  obtain ⟨K, k, a', e, h1, h2, h3, h4⟩ := key
  refine ⟨K, k, a', ?_, h1, h2, h3, ?_⟩
  · simp only [toJoint, hp, ha, bind, Except.bind, e]
  · intro q; rw [Matrix.mul_assoc, h4]

/-- C69: a fixed joint keeps the child at the origin; a floating joint is a `FreeJoint` in a frame placed at the
origin.  (The other types are refused.) -/
theorem C69_other (sort : Vec3 → Equiv.Perm (Fin 3)) {j : UJoint} {H : Mat4} {a : Vec3} (ho : IsOrigin j.origin H) (ha : j.axis = some a) :
    (j.joint_type = .fixed → toJoint sort j = .ok ⟨j.parent, j.child, H, none, .fixed⟩) ∧
    (j.joint_type = .floating → toJoint sort j = .ok ⟨j.parent, j.child, H, none, .free 1 0⟩) ∧
    (j.joint_type = .continuous ∨ j.joint_type = .planar ∨ j.joint_type = .unknown → toJoint sort j = .error .keyError) := by
  obtain ⟨hp, hH⟩ := toPose_origin ho
  refine ⟨?_, ?_, ?_⟩
  · intro h; simp only [toJoint, hp, ha, bind, Except.bind, h, typeCase]
  · intro h; simp only [toJoint, hp, ha, bind, Except.bind, h, typeCase]
  · rintro (h | h | h) <;> simp only [toJoint, hp, ha, bind, Except.bind, h, typeCase]

/-- C69: at position zero `motion` is the identity, so the child is at the origin. -/
theorem C69_zero (t : UType) (a : Vec3) : motion t a 0 = 1 := by
  cases t <;> simp [motion, axisRotation, mkH_one]

/-- C69: what is refused: a joint without `<axis>`, of any type; an `<origin>` with only `xyz` or only `rpy`; an axis
that is neither a unit vector nor close to a coordinate axis. -/
theorem C69_errors (sort : Vec3 → Equiv.Perm (Fin 3)) (j : UJoint) :
    (∀ p, j.origin = some p → p.position = none ∨ p.rotation = none → toJoint sort j = .error .typeError) ∧
    (∀ H, IsOrigin j.origin H → j.axis = none → toJoint sort j = .error .attributeError) ∧
    (∀ H a, IsOrigin j.origin H → j.axis = some a → (j.joint_type = .revolute ∨ j.joint_type = .prismatic) → 1e-9 ≤ |norm3 a - 1| →
      ¬ close3 a ![1, 0, 0] → ¬ close3 a ![0, 1, 0] → ¬ close3 a ![0, 0, 1] → toJoint sort j = .error .assertion) := by
  refine ⟨?_, ?_, ?_⟩
  · intro p hp h
    have : toPose j.origin = .error .typeError := by
      rw [hp]
      rcases h with h | h
      · simp only [toPose, h, star3, bind, Except.bind]
      · rcases hq : p.position with _ | (_ | ⟨x, _ | ⟨y, _ | ⟨z, _ | ⟨w, l⟩⟩⟩⟩) <;> simp only [toPose, h, hq, star3, bind, Except.bind]
    simp only [toJoint, this, bind, Except.bind]
  · intro H ho ha
    simp only [toJoint, (toPose_origin ho).1, ha, bind, Except.bind]
  · intro H a ho ha ht hn c1 c2 c3
    have z : zaligned a (sort a) = .error .assertion := by rw [zaligned, if_neg (not_lt.mpr hn)]
    have : ∀ kx ky kz, axisCase sort kx ky kz a = .error .assertion := by
      intro kx ky kz
      rw [axisCase, if_neg c1, if_neg c2, if_neg c3, z]; rfl
    rcases ht with ht | ht <;> simp only [toJoint, (toPose_origin ho).1, ha, bind, Except.bind, ht, typeCase, this]

/-! ### C83: inertias -/

/-- the inertia matrix of an `<inertial>` element, about the centre of mass, in the axes of its `<origin>` -/
noncomputable def Spec.inertiaOf (i : UInertial) : Mat3 := !![i.ixx, i.ixy, i.ixz; i.ixy, i.iyy, i.iyz; i.ixz, i.iyz, i.izz]

/-- C83: when the values are physical (mass and moments of inertia at least `1e-6`, positive definite inertia), the
mass matrix of the body is that of a rigid body with the given mass, its centre of mass at the given origin, and the
given inertia about the centre of mass turned by the given rotation (parallel axis theorem). -/
theorem C83_inertial {i : UInertial} {H : Mat4} (ho : IsOrigin i.origin H) (hm : 1e-6 ≤ i.mass) (hx : 1e-6 ≤ i.ixx) (hy : 1e-6 ≤ i.iyy)
    (hz : 1e-6 ≤ i.izz) (hp : SymPD (inertiaOf i)) :
    ∃ M, toMass i = .ok M ∧ SymPD M ∧
      IsRigidMass M i.mass (pos H) (rot H * inertiaOf i * (rot H)ᵀ - i.mass • (skew (pos H) * skew (pos H))) := by
  obtain ⟨hP, hH⟩ := toPose_origin ho
  have hc : comMass i = blk (inertiaOf i) 0 0 (i.mass • 1) := by
    simp only [comMass, inertiaOf, max_eq_right hm, max_eq_right hx, max_eq_right hy, max_eq_right hz]
  have hm0 : 0 < i.mass := lt_of_lt_of_le (by norm_num) hm
  have hr : IsRigidMass (comMass i) i.mass 0 (inertiaOf i) := ⟨hp.1, by rw [hc, skew_zero]; simp⟩
  have hpd : SymPD (comMass i) := by
    refine ⟨hr.transpose, ?_⟩
    intro x hx
    rw [hc, ← tw_ang_lin x, blk_mulVec, tw_dot]
    simp only [Matrix.zero_mulVec, add_zero, zero_add, Matrix.smul_mulVec, Matrix.one_mulVec, dotProduct_smul, smul_eq_mul]
    by_cases h0 : ang x = 0
    · have h1 : lin x ≠ 0 := by
        intro h1; apply hx; rw [← tw_ang_lin x, h0, h1, tw_zero]
      have : 0 < lin x ⬝ᵥ lin x := by
        have := norm3_sq (lin x)
        rw [← this]
        have : norm3 (lin x) ≠ 0 := fun e => h1 (norm3_eq_zero.mp e)
        positivity
      rw [h0]; simp only [zero_dotProduct, zero_add]; positivity
    · have := hp.2 _ h0
      have h2 : 0 ≤ lin x ⬝ᵥ lin x := by rw [← norm3_sq]; positivity
      have := mul_nonneg hm0.le h2
      linarith
  have hi : IsRigid (invBody H) := hH.invBody
  refine ⟨transportBody (comMass i) (invBody H), ?_, C14_symPD hpd hi, ?_⟩
  · simp only [toMass, hP, bind, Except.bind]
    rw [inv, assertHom_ok hH.ishom]
    exact C14_succeeds (ismass_of hr hpd) hi
  · obtain ⟨R, p, hR, rfl⟩ := isRigid_iff.mp hH
    rw [rot_mkH, pos_mkH]
    refine ⟨?_, ?_⟩
    · simp only [Matrix.transpose_sub, Matrix.transpose_mul, Matrix.transpose_transpose, hp.1, Matrix.transpose_smul, skew_transpose,
        neg_mul_neg, Matrix.mul_assoc]
    · rw [hc, transportBody, invBody, rot_mkH, pos_mkH, adjointBody_mkH]
      simp only [blk_transpose, blk_mul, blk_inj]
      have e1 : skew (-(Rᵀ *ᵥ p)) = -(Rᵀ * skew p * R) := by
        rw [skew_neg, hR.transpose.skew_mulVec, Matrix.transpose_transpose]
      simp only [Matrix.transpose_transpose, Matrix.transpose_zero, Matrix.mul_zero, Matrix.zero_mul, add_zero, zero_add, e1,
        Matrix.transpose_mul, Matrix.transpose_neg, skew_transpose, Matrix.neg_mul, Matrix.mul_neg, neg_neg]
      have c1 : ∀ A : Mat3, R * (Rᵀ * A) = A := fun A => by rw [← Matrix.mul_assoc, hR.1, Matrix.one_mul]
      simp only [Matrix.mul_assoc, Matrix.mul_smul, Matrix.smul_mul, Matrix.mul_one, Matrix.one_mul, c1, hR.1]
      refine ⟨?_, trivial, trivial, trivial⟩
      rw [neg_zero, add_zero, sub_eq_add_neg]

end Arboris
