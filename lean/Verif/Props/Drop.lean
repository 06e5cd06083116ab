import Verif.Spec.Drop
import Verif.Props.Contact
import Verif.Props.PDRun
import Verif.Proofs.GaussSeidel

/-!
# C120: a ball dropped on the ground
-/

namespace Arboris
open Matrix Spec Mech Build Sim

section
variable {S : BallSetup} {p : TouchParams} {sort : Vec3 → Equiv.Perm (Fin 3)}

/-- the tree, dofs numbered -/
noncomputable def ballTree (S : BallSetup) (x : ℝ × ℝ) : Forest MLink Body :=
  .cons ⟨.free (mkH S.R (S.foot + x.1 • S.up)) (tw 0 (x.2 • S.Rᵀ *ᵥ S.up)), 0, 1, 1⟩ ⟨S.M, 0⟩ .nil .nil

/-- what is known of the ball -/
noncomputable def ballDyn (S : BallSetup) (x : ℝ × ℝ) : BodyDyn 6 :=
  ⟨mkH S.R (S.foot + x.1 • S.up), 1, 0, tw 0 (x.2 • S.Rᵀ *ᵥ S.up)⟩

lemma ball_dyn (S : BallSetup) (x : ℝ × ℝ) :
    worldDynamic 6 ((ballTree S x).map MLink.link id) = [(⟨S.M, 0⟩, ballDyn S x)] := by
  have hinv : invBody (1 : Mat4) = 1 := by
    have := isRigid_one.invBody_mul; simpa using this
  have had : adjointBody (1 : Mat4) = 1 := by
    have : (1 : Mat4) = mkH 1 0 := mkH_one.symm
    rw [this, adjointBody_mkH]
    simp [skew_zero, blk_one]
  have h1 : ∀ J : Matrix (Fin 6) (Fin 6) ℝ, addCols (0 : Matrix (Fin 6) (Fin 6) ℝ) 0 6 ((1 : Mat6) * J) = J := by
    intro J
    ext i c
    simp [addCols]
  have h2 : dynStep (groundDyn 6) (MLink.link ⟨.free (mkH S.R (S.foot + x.1 • S.up)) (tw 0 (x.2 • S.Rᵀ *ᵥ S.up)), 0, 1, 1⟩) = ballDyn S x := by
    simp only [dynStep, groundDyn, MLink.link, JAttr.val, freeVal, hinv, had, Matrix.one_mul, Matrix.mul_one, Matrix.mul_zero, Matrix.mulVec_zero, zero_add, add_zero,
      Matrix.one_mulVec, ballDyn]
    congr 1
    · exact h1 1
    · exact h1 0
  change [(_, dynStep (groundDyn 6) _)] = _
  rw [← h2]
  rfl

lemma ball_mass (S : BallSetup) (x : ℝ × ℝ) : worldMass [((⟨S.M, 0⟩ : Body), ballDyn S x)] = S.M ∧ worldViscosity [((⟨S.M, 0⟩ : Body), ballDyn S x)] = 0 ∧
    worldNleffects [((⟨S.M, 0⟩ : Body), ballDyn S x)] = 0 := by
  refine ⟨by simp [worldMass, ballDyn], by simp [worldViscosity, ballDyn], ?_⟩
  simp only [worldNleffects, ballDyn, List.foldl_cons, List.foldl_nil, bodyNleffects, ang_tw, skew_zero, Matrix.mul_zero, Matrix.zero_mul, sub_zero, blk_zero, add_zero]

/-- the vertical direction as a velocity of the ball -/
noncomputable def upTw (S : BallSetup) : Vec6 := tw 0 (S.Rᵀ *ᵥ S.up)

lemma ball_M (S : BallSetup) : S.M = blk S.I 0 0 (S.m • 1) := by
  rw [S.mass.eq]
  simp [skew_zero]

lemma up_dot (S : BallSetup) : S.up ⬝ᵥ S.up = 1 := by
  rw [← norm3_sq, S.unit, one_pow]

lemma M_up (S : BallSetup) : S.M *ᵥ upTw S = S.m • upTw S := by
  rw [ball_M, upTw, blk_mulVec, tw_smul]
  simp [Matrix.smul_mulVec]

lemma ball_tw (S : BallSetup) (v : ℝ) : tw 0 (v • S.Rᵀ *ᵥ S.up) = v • upTw S := by
  rw [upTw, tw_smul, smul_zero]

/-- the weight -/
lemma ball_weight (S : BallSetup) (γ : ℝ) (x : ℝ × ℝ) :
    weightUpdateE γ S.up [((⟨S.M, 0⟩ : Body), ballDyn S x)] = .ok ⟨(S.m * γ) • upTw S, 0⟩ := by
  rw [weightUpdateE_ok]
  · simp only [List.map_cons, List.map_nil, List.sum_cons, List.sum_nil, add_zero, ballDyn, Matrix.transpose_one, Matrix.one_mulVec]
    congr 2
    rw [gravityTwist, iadj_zero, rot_mkH, Matrix.mulVec_smul, ball_tw, Matrix.mulVec_smul, M_up, smul_smul, mul_comm]
  · intro y hy
    rw [List.mem_singleton] at hy
    subst hy
    exact isRigid_mkH S.rot
  · intro y hy hneg
    rw [List.mem_singleton] at hy
    subst hy
    exfalso
    have h3 := hneg 3 3
    simp only [ball_M] at h3
    have : blk S.I 0 0 (S.m • (1 : Mat3)) 3 3 = S.m := by simp [blk]
    rw [this] at h3
    exact absurd S.mass_pos (not_lt.mpr h3)

/-- the contact of the ball with the ground, as it looks at the world -/
structure BallTouch (S : BallSetup) (x : ℝ × ℝ) (s : TouchState 6) : Prop where
  body0 : s.body0 = groundDyn 6
  body1 : s.body1 = ballDyn S x
  enabled : s.enabled = true

/-- The collision of the ball with the ground: signed distance, and relative velocity. -/
lemma ball_collision (hs : ∀ z, IsArgsortAbs z (sort z)) (hcol : p.collide = planeSphereShapes sort 1 S.up S.d 1 S.r) (x : ℝ × ℝ) :
    ∃ c : Collision, c.sdist = x.1 ∧ ∀ s : TouchState 6, BallTouch S x s → Touching p s c ∧ Function.Surjective (slipOf s c) ∧
      (∃ J : Matrix (Fin 4) (Fin 6) ℝ, ∀ ν, slipOf s c ν = J *ᵥ ν) ∧ (∀ ν, slipOf s c ν 3 = upTw S ⬝ᵥ ν) ∧ slipOf s c (upTw S) = Pi.single 3 1 := by
  set q : Vec3 := S.foot + x.1 • S.up with hq
  obtain ⟨Q, hQ, hz, hc⟩ := planeSphere_ok hs isRigid_one S.unit S.d q S.radius
  have hg1 : toGround 1 q = q := by
    have : (1 : Mat4) = mkH 1 0 := mkH_one.symm
    rw [this, toGround_mkH, Matrix.one_mulVec, add_zero]
  rw [hg1] at hc
  have hsd : S.up ⬝ᵥ q - S.d - S.r = x.1 := by
    rw [hq, dotProduct_add, dotProduct_smul, up_dot, S.touch, smul_eq_mul]
    ring
  set c : Collision := ⟨S.up ⬝ᵥ q - S.d - S.r, mkH Q (q - (S.up ⬝ᵥ q - S.d) • S.up), mkH Q (q - (Real.sign (S.up ⬝ᵥ q - S.d - S.r) * S.r) • S.up)⟩ with hcdef
  refine ⟨c, hsd, fun s hsx => ?_⟩
  have ht : Touching p s c := by
    refine ⟨?_, ?_, ?_, isRigid_mkH hQ, isRigid_mkH hQ⟩
    · rw [hsx.body0]; exact isRigid_one
    · rw [hsx.body1]; exact isRigid_mkH S.rot
    · rw [hcol, hsx.body0, hsx.body1]
      change planeSphere sort (1 * 1) S.up S.d (pos (mkH S.R q * 1)) S.r = _
      rw [Matrix.one_mul, Matrix.mul_one, pos_mkH]
      exact hc
  -- the relative velocity
  set k : ℝ := -(S.up ⬝ᵥ q - S.d) with hk
  have hslip : ∀ ν : Vec6, slipOf s c ν = ![S.up ⬝ᵥ S.R *ᵥ ang ν, (fun i => Q i 0) ⬝ᵥ (S.R *ᵥ lin ν + (S.R *ᵥ ang ν) ⨯₃ (k • S.up)),
      (fun i => Q i 1) ⬝ᵥ (S.R *ᵥ lin ν + (S.R *ᵥ ang ν) ⨯₃ (k • S.up)), S.up ⬝ᵥ S.R *ᵥ lin ν] := by
    intro ν
    have e0 : s.body0.jac *ᵥ ν = 0 := by rw [hsx.body0]; exact Matrix.zero_mulVec ν
    have e1 : s.body1.jac *ᵥ ν = ν := by rw [hsx.body1]; exact Matrix.one_mulVec ν
    have e2 : s.body1.pose = mkH S.R q := by rw [hsx.body1]; rfl
    have z1 : ang (0 : Vec6) = 0 := by rw [← tw_zero, ang_tw]
    have z2 : lin (0 : Vec6) = 0 := by rw [← tw_zero, lin_tw]
    have c0 : ∀ a : Vec3, (0 : Vec3) ⨯₃ a = 0 := fun a => by simp
    have ep : q - (S.up ⬝ᵥ q - S.d) • S.up - q = k • S.up := by rw [hk, neg_smul]; abel
    have ax : ∀ i : Fin 3, (fun k : Fin 3 => c.H0 k.castSucc i.castSucc) = fun k => Q k i := by
      intro i
      funext k
      fin_cases i <;> fin_cases k <;> simp [hcdef, mkH]
    have ep' : pos c.H0 - q = k • S.up := by rw [hcdef]; simp only [pos_mkH]; exact ep
    unfold slipOf slip
    simp only [e0, e1, e2, z1, z2, rot_mkH, pos_mkH, Matrix.mulVec_zero, c0, sub_zero, add_zero, ep']
    rw [ax 0, ax 1, ax 2, hz]
    have e5 : S.up ⬝ᵥ ((S.R *ᵥ ang ν) ⨯₃ (k • S.up)) = 0 := by
      simp [dotProduct, Fin.sum_univ_three, cross_apply]; ring
    rw [dotProduct_add S.up, e5, add_zero]
  have hRR : ∀ a : Vec3, S.R *ᵥ (S.Rᵀ *ᵥ a) = a := by
    intro a
    rw [Matrix.mulVec_mulVec, S.rot.1, Matrix.one_mulVec]
  have hcolQ : ∀ y : Vec3, ∀ i : Fin 3, (fun j => Q j i) ⬝ᵥ Q *ᵥ y = y i := by
    intro y i
    have := congrFun (show Qᵀ *ᵥ (Q *ᵥ y) = y by rw [Matrix.mulVec_mulVec, hQ.2.1, Matrix.one_mulVec]) i
    rw [← this]
    rfl
  have hup : S.up = Q *ᵥ ![0, 0, 1] := by
    rw [← hz]
    funext i
    simp [Matrix.mulVec, dotProduct, Fin.sum_univ_three]
  refine ⟨ht, ?_, ?_, ?_, ?_⟩
  · intro y
    refine ⟨tw (y 0 • S.Rᵀ *ᵥ S.up) (S.Rᵀ *ᵥ (Q *ᵥ ![y 1, y 2, y 3])), ?_⟩
    rw [hslip, ang_tw, lin_tw, Matrix.mulVec_smul, hRR, hRR]
    have e6 : (y 0 • S.up) ⨯₃ (k • S.up) = 0 := by simp [cross_self]
    rw [e6, add_zero, hcolQ, hcolQ, dotProduct_smul, up_dot]
    have e7 : S.up ⬝ᵥ Q *ᵥ ![y 1, y 2, y 3] = y 3 := by
      have := hcolQ ![y 1, y 2, y 3] 2
      rw [hz] at this
      exact this
    rw [e7]
    funext i
    fin_cases i <;> simp
  · obtain ⟨s', -, -, h10, h11, -, -, hb0, hb1, -⟩ := touch_update ht 1
    refine ⟨touchJac s', fun ν => ?_⟩
    have := touch_jac (s := s') (c := c) (by rw [h10]; exact ht.pose0) (by rw [h11]; exact ht.pose1) ht.frame0 ht.frame1 (by rw [h10]; exact hb0) (by rw [h11]; exact hb1) ν
    rw [this]
    unfold slipOf
    rw [h10, h11]
  · intro ν
    rw [hslip, upTw]
    change S.up ⬝ᵥ S.R *ᵥ lin ν = _
    conv_rhs => rw [← tw_ang_lin ν, tw_dot, zero_dotProduct, zero_add]
    rw [Matrix.dotProduct_mulVec, Matrix.mulVec_transpose]
  · rw [hslip, upTw, ang_tw, lin_tw, hRR, Matrix.mulVec_zero, up_dot]
    have c0 : ∀ a : Vec3, (0 : Vec3) ⨯₃ a = 0 := fun a => by simp
    rw [c0, add_zero, dotProduct_zero]
    have h0 : (fun j => Q j 0) ⬝ᵥ S.up = 0 := by rw [hup, hcolQ]; rfl
    have h1 : (fun j => Q j 1) ⬝ᵥ S.up = 0 := by rw [hup, hcolQ]; rfl
    rw [h0, h1]
    funext i
    fin_cases i <;> simp

/-- a friction that opposes the slip is zero when nothing pushes sideways -/
lemma only_normal {n : ℕ} {Y : Matrix (Fin n) (Fin n) ℝ} (hY : SymPD Y) {J : Matrix (Fin 4) (Fin n) ℝ} (hJ : Function.Surjective fun ν => J *ᵥ ν) {u : Fin n → ℝ} (hu : J *ᵥ u = Pi.single 3 1)
    (hn : ∀ ν, (J *ᵥ ν) 3 = u ⬝ᵥ ν) {κ α : ℝ} (hYu : Y *ᵥ u = κ • u) {h v : Fin n → ℝ} {f : Vec4} (hh : ∀ ν, h ⬝ᵥ ν = f ⬝ᵥ J *ᵥ ν) (hv : v = α • u + Y *ᵥ h)
    (hd : (J *ᵥ v) 0 * f 0 + (J *ᵥ v) 1 * f 1 + (J *ᵥ v) 2 * f 2 ≤ 0) : h = f 3 • u ∧ f = Pi.single 3 (f 3) := by
  have ht : ∀ ν, (h - f 3 • u) ⬝ᵥ ν = f 0 * (J *ᵥ ν) 0 + f 1 * (J *ᵥ ν) 1 + f 2 * (J *ᵥ ν) 2 := by
    intro ν
    rw [sub_dotProduct, hh, smul_dotProduct, ← hn, smul_eq_mul]
    simp only [dotProduct, Fin.sum_univ_four]
    ring
  have htu : (h - f 3 • u) ⬝ᵥ u = 0 := by
    rw [ht, hu]
    simp
  have hz : h - f 3 • u = 0 := by
    by_contra hne
    have hpos := hY.2 _ hne
    have e : (h - f 3 • u) ⬝ᵥ v = (h - f 3 • u) ⬝ᵥ Y *ᵥ (h - f 3 • u) := by
      have e1 : v = α • u + (Y *ᵥ (h - f 3 • u) + (f 3 * κ) • u) := by
        rw [hv, Matrix.mulVec_sub, Matrix.mulVec_smul, hYu, smul_smul]
        abel
      conv_lhs => rw [e1]
      rw [dotProduct_add, dotProduct_add, dotProduct_smul, dotProduct_smul, htu]
      simp
    rw [ht v] at e
    linarith
  refine ⟨sub_eq_zero.mp hz, ?_⟩
  obtain ⟨ν, hν⟩ := hJ f
  have hν' : J *ᵥ ν = f := hν
  have := ht ν
  rw [hz, zero_dotProduct, hν'] at this
  have h0 : f 0 = 0 := by nlinarith [sq_nonneg (f 0), sq_nonneg (f 1), sq_nonneg (f 2)]
  have h1 : f 1 = 0 := by nlinarith [sq_nonneg (f 0), sq_nonneg (f 1), sq_nonneg (f 2)]
  have h2 : f 2 = 0 := by nlinarith [sq_nonneg (f 0), sq_nonneg (f 1), sq_nonneg (f 2)]
  funext i
  fin_cases i <;> simp [h0, h1, h2]

lemma pd_inverse {n : ℕ} {Y Z : Matrix (Fin n) (Fin n) ℝ} (hZ : SymPD Z) (h : Y * Z = 1) : SymPD Y := by
  have h' : Z * Y = 1 := mul_eq_one_comm.mp h
  have hs : Yᵀ = Y := by
    have h1 : Z * Yᵀ = 1 := by
      have := congrArg Matrix.transpose h
      rwa [Matrix.transpose_mul, Matrix.transpose_one, hZ.1] at this
    calc Yᵀ = (Y * Z) * Yᵀ := by rw [h, Matrix.one_mul]
      _ = Y := by rw [Matrix.mul_assoc, h1, Matrix.mul_one]
  refine ⟨hs, fun x hx => ?_⟩
  have hne : Y *ᵥ x ≠ 0 := by
    intro h0
    apply hx
    rw [← Matrix.one_mulVec x, ← h', ← Matrix.mulVec_mulVec, h0, Matrix.mulVec_zero]
  have := hZ.2 _ hne
  rw [Matrix.mulVec_mulVec, h', Matrix.one_mulVec, dotProduct_comm] at this
  exact this

/-- what holds at the beginning of each step -/
structure BallNow (S : BallSetup) (p : TouchParams) (x : ℝ × ℝ) (w : MWorld 6 Unit) : Prop where
  tree : w.tree = ballTree S x
  gvel : w.gvel = x.2 • upTw S
  contact : ∃ s : TouchState 6, w.cons = [⟨softContact 6 p, s⟩] ∧ s.enabled = true

lemma touchLook_self {n : ℕ} {b0 b1 : Option ℕ} (w : MWorld n Unit) (s : TouchState n) :
    touchLook p b0 b1 w ⟨softContact n p, s⟩ = ⟨softContact n p, { s with body0 := bodyAt w b0, body1 := bodyAt w b1 }⟩ := by
  unfold touchLook
  rw [dif_pos rfl]
  rfl

lemma touchRaises_self {n : ℕ} {s s' : TouchState n} {dt : ℝ} (h : touchUpdate p s dt = .ok s') : touchRaises p dt (⟨softContact n p, s⟩ : Con n) = none := by
  unfold touchRaises
  rw [dif_pos rfl]
  split_ifs
  · change (match touchUpdate p s dt with
      | .error e => some e
      | .ok _ => none) = none
    rw [h]
  · rfl

/-- the force of the ground and the velocity at the end of a step -/
lemma ball_solve (hs : ∀ z, IsArgsortAbs z (sort z)) (hcol : p.collide = planeSphereShapes sort 1 S.up S.d 1 S.r) (hp : ∀ A, A.det ≠ 0 → IsPinv A (p.pinv A)) (γ : ℝ) {x : ℝ × ℝ}
    {s : TouchState 6} (hsx : BallTouch S x s) {dt : ℝ} (hdt : 0 < dt) {o : CtrlOut 6} (hg : o.gforce = (S.m * γ) • upTw S) (ho : o.admittance * (dt⁻¹ • S.M) = 1) :
    ∃ (s1 : TouchState 6) (g : Vec6) (solved : List (Con 6)) (s' : TouchState 6), touchUpdate p s dt = .ok s1 ∧
      updateConstraints S.M (x.2 • upTw S) o [⟨softContact 6 p, s⟩] dt = .ok (g, solved) ∧
      writeBack dt [(⟨softContact 6 p, s⟩ : Con 6)] solved = [⟨softContact 6 p, s'⟩] ∧ s'.enabled = true ∧
      s'.force = Pi.single 3 (reaction S.m γ p.proximity dt x) ∧
      integrateGvel S.M o.admittance (x.2 • upTw S) g dt = .ok ((bounce γ p.proximity dt x).2 • upTw S) := by
  obtain ⟨c, hsd, hc⟩ := ball_collision (S := S) hs hcol x
  obtain ⟨ht, hsurj, ⟨J, hJ⟩, hn, hup⟩ := hc s hsx
  obtain ⟨s1, hup1, h1e, h10, h11, h1f, h1s, h1b0, h1b1, h1a⟩ := touch_update ht dt
  have hm := S.mass_pos
  have hY : SymPD o.admittance := by
    refine pd_inverse (Z := dt⁻¹ • S.M) ⟨?_, ?_⟩ ho
    · rw [Matrix.transpose_smul, S.pd.1]
    · intro y hy
      rw [Matrix.smul_mulVec, dotProduct_smul, smul_eq_mul]
      exact mul_pos (inv_pos.mpr hdt) (S.pd.2 y hy)
  have hYu : o.admittance *ᵥ upTw S = (dt / S.m) • upTw S := by
    have h1 : o.admittance *ᵥ ((dt⁻¹ • S.M) *ᵥ upTw S) = upTw S := by rw [Matrix.mulVec_mulVec, ho, Matrix.one_mulVec]
    rw [Matrix.smul_mulVec, M_up, smul_smul, Matrix.mulVec_smul] at h1
    have h2 : (dt / S.m) • ((dt⁻¹ * S.m) • o.admittance *ᵥ upTw S) = (dt / S.m) • upTw S := by rw [h1]
    rw [smul_smul] at h2
    have e : dt / S.m * (dt⁻¹ * S.m) = 1 := by field_simp
    rwa [e, one_smul] at h2
  have hint : ∀ a : ℝ, o.admittance *ᵥ (S.M *ᵥ (dt⁻¹ • (x.2 • upTw S)) + a • upTw S) = (x.2 + dt * (a / S.m)) • upTw S := by
    intro a
    rw [Matrix.mulVec_smul, Matrix.mulVec_smul, M_up, Matrix.mulVec_add, Matrix.mulVec_smul, Matrix.mulVec_smul, Matrix.mulVec_smul, Matrix.mulVec_smul, hYu]
    simp only [smul_smul]
    rw [← add_smul]
    congr 1
    field_simp
  have htw : s.body0.twist = s.body0.jac *ᵥ (x.2 • upTw S) ∧ s.body1.twist = s.body1.jac *ᵥ (x.2 • upTw S) := by
    rw [hsx.body0, hsx.body1]
    refine ⟨(Matrix.zero_mulVec _).symm, ?_⟩
    change tw 0 (x.2 • S.Rᵀ *ᵥ S.up) = 1 *ᵥ _
    rw [Matrix.one_mulVec, ball_tw]
  have huu : upTw S ⬝ᵥ upTw S = 1 := by
    have := hn (upTw S)
    rw [hup] at this
    simpa using this.symm
  have hvel : ∀ a : ℝ, slipOf s c (a • upTw S) 3 = a := by
    intro a
    rw [hn, dotProduct_smul, huu, smul_eq_mul, mul_one]
  have hv0 : integrateGvel S.M o.admittance (x.2 • upTw S) o.gforce dt = .ok ((x.2 + dt * γ) • upTw S) := by
    unfold integrateGvel
    rw [if_pos hdt, hg, hint]
    congr 3
    field_simp
  have e1 : (softContact 6 p).update s dt = s1 := by simp only [softContact, hup1]
  have e3 : (softContact 6 p).enabled s = true := hsx.enabled
  by_cases hnear : x.1 + dt * x.2 < p.proximity
  · -- the contact is active
    have hnear' : c.sdist + dt * slipOf s c (x.2 • upTw S) 3 < p.proximity := by rw [hsd, hvel]; exact hnear
    have hU : ∃ g cs, updateConstraints S.M (x.2 • upTw S) o [⟨softContact 6 p, s⟩] dt = .ok (g, cs) := by
      unfold updateConstraints
      rw [if_pos hdt]
      exact ⟨_, _, rfl⟩
    obtain ⟨g, cs, hu⟩ := hU
    have hV : ∃ v, integrateGvel S.M o.admittance (x.2 • upTw S) g dt = .ok v := by
      unfold integrateGvel
      rw [if_pos hdt]
      exact ⟨_, rfl⟩
    obtain ⟨v, hv⟩ := hV
    obtain ⟨f, s', hcs, hf, -, hen', hpow, hA, hB, hD⟩ := C119_contact hp hsx.enabled ht htw hnear' hY hsurj (by norm_num) hu hv hv0
    have hact : (softContact 6 p).active s1 = true := by
      change s1.isActive = true
      rw [h1a, htw.1, htw.2]
      have : slip c.H0 s.body0.pose s.body1.pose (s.body0.jac *ᵥ (x.2 • upTw S)) (s.body1.jac *ᵥ (x.2 • upTw S)) = slipOf s c (x.2 • upTw S) := rfl
      rw [this]
      linarith
    have hwb : writeBack dt [(⟨softContact 6 p, s⟩ : Con 6)] cs = [⟨softContact 6 p, s'⟩] := by
      rw [hcs]
      simp [writeBack, e1, e3, hact]
    have hvg : v = o.admittance *ᵥ (S.M *ᵥ (dt⁻¹ • (x.2 • upTw S)) + g) := by
      unfold integrateGvel at hv
      rw [if_pos hdt] at hv
      exact (Except.ok.inj hv).symm
    by_cases hfree : 0 < x.1 + dt * (x.2 + dt * γ)
    · obtain ⟨h1, h2⟩ := hA (by rw [hsd, hvel]; exact hfree)
      have hno : ¬ (x.1 + dt * x.2 < p.proximity ∧ x.1 + dt * (x.2 + dt * γ) ≤ 0) := fun h => absurd h.2 (not_le.mpr hfree)
      refine ⟨s1, g, cs, s', hup1, hu, hwb, hen', ?_, ?_⟩
      · rw [hf, h1, reaction, if_neg hno, Pi.single_zero]
      · rw [hv, h2, bounce, if_neg hno]
    · push Not at hfree
      have hyes : x.1 + dt * x.2 < p.proximity ∧ x.1 + dt * (x.2 + dt * γ) ≤ 0 := ⟨hnear, hfree⟩
      obtain ⟨hgap, -⟩ := hB (by rw [hsd, hvel]; exact hfree)
      have hvsum : v = (x.2 + dt * γ) • upTw S + o.admittance *ᵥ (g - o.gforce) := by
        have e4 : o.admittance *ᵥ (S.M *ᵥ (dt⁻¹ • (x.2 • upTw S)) + o.gforce) = (x.2 + dt * γ) • upTw S := by
          have := hv0
          unfold integrateGvel at this
          rw [if_pos hdt] at this
          exact Except.ok.inj this
        rw [hvg, ← e4, ← Matrix.mulVec_add]
        congr 1
        abel
      obtain ⟨k1, k2⟩ := only_normal hY (J := J) (by rw [← funext hJ]; exact hsurj) (by rw [← hJ]; exact hup) (fun ν => by rw [← hJ]; exact hn ν) hYu
        (h := g - o.gforce) (f := f) (fun ν => by rw [sub_dotProduct, hpow, hJ]; ring) hvsum (by rw [← hJ]; exact hD)
      have hvf : v = (x.2 + dt * γ + f 3 * (dt / S.m)) • upTw S := by
        rw [hvsum, k1, Matrix.mulVec_smul, hYu, smul_smul, ← add_smul]
      rw [hvf, hsd, hvel] at hgap
      have hspeed : x.2 + dt * γ + f 3 * (dt / S.m) = -x.1 / dt := by
        rw [eq_div_iff hdt.ne']
        linarith
      refine ⟨s1, g, cs, s', hup1, hu, hwb, hen', ?_, ?_⟩
      · rw [hf, k2, reaction, if_pos hyes]
        congr 1
        have : f 3 * (dt / S.m) = -x.1 / dt - x.2 - dt * γ := by linarith
        have h5 : f 3 = (-x.1 / dt - x.2 - dt * γ) * (S.m / dt) := by
          rw [← this]
          field_simp
        rw [h5]
        field_simp
      · rw [hv, hvf, hspeed, bounce, if_pos hyes]
  · -- the contact is not active
    have hfar : p.proximity ≤ c.sdist + dt * slipOf s c (x.2 • upTw S) 3 := by rw [hsd, hvel]; exact not_lt.mp hnear
    have hact : (softContact 6 p).active s1 = false := by
      change s1.isActive = false
      rw [Bool.eq_false_iff, ne_eq, h1a, htw.1, htw.2]
      have : slip c.H0 s.body0.pose s.body1.pose (s.body0.jac *ᵥ (x.2 • upTw S)) (s.body1.jac *ᵥ (x.2 • upTw S)) = slipOf s c (x.2 • upTw S) := rfl
      rw [this]
      linarith
    have hno : ¬ (x.1 + dt * x.2 < p.proximity ∧ x.1 + dt * (x.2 + dt * γ) ≤ 0) := fun h => hnear h.1
    refine ⟨s1, _, _, s1, hup1, C119_far ht hdt htw hfar _ _, ?_, h1e.trans hsx.enabled, ?_, ?_⟩
    · simp [writeBack, e1, e3, hact]
    · rw [h1f, reaction, if_neg hno, Pi.single_zero]
    · rw [hv0, bounce, if_neg hno]

/-- one step -/
lemma ball_step (hs : ∀ z, IsArgsortAbs z (sort z)) (hcol : p.collide = planeSphereShapes sort 1 S.up S.d 1 S.r) (hp : ∀ A, A.det ≠ 0 → IsPinv A (p.pinv A)) (γ : ℝ) {x : ℝ × ℝ}
    {w : MWorld 6 Unit} (hw : BallNow S p x w) {dt : ℝ} (hdt : 0 < dt) :
    let E := touchEngine 6 S.up [.weight γ] p none (some 0)
    ∃ a b c w', E.dynamic w = .ok a ∧ E.controllers dt a = .ok b ∧ E.constraints dt b = .ok c ∧ E.integrate dt c = .ok w' ∧
      BallNow S p (bounce γ p.proximity dt x) w' ∧ ∃ s : TouchState 6, w'.cons = [⟨softContact 6 p, s⟩] ∧ s.force = Pi.single 3 (reaction S.m γ p.proximity dt x) := by
  intro E
  obtain ⟨s0, hs0, hen0⟩ := hw.contact
  have hval : ∀ l ∈ (w.tree.map MLink.link id).links, ValidLink l := by
    intro l hl
    rw [hw.tree] at hl
    simp only [ballTree, Forest.map, Forest.links, List.append_nil, List.mem_singleton] at hl
    subst hl
    refine Spec.RigidLink.valid ⟨isRigid_one, isRigid_one, fun H T h => ?_⟩
    injection h with h1 h2
    rw [← h1]
    exact isRigid_mkH S.rot
  have hdyn := (C20_no_assertion 6 _ hval).2
  have hd : worldDynamic 6 (w.tree.map MLink.link id) = [(⟨S.M, 0⟩, ballDyn S x)] := by rw [hw.tree]; exact ball_dyn S x
  obtain ⟨m1, m2, m3⟩ := ball_mass S x
  set a : MWorld 6 Unit := { w with dyn := [(⟨S.M, 0⟩, ballDyn S x)], mass := S.M, viscosity := 0, nleffects := 0 } with ha
  have ha' : Mech.dynamic w = .ok a := by
    unfold Mech.dynamic
    rw [hdyn, hd]
    simp only [m1, m2, m3, ha]
  have hZ : (dt⁻¹ • S.M).det ≠ 0 := by
    rw [Matrix.det_smul]
    exact mul_ne_zero (pow_ne_zero _ (inv_ne_zero hdt.ne')) (BlockGS.pd_det S.pd)
  set o : CtrlOut 6 := ⟨(S.m * γ) • upTw S, dt⁻¹ • S.M, (dt⁻¹ • S.M)⁻¹⟩ with ho
  have hinv : o.admittance * (dt⁻¹ • S.M) = 1 := Matrix.nonsing_inv_mul _ (isUnit_iff_ne_zero.mpr hZ)
  have huc : updateControllers a.mass a.viscosity a.nleffects dt [⟨(S.m * γ) • upTw S, 0⟩] = .ok o := by
    refine (C33_sum _ _ _ _ _ _).mpr ⟨hdt, hZ, ?_, ?_, hinv⟩
    · simp [ho]
    · simp [ho, ha]
  set b : MWorld 6 Unit := { a with ctrl := o } with hb
  have hb' : Mech.controllers (touchPlug 6 S.up [.weight γ] p none (some 0)) dt a = .ok b := by
    have hask : askAll S.up a dt [.weight γ] = .ok [⟨(S.m * γ) • upTw S, 0⟩] := by
      simp only [askAll, LibCtrl.update, ha, ball_weight]
    simp only [Mech.controllers, touchPlug, libPlug, hask, huc, hb]
  set s : TouchState 6 := { s0 with body0 := groundDyn 6, body1 := ballDyn S x } with hsdef
  have hlook : b.cons.map ((touchPlug 6 S.up [.weight γ] p none (some 0)).look b) = [⟨softContact 6 p, s⟩] := by
    have : b.cons = [⟨softContact 6 p, s0⟩] := hs0
    rw [this]
    simp only [List.map_cons, List.map_nil, touchPlug, touchLook_self]
    rfl
  obtain ⟨s1, g, solved, s', hup, hu, hwb, hen', hforce, hint⟩ := ball_solve (S := S) (p := p) hs hcol hp γ (x := x) (s := s) ⟨rfl, rfl, hen0⟩ hdt (o := o) rfl hinv
  have hgv : b.gvel = x.2 • upTw S := hw.gvel
  set c : MWorld 6 Unit := { b with ctrl := { b.ctrl with gforce := g }, cons := [⟨softContact 6 p, s'⟩] } with hc
  have hc' : E.constraints dt b = .ok c := by
    change (match ((b.cons.map ((touchPlug 6 S.up [.weight γ] p none (some 0)).look b)).filterMap (touchRaises p dt)).head? with
      | some e => Except.error e
      | none => Mech.constraints (touchPlug 6 S.up [.weight γ] p none (some 0)) dt b) = _
    have : ((b.cons.map ((touchPlug 6 S.up [.weight γ] p none (some 0)).look b)).filterMap (touchRaises p dt)).head? = none := by
      rw [hlook]
      simp [touchRaises_self hup]
    rw [this]
    simp only [Mech.constraints]
    rw [hlook]
    have hu' : updateConstraints b.mass b.gvel b.ctrl [⟨softContact 6 p, s⟩] dt = .ok (g, solved) := by rw [hgv]; exact hu
    rw [hu']
    change Except.ok { b with ctrl := { b.ctrl with gforce := g }, cons := writeBack dt [(⟨softContact 6 p, s⟩ : Con 6)] solved } = _
    rw [hwb]
  have hi : integrateGvel c.mass c.ctrl.admittance c.gvel c.ctrl.gforce dt = .ok ((bounce γ p.proximity dt x).2 • upTw S) := by
    have : c.gvel = x.2 • upTw S := hw.gvel
    rw [this]
    exact hint
  refine ⟨a, b, c, { c with gvel := (bounce γ p.proximity dt x).2 • upTw S, tree := c.tree.map (advance ((bounce γ p.proximity dt x).2 • upTw S) dt) id }, ha', hb', hc', ?_, ⟨?_, rfl, s', rfl, hen'⟩, s', rfl, hforce⟩
  · change Mech.integrate dt c = _
    unfold Mech.integrate
    rw [hi]
  · have ht : c.tree = ballTree S x := hw.tree
    simp only [ht, ballTree, Forest.map, id]
    have hpart : (fun i : Fin 6 => part ((bounce γ p.proximity dt x).2 • upTw S) 0 i.val) = tw 0 ((bounce γ p.proximity dt x).2 • S.Rᵀ *ᵥ S.up) := by
      rw [ball_tw]
      funext i
      simp [part]
    have hbz : (bounce γ p.proximity dt x).1 = x.1 + dt * (bounce γ p.proximity dt x).2 := by
      unfold bounce
      split_ifs with h
      · field_simp
        ring
      · rfl
    have hH : freeIntegrate (mkH S.R (S.foot + x.1 • S.up)) (tw 0 ((bounce γ p.proximity dt x).2 • S.Rᵀ *ᵥ S.up)) dt =
        mkH S.R (S.foot + (bounce γ p.proximity dt x).1 • S.up) := by
      unfold freeIntegrate
      rw [tw_smul, smul_zero, (C10_translation (ang_tw _ _)).1, lin_tw, mkH_mul, Matrix.mul_one]
      congr 1
      rw [Matrix.mulVec_smul, Matrix.mulVec_smul, Matrix.mulVec_mulVec, S.rot.1, Matrix.one_mulVec, smul_smul]
      rw [hbz, add_smul]
      abel
    unfold advance
    simp only [JAttr.integrate]
    rw [hpart, hH]

lemma ball_steps (hs : ∀ z, IsArgsortAbs z (sort z)) (hcol : p.collide = planeSphereShapes sort 1 S.up S.d 1 S.r) (hp : ∀ A, A.det ≠ 0 → IsPinv A (p.pinv A)) (γ : ℝ) (t0 : ℝ)
    (rest : List ℝ) (hinc : (t0 :: rest).Pairwise (· < ·)) {x : ℝ × ℝ} {w : MWorld 6 Unit} (hw : BallNow S p x w) :
    ∃ obs w', Steps (touchEngine 6 S.up [.weight γ] p none (some 0)) (t0 :: rest) w obs w' ∧ BallNow S p (fall γ p.proximity (t0 :: rest) x) w' ∧
      (rest ≠ [] → ∃ s : TouchState 6, w'.cons = [⟨softContact 6 p, s⟩] ∧ s.force = Pi.single 3 (lastReaction S.m γ p.proximity (t0 :: rest) x)) := by
  induction rest generalizing t0 x w with
  | nil => exact ⟨[], w, .done t0 w, hw, fun h => absurd rfl h⟩
  | cons t1 rest ih =>
    obtain ⟨h1, h2⟩ := List.pairwise_cons.mp hinc
    have hdt : 0 < t1 - t0 := sub_pos.mpr (h1 t1 (by simp))
    obtain ⟨a, b, c, w1, e1, e2, e3, e4, hw1, hf⟩ := ball_step (S := S) (p := p) hs hcol hp γ hw hdt
    obtain ⟨obs, w', hst, hw', hf'⟩ := ih t1 h2 hw1
    refine ⟨_, w', .step e1 e2 e3 e4 hst, hw', fun _ => ?_⟩
    cases rest with
    | nil =>
      cases hst
      exact hf
    | cons t2 rest => exact hf' (by simp)

/-- C120.  A solid of any attitude, mass and inertia, its centre anywhere, without spin and with a vertical velocity, falls under a
`WeightController` on a horizontal plane of the ground; a `SoftFingerContact` of any friction coefficient and proximity watches the sphere around its centre.  On
every strictly increasing timeline, with any number of observers, the simulation goes to the end: nothing raises.  The solid keeps its attitude and its
vertical; its height and speed follow, step by step, the motion of a point that falls and stops on the ground (`fall`); the contact ends with
no friction and with the normal force that stops the solid. -/
theorem C120_run (hs : ∀ z, IsArgsortAbs z (sort z)) (hcol : p.collide = planeSphereShapes sort 1 S.up S.d 1 S.r) (hp : ∀ A, A.det ≠ 0 → IsPinv A (p.pinv A)) (γ : ℝ) {x : ℝ × ℝ}
    {w : MWorld 6 Unit} (hw : BallAt S p x w) {tl : List ℝ} (htl : tl ≠ []) (hinc : tl.Pairwise (· < ·)) (k : ℕ) :
    ∃ tr w' t', simulate (touchEngine 6 S.up [.weight γ] p none (some 0)) w tl (.list k) = (tr, .ok (w', t')) ∧ tl.getLast? = some t' ∧
      BallAt S p (fall γ p.proximity tl x) w' ∧
      (2 ≤ tl.length → ∃ s : TouchState 6, w'.cons = [⟨softContact 6 p, s⟩] ∧ s.force = Pi.single 3 (lastReaction S.m γ p.proximity tl x)) := by
  cases tl with
  | nil => exact absurd rfl htl
  | cons t0 rest =>
    obtain ⟨st0, htree⟩ := hw.tree
    have hndof : ndof w.tree = 6 := by rw [htree]; rfl
    obtain ⟨w0, h0, hst⟩ := init_started (w := w) hndof
    have ht0 : w0.tree = ballTree S x := by
      have := (Except.ok.inj h0).symm
      rw [this]
      simp only [htree]
      rfl
    have hg0 : w0.gvel = x.2 • upTw S := by
      have hv := hst.vel ⟨.free (mkH S.R (S.foot + x.1 • S.up)) (tw 0 (x.2 • S.Rᵀ *ᵥ S.up)), 0, 1, 1⟩ (by rw [ht0]; simp [ballTree, Forest.links])
      obtain ⟨_, hv⟩ := hv
      rw [← ball_tw, hv]
      funext i
      simp [slice]
    have hw0 : BallNow S p x w0 := by
      refine ⟨ht0, hg0, ?_⟩
      rw [hst.cons]
      exact hw.contact
    obtain ⟨obs, w', hsteps, hw', hf⟩ := ball_steps (S := S) (p := p) hs hcol hp γ t0 rest hinc hw0
    have hlast : (t0 :: rest).getLast? = some ((t0 :: rest).getLast (by simp)) := List.getLast?_eq_getLast_of_ne_nil _
    refine ⟨_, w', _, (C45_run _ _ _ _ _ _ _).mpr ⟨t0, rest, w0, obs, rfl, hinc, h0, hsteps, rfl, hlast⟩, hlast, ⟨⟨0, hw'.tree⟩, hw'.contact⟩, ?_⟩
    intro hlen
    refine hf ?_
    intro h
    rw [h] at hlen
    simp at hlen

end
end Arboris
