import Verif.Spec.Weld
import Verif.Props.Join
import Verif.Props.Graft
import Verif.Props.Mass
import Verif.Props.Energy
import Verif.Props.Robots

/-!
# C92: a body held by a `FixedJoint` can be merged into its parent
-/

namespace Arboris
open Matrix Spec

/-! ### kinematics -/

/-- what hangs below a welded body, hung directly -/
lemma dynStep_moved {n : ℕ} {H : Mat4} (hH : IsRigid H) {l : Link} (hl : ValidLink l) (d : BodyDyn n) :
    dynStep (subFrame d H) l = dynStep d ⟨l.k, l.start, l.joint, H * l.bpose0, l.bpose1⟩ := by
  have hl' : ValidLink ⟨l.k, l.start, l.joint, H * l.bpose0, l.bpose1⟩ := ⟨hH.mul hl.bpose0, hl.bpose1, hl.pose, hl.ipose⟩
  have e : relPose ⟨l.k, l.start, l.joint, H * l.bpose0, l.bpose1⟩ = H * relPose l := by
    simp only [relPose, Matrix.mul_assoc]
  have ei : iadjointBody (H * relPose l) = iadjointBody (relPose l) * iadjointBody H := by
    rw [iadjointBody, hH.invBody_mul_rev hl.relPose, adjointBody_mul hl.relPose.invBody hH.invBody, iadjointBody, iadjointBody]
  have eb : adjointBody (invBody (H * l.bpose0)) = adjointBody (invBody l.bpose0) * iadjointBody H := by
    rw [hH.invBody_mul_rev hl.bpose0, adjointBody_mul hl.bpose0.invBody hH.invBody, iadjointBody]
  have h1 : ∀ (a b : BodyDyn n), a.pose = b.pose → a.jac = b.jac → a.djac = b.djac → a.twist = b.twist → a = b := by
    rintro ⟨⟩ ⟨⟩ h1 h2 h3 h4; simp only at h1 h2 h3 h4; rw [h1, h2, h3, h4]
  apply h1
  · rw [dynStep_pose, dynStep_pose, e, subFrame, Matrix.mul_assoc]
  · rw [dynStep_jac, dynStep_jac, e, ei]; simp only [subFrame, Matrix.mul_assoc]
  · rw [dynStep_djac, dynStep_djac, e, ei]; simp only [subFrame, eb, Matrix.mul_assoc]
  · rw [dynStep_twist, dynStep_twist, e, ei]; simp only [subFrame, Matrix.mulVec_mulVec]

/-- a `FixedJoint` makes of its body a sub-frame of its parent -/
lemma dynStep_fixed {n : ℕ} {H Q : Mat4} (hH : IsRigid H) (hQ : IsRigid Q) (start : ℕ) (d : BodyDyn n) :
    dynStep d ⟨0, start, fixedVal, H * Q, Q⟩ = subFrame d H := by
  have e : relPose ⟨0, start, fixedVal, H * Q, Q⟩ = H := by
    simp only [relPose, fixedVal, Matrix.one_mul, Matrix.mul_assoc]; rw [hQ.mul_invBody, Matrix.mul_one]
  have h1 : ∀ (a b : BodyDyn n), a.pose = b.pose → a.jac = b.jac → a.djac = b.djac → a.twist = b.twist → a = b := by
    rintro ⟨⟩ ⟨⟩ h1 h2 h3 h4; simp only at h1 h2 h3 h4; rw [h1, h2, h3, h4]
  have h0 : (fixedVal).idadjoint = 0 := by
    simp [JointVal.idadjoint, JointVal.itwist, fixedVal, adjacency_zero]
  apply h1
  · rw [dynStep_pose, e]; rfl
  · rw [dynStep_jac, e]; simp [fixedVal, subFrame]
  · rw [dynStep_djac, e, h0]; simp [fixedVal, subFrame]
  · rw [dynStep_twist, e]; simp [fixedVal, subFrame]

lemma updateDynamic_rehang {n : ℕ} {H : Mat4} (hH : IsRigid H) (F : Forest Link Body) (hF : ∀ l ∈ F.links, ValidLink l)
    (d : BodyDyn n) : updateDynamic d (rehang H F) = updateDynamic (subFrame d H) F := by
  induction F with
  | nil => rfl
  | cons l b ch sib _ ih =>
    simp only [Forest.links, List.cons_append, List.mem_cons, List.mem_append, forall_eq_or_imp] at hF
    simp only [rehang, updateDynamic]
    rw [ih fun l hl => hF.2 l (Or.inr hl), dynStep_moved hH hF.1]

lemma rehang_links {H : Mat4} (hH : IsRigid H) {F : Forest Link Body} (hF : ∀ l ∈ F.links, ValidLink l) :
    ∀ l ∈ (rehang H F).links, ValidLink l := by
  induction F with
  | nil => exact hF
  | cons l b ch sib _ ih =>
    simp only [Forest.links, rehang, List.cons_append, List.mem_cons, List.mem_append, forall_eq_or_imp] at hF ⊢
    refine ⟨⟨hH.mul hF.1.bpose0, hF.1.bpose1, hF.1.pose, hF.1.ipose⟩, ?_⟩
    rintro l (h | h)
    · exact hF.2 l (Or.inl h)
    · exact ih (fun l h => hF.2 l (Or.inr h)) l h

lemma Spec.Welds.isRigid {H : Mat4} {A B : Body} {F F' : Forest Link Body} (h : Welds H A B F F') : IsRigid H := by
  induction h with
  | here hH hP => exact hH
  | child h ih => exact ih
  | sibling h ih => exact ih

lemma Spec.Welds.dynamic {H : Mat4} {A B : Body} {F F' : Forest Link Body} (h : Welds H A B F F')
    (hF : ∀ l ∈ F.links, ValidLink l) (n : ℕ) (s : BodyDyn n) :
    ∃ pre mid post d, updateDynamic s F = pre ++ (A, d) :: (mid ++ (B, subFrame d H) :: post) ∧
      updateDynamic s F' = pre ++ (lump H A B, d) :: (mid ++ post) := by
  induction h generalizing s with
  | @here l start P Q before below after sib hH hP =>
    subst hP
    simp only [Forest.links, Forest.links_append, List.cons_append, List.mem_cons, List.mem_append, forall_eq_or_imp] at hF
    have hfix : ValidLink ⟨0, start, fixedVal, H * Q, Q⟩ := hF.2 _ (Or.inl (Or.inr (Or.inl rfl)))
    have hbelow : ∀ l ∈ below.links, ValidLink l := fun l hl => hF.2 l (Or.inl (Or.inr (Or.inr (Or.inl hl))))
    refine ⟨[], updateDynamic (dynStep s l) before,
      updateDynamic (subFrame (dynStep s l) H) below ++ updateDynamic (dynStep s l) after ++ updateDynamic s sib,
      dynStep s l, ?_, ?_⟩
    · simp only [updateDynamic, updateDynamic_append, List.nil_append, List.append_assoc, List.cons_append]
      rw [dynStep_fixed hH hfix.bpose1]
    · simp only [updateDynamic, updateDynamic_append, List.nil_append, List.append_assoc]
      rw [updateDynamic_rehang hH below hbelow]
  | @child l b ch ch' sib h ih =>
    obtain ⟨pre, mid, post, d, e1, e2⟩ := ih (fun l' hl => hF l' (by simp [Forest.links, hl])) (dynStep s l)
    refine ⟨(b, dynStep s l) :: pre, mid, post ++ updateDynamic s sib, d, ?_, ?_⟩
    · simp [updateDynamic, e1]
    · simp [updateDynamic, e2]
  | @sibling l b ch sib sib' h ih =>
    obtain ⟨pre, mid, post, d, e1, e2⟩ := ih (fun l' hl => hF l' (by simp [Forest.links, hl])) s
    refine ⟨(b, dynStep s l) :: (updateDynamic (dynStep s l) ch ++ pre), mid, post, d, ?_, ?_⟩
    · simp [updateDynamic, e1]
    · simp [updateDynamic, e2]

lemma Spec.Welds.links {H : Mat4} {A B : Body} {F F' : Forest Link Body} (h : Welds H A B F F')
    (hF : ∀ l ∈ F.links, ValidLink l) : ∀ l ∈ F'.links, ValidLink l := by
  induction h with
  | @here l start P Q before below after sib hH hP =>
    simp only [Forest.links, Forest.links_append, List.cons_append, List.mem_cons, List.mem_append, forall_eq_or_imp] at hF ⊢
    have hbelow : ∀ l ∈ below.links, ValidLink l := fun l hl => hF.2 l (Or.inl (Or.inr (Or.inr (Or.inl hl))))
    refine ⟨hF.1, ?_⟩
    rintro l ((h | h | h) | h)
    · exact hF.2 l (Or.inl (Or.inl h))
    · exact rehang_links hH hbelow l h
    · exact hF.2 l (Or.inl (Or.inr (Or.inr (Or.inr h))))
    · exact hF.2 l (Or.inr h)
  | @child l b ch ch' sib h ih =>
    simp only [Forest.links, List.cons_append, List.mem_cons, List.mem_append, forall_eq_or_imp] at hF ⊢
    exact ⟨hF.1, fun l' hl => hl.elim (ih (fun l h => hF.2 l (Or.inl h)) l') fun h => hF.2 l' (Or.inr h)⟩
  | @sibling l b ch sib sib' h ih =>
    simp only [Forest.links, List.cons_append, List.mem_cons, List.mem_append, forall_eq_or_imp] at hF ⊢
    exact ⟨hF.1, fun l' hl => hl.elim (fun h => hF.2 l' (Or.inl h)) (ih (fun l h => hF.2 l (Or.inr h)) l')⟩

/-- C92.  After merging, the single body has the pose, twist and jacobians that `A` had, `B` was at the pose `H` in it, and
every other body is visited in the same order with the same pose, twist and jacobians. -/
theorem C92_motion_partial {H : Mat4} {A B : Body} {F F' : Forest Link Body} (h : Welds H A B F F')
    (hF : ∀ l ∈ F.links, ValidLink l) (n : ℕ) : ∃ pre mid post d,
      updateDynamicE (groundDyn n) F = .ok (pre ++ (A, d) :: (mid ++ (B, subFrame d H) :: post)) ∧
      updateDynamicE (groundDyn n) F' = .ok (pre ++ (lump H A B, d) :: (mid ++ post)) := by
  obtain ⟨pre, mid, post, d, e1, e2⟩ := h.dynamic hF n (groundDyn n)
  refine ⟨pre, mid, post, d, ?_, ?_⟩
  · rw [updateDynamicE_ok F hF, e1]
  · rw [updateDynamicE_ok F' (h.links hF), e2]

/-! ### the sums -/

lemma sum_weld {n : ℕ} {α M : Type} [AddCommMonoid M] {β : Type} (f : α × β → M) (pre mid post : List (α × β)) (A B A' : α) (d e : β)
    (h : f (A', d) = f (A, d) + f (B, e)) :
    ((pre ++ (A', d) :: (mid ++ post)).map f).sum = ((pre ++ (A, d) :: (mid ++ (B, e) :: post)).map f).sum := by
  simp only [List.map_append, List.map_cons, List.sum_append, List.sum_cons, h]
  abel

/-- C92: the inertia and damping matrices of the world are the same. -/
theorem C92_mass_partial {H : Mat4} {A B : Body} {F F' : Forest Link Body} (h : Welds H A B F F')
    (hF : ∀ l ∈ F.links, ValidLink l) (n : ℕ) :
    worldMass (worldDynamic n F') = worldMass (worldDynamic n F) ∧
    worldViscosity (worldDynamic n F') = worldViscosity (worldDynamic n F) := by
  obtain ⟨pre, mid, post, d, e1, e2⟩ := h.dynamic hF n (groundDyn n)
  constructor
  · rw [worldMass_eq, worldMass_eq, worldDynamic, worldDynamic, e1, e2]
    apply sum_weld (n := n)
    simp only [lump, seenFrom, subFrame, iadjointBody, Matrix.mul_add, Matrix.add_mul, Matrix.transpose_mul, Matrix.mul_assoc]
  · rw [worldViscosity_eq, worldViscosity_eq, worldDynamic, worldDynamic, e1, e2]
    apply sum_weld (n := n)
    simp only [lump, seenFrom, subFrame, iadjointBody, Matrix.mul_add, Matrix.add_mul, Matrix.transpose_mul, Matrix.mul_assoc]

/-! ### bias forces -/

lemma newtonEulerBias_eq (M : Mat6) (T : Vec6) : newtonEulerBias M T = -((adjacency T)ᵀ *ᵥ (M *ᵥ T)) := by
  rw [newtonEulerBias, adjacency_eq, blk_transpose, ← tw_ang_lin (M *ᵥ T), blk_mulVec]
  simp only [ang_tw, lin_tw, skew_transpose, Matrix.transpose_zero, Matrix.zero_mulVec, zero_add, Matrix.neg_mulVec,
    skew_mulVec, tw_neg, neg_add, neg_neg]

lemma newtonEulerBias_add (M N : Mat6) (T : Vec6) :
    newtonEulerBias (M + N) T = newtonEulerBias M T + newtonEulerBias N T := by
  simp only [newtonEulerBias_eq, Matrix.add_mulVec, Matrix.mulVec_add, neg_add]

lemma newtonEulerBias_seenFrom {H : Mat4} (hH : IsRigid H) (M : Mat6) (T : Vec6) :
    newtonEulerBias (seenFrom H M) T =
      (adjointBody (invBody H))ᵀ *ᵥ newtonEulerBias M (adjointBody (invBody H) *ᵥ T) := by
  have h := hH.invBody.adjoint_mul_adjacency T
  rw [newtonEulerBias_eq, newtonEulerBias_eq, seenFrom, Matrix.mulVec_neg]
  congr 1
  simp only [Matrix.mulVec_mulVec, ← Matrix.mul_assoc]
  rw [← Matrix.transpose_mul, ← Matrix.transpose_mul, h]

lemma Spec.Weighty.bias {M : Mat6} (h : Weighty M) (T : Vec6) : bodyNleffects M T *ᵥ T = newtonEulerBias M T := by
  obtain ⟨m, c, I, hM, hm⟩ := h
  rcases lt_or_ge 1e-10 m with h1 | h1
  · exact (C28_bias hM h1 T).1
  · exact ((C28_small hM h1 T).2 (hm.resolve_left (not_lt.mpr h1))).1

/-- C92: the bias forces `nleffects · gvel` are the same. -/
theorem C92_bias_partial {H : Mat4} {A B : Body} {F F' : Forest Link Body} (h : Welds H A B F F')
    (hF : ∀ l ∈ F.links, ValidLink l) {n : ℕ} (ν : Fin n → ℝ) (hν : ∀ l ∈ F.links, Consistent ν l)
    (hA : Weighty A.mass) (hB : Weighty B.mass) (hAB : Weighty (lump H A B).mass) :
    worldNleffects (worldDynamic n F') *ᵥ ν = worldNleffects (worldDynamic n F) *ᵥ ν := by
  obtain ⟨pre, mid, post, d, e1, e2⟩ := h.dynamic hF n (groundDyn n)
  have hd : d.twist = d.jac *ᵥ ν := by
    refine C21_twist ν F hν (A, d) ?_
    rw [worldDynamic, e1]; simp
  have key : ∀ bs : List (Body × BodyDyn n), worldNleffects bs *ᵥ ν = (bs.map fun x =>
      (x.2.jacᵀ * (x.1.mass * x.2.djac + bodyNleffects x.1.mass x.2.twist * x.2.jac)) *ᵥ ν).sum := by
    intro bs
    rw [worldNleffects_eq]
    induction bs with
    | nil => simp
    | cons x bs ih => simp only [List.map_cons, List.sum_cons, Matrix.add_mulVec, ih]
  rw [key, key, worldDynamic, worldDynamic, e1, e2]
  apply sum_weld (n := n)
  have hd' : (subFrame d H).twist = (subFrame d H).jac *ᵥ ν := by
    simp only [subFrame, hd, Matrix.mulVec_mulVec]
  have one : ∀ (M : Mat6) (x : BodyDyn n), Weighty M → x.twist = x.jac *ᵥ ν →
      (x.jacᵀ * (M * x.djac + bodyNleffects M x.twist * x.jac)) *ᵥ ν =
        x.jacᵀ *ᵥ (M *ᵥ (x.djac *ᵥ ν) + newtonEulerBias M x.twist) := by
    intro M x hM hx
    rw [← hM.bias x.twist, ← Matrix.mulVec_mulVec, Matrix.add_mulVec, ← Matrix.mulVec_mulVec, ← Matrix.mulVec_mulVec, ← hx]
  simp only
  rw [one _ d hA hd, one _ _ hB hd', one _ d hAB hd]
  simp only [lump, newtonEulerBias_add, newtonEulerBias_seenFrom h.isRigid, hd, hd']
  simp only [subFrame, iadjointBody, seenFrom, Matrix.mul_add, Matrix.add_mul, Matrix.mulVec_add, Matrix.add_mulVec,
    Matrix.mulVec_mulVec, Matrix.transpose_mul, Matrix.mul_assoc]
  abel

lemma isRigidMass_add {M N : Mat6} {m k : ℝ} {c e : Vec3} {I J : Mat3} (h : IsRigidMass M m c I) (h' : IsRigidMass N k e J)
    (hp : m + k ≠ 0) : IsRigidMass (M + N) (m + k) ((m + k)⁻¹ • (m • c + k • e)) (I + J) := by
  refine ⟨by rw [Matrix.transpose_add, h.symm, h'.symm], ?_⟩
  have e1 : (m + k) • skew ((m + k)⁻¹ • (m • c + k • e)) = m • skew c + k • skew e := by
    rw [← skew_smul, smul_smul, mul_inv_cancel₀ hp, one_smul, skew_add, skew_smul, skew_smul]
  rw [h.eq, h'.eq, blk_add, e1, neg_add, add_smul]

/-- C92 (the hypotheses of `C92_bias_partial`): two bodies with a mass above the threshold make a body with a mass above the
threshold. -/
theorem C92_weighty_partial {H : Mat4} (hH : IsRigid H) {A B : Body} {m k : ℝ} {c e : Vec3} {I J : Mat3}
    (hA : IsRigidMass A.mass m c I) (hB : IsRigidMass B.mass k e J) (hm : 1e-10 < m) (hk : 1e-10 < k) :
    Weighty A.mass ∧ Weighty B.mass ∧ Weighty (lump H A B).mass := by
  refine ⟨⟨m, c, I, hA, Or.inl hm⟩, ⟨k, e, J, hB, Or.inl hk⟩, ?_⟩
  obtain ⟨c', I', h', _⟩ := C14_structure hB hH.invBody
  have e1 : transportBody B.mass (invBody H) = seenFrom H B.mass := by
    simp only [transportBody, seenFrom, Matrix.mul_assoc]
  rw [e1] at h'
  exact ⟨_, _, _, isRigidMass_add hA h' (by linarith), Or.inl (by linarith)⟩

/-! ### weight -/

/-- C92: a `WeightController` exerts the same generalized force. -/
theorem C92_weight_partial {H : Mat4} {A B : Body} {F F' : Forest Link Body} (h : Welds H A B F F')
    (hF : ∀ l ∈ F.links, ValidLink l) (n : ℕ) (γ : ℝ) (up : Vec3)
    (hpos : ∀ b ∈ F.bodies ++ F'.bodies, ∃ m c I, IsRigidMass b.mass m c I ∧ 0 ≤ m) :
    weightUpdateE γ up (worldDynamic n F') = weightUpdateE γ up (worldDynamic n F) := by
  have hz : ∀ (G : Forest Link Body), (∀ b ∈ G.bodies, b ∈ F.bodies ++ F'.bodies) → ∀ x ∈ worldDynamic n G,
      (∀ i j, x.1.mass i j ≤ 0) → x.1.mass *ᵥ (iadjointBody x.2.pose *ᵥ gravityTwist γ up) = 0 := by
    intro G hG x hx hneg
    have hb : x.1 ∈ G.bodies := by
      rw [worldDynamic, updateDynamic_eq] at hx
      obtain ⟨y, hy, rfl⟩ := List.mem_map.mp hx
      exact (Forest.mem_bodies_iff G y.1).mpr ⟨y.2, hy⟩
    obtain ⟨m, c, I, hM, hm⟩ := hpos _ (hG _ hb)
    have hz : m = 0 := by
      refine le_antisymm ?_ hm
      have := hneg 3 3
      rw [hM.eq] at this
      simpa [blk] using this
    unfold gravityTwist iadjointBody invBody
    rw [hM.eq, hz, adjointBody_mkH, blk_mulVec, blk_mulVec]
    simp [tw_zero]
  have hr : ∀ (G : Forest Link Body), (∀ l ∈ G.links, ValidLink l) → ∀ x ∈ worldDynamic n G, IsRigid x.2.pose := by
    intro G hG x hx
    rw [worldDynamic, updateDynamic_eq] at hx
    obtain ⟨y, hy, rfl⟩ := List.mem_map.mp hx
    exact isRigid_foldl y.2 _ isRigid_one fun l hl => hG l (mem_links_of_mem_paths hy hl)
  rw [weightUpdateE_ok γ up _ (hr F hF) (hz F fun b hb => by simp [hb]),
    weightUpdateE_ok γ up _ (hr F' (h.links hF)) (hz F' fun b hb => by simp [hb])]
  obtain ⟨pre, mid, post, d, e1, e2⟩ := h.dynamic hF n (groundDyn n)
  have hd : IsRigid d.pose := hr F hF (A, d) (by rw [worldDynamic, e1]; simp)
  congr 2
  rw [worldDynamic, worldDynamic, e1, e2]
  apply sum_weld (n := n)
  have ei : iadjointBody (d.pose * H) = iadjointBody H * iadjointBody d.pose := by
    rw [iadjointBody, hd.invBody_mul_rev h.isRigid, adjointBody_mul h.isRigid.invBody hd.invBody, iadjointBody, iadjointBody]
  simp only [subFrame, lump, seenFrom]
  rw [ei]
  simp only [iadjointBody, Matrix.add_mul, Matrix.add_mulVec, Matrix.mulVec_add, Matrix.mulVec_mulVec, Matrix.transpose_mul,
    Matrix.mul_assoc]

/-! ### the matrix of the bias forces -/

/-- C92, the claim for `world.nleffects` itself -/
def C92_Claim : Prop := ∀ (H : Mat4) (A B : Body) (F F' : Forest Link Body), Welds H A B F F' →
  (∀ l ∈ F.links, ValidLink l) → ∀ (n : ℕ) (ν : Fin n → ℝ), (∀ l ∈ F.links, Consistent ν l) →
  Weighty A.mass → Weighty B.mass → Weighty (lump H A B).mass →
  worldNleffects (worldDynamic n F') = worldNleffects (worldDynamic n F)

/-- a free body turning about the second axis -/
noncomputable def spinLink : Link := ⟨6, 0, freeVal 1 (tw ![0, 1, 0] 0), 1, 1⟩

lemma spin_step : dynStep (groundDyn 6) spinLink = ⟨1, 1, 0, tw ![0, 1, 0] 0⟩ := by
  have e : relPose spinLink = 1 := by simp [relPose, spinLink, freeVal, invBody_one]
  have h1 : ∀ (a b : BodyDyn 6), a.pose = b.pose → a.jac = b.jac → a.djac = b.djac → a.twist = b.twist → a = b := by
    rintro ⟨⟩ ⟨⟩ h1 h2 h3 h4; simp only at h1 h2 h3 h4; rw [h1, h2, h3, h4]
  apply h1
  · rw [dynStep_pose, e]; simp [groundDyn]
  · change (dynStep (groundDyn 6) ⟨6, 0, freeVal 1 (tw ![0, 1, 0] 0), 1, 1⟩).jac = 1
    rw [dynStep]; simp only [groundDyn, addCols_eq, selMat_self, adjointBody_one, freeVal]; simp
  · change (dynStep (groundDyn 6) ⟨6, 0, freeVal 1 (tw ![0, 1, 0] 0), 1, 1⟩).djac = 0
    rw [dynStep]; simp only [groundDyn, addCols_eq, selMat_self, adjointBody_one, freeVal]; simp
  · rw [dynStep_twist, e]; simp [groundDyn, spinLink, freeVal, adjointBody_one]

lemma one_rigidMass : IsRigidMass (1 : Mat6) 1 0 1 := by
  refine ⟨Matrix.transpose_one, ?_⟩
  rw [skew_zero, smul_zero, neg_zero, one_smul, blk_one]

/-- C92 is false of `world.nleffects`: two unit masses at distance 1, turning freely.  The matrices differ although their
products with the current velocity are the same, so the (implicit) integration steps differ too. -/
theorem C92_false : ¬ C92_Claim := by
  intro h
  set H : Mat4 := mkH 1 ![1, 0, 0] with hHdef
  have hH : IsRigid H := isRigid_mkH IsRotation.one
  set A : Body := ⟨1, 0⟩ with hA
  have hw := C92_weighty_partial (A := A) (B := A) hH one_rigidMass one_rigidMass (by norm_num) (by norm_num)
  have hval : ∀ l ∈ (Forest.cons spinLink A (Forest.append .nil (.cons ⟨0, 6, fixedVal, H * 1, 1⟩ A .nil .nil)) .nil).links,
      ValidLink l := by
    intro l hl
    simp only [Forest.append, Forest.links, List.append_nil, List.mem_cons, List.not_mem_nil, or_false, List.cons_append,
      List.nil_append] at hl
    rcases hl with rfl | rfl
    · exact ⟨isRigid_one, isRigid_one, isRigid_one, by simp [spinLink, freeVal, invBody_one]⟩
    · exact ⟨by rw [Matrix.mul_one]; exact hH, isRigid_one, isRigid_one, by simp [fixedVal, invBody_one]⟩
  have := h H A A _ _ (Welds.here (l := spinLink) (start := 6) (Q := 1) (before := .nil) (below := .nil) (after := .nil)
    (sib := .nil) hH rfl) hval 6 (tw ![0, 1, 0] 0) ?_ hw.1 hw.2.1 hw.2.2
  · rw [worldNleffects_eq, worldNleffects_eq] at this
    simp only [worldDynamic, Forest.append, rehang, updateDynamic, List.nil_append, List.append_nil, List.map_cons, List.map_nil,
      List.sum_cons, List.sum_nil, spin_step, dynStep_fixed hH isRigid_one] at this
    have hi : adjointBody (invBody H) = blk 1 0 (-skew ![1, 0, 0]) 1 := by
      rw [hHdef, invBody, rot_mkH, pos_mkH, Matrix.transpose_one, Matrix.one_mulVec, adjointBody_mkH, skew_neg, Matrix.mul_one]
    have hm : (lump H A A).mass = blk (1 + (1 + -(skew ![1, 0, 0] * skew ![1, 0, 0]))) (skew ![1, 0, 0]) (-skew ![1, 0, 0])
        (1 + 1) := by
      rw [lump, seenFrom, hi, hA]
      simp only
      rw [Matrix.mul_one, blk_transpose, blk_mul, ← blk_one, blk_add, Matrix.transpose_neg, skew_transpose]
      simp only [Matrix.transpose_one, Matrix.transpose_zero, neg_neg, Matrix.one_mul, Matrix.mul_one, Matrix.zero_mul, Matrix.mul_zero, zero_add, add_zero, Matrix.mul_neg]
    have hn : bodyNleffects (1 : Mat6) = fun T => blk (skew (ang T)) 0 0 (skew (ang T)) := by
      funext T
      rw [bodyNleffects]
      simp only [one_rigidMass.b12, skew_zero, smul_zero, ite_self, Matrix.zero_mul, Matrix.mul_zero, sub_zero, Matrix.mul_one]
    have hb : bodyNleffects (lump H A A).mass (tw ![0, 1, 0] 0) = blk (skew ![0, 1, 0])
        ((2:ℝ)⁻¹ • (skew ![1, 0, 0] * skew ![0, 1, 0] - skew ![0, 1, 0] * skew ![1, 0, 0])) 0 (skew ![0, 1, 0]) *
          (lump H A A).mass := by
      have h5 : (lump H A A).mass 5 5 = 2 := by
        rw [hm]; simp [blk]; norm_num
      rw [bodyNleffects, h5, if_neg (by norm_num)]
      simp only [ang_tw, hm, b12_blk]
      rw [Matrix.smul_mul, Matrix.mul_smul, ← smul_sub]
    rw [hb, hm] at this
    simp only [subFrame, hA, hn, iadjointBody, hi] at this
    simp only [← blk_one, blk_transpose, blk_mul, blk_add, ang_tw, blk_mulVec, Matrix.one_mulVec, Matrix.zero_mulVec, add_zero,
      Matrix.mul_zero, zero_add] at this
    have e := congrArg (fun M => b11 M 0 2) this
    simp only [b11_blk] at e
    have hw : skew ![0, 1, 0] = !![0, 0, 1; 0, 0, 0; -1, 0, 0] := by
      ext i j; fin_cases i <;> fin_cases j <;> simp [skew]
    have hp : skew ![1, 0, 0] = !![0, 0, 0; 0, 0, -1; 0, 1, 0] := by
      ext i j; fin_cases i <;> fin_cases j <;> simp [skew]
    simp only [hw, hp, Matrix.transpose_one, Matrix.transpose_zero, Matrix.one_mul, Matrix.mul_one, Matrix.zero_mul, add_zero,
      zero_add] at e
    simp [Matrix.mul_apply, Fin.sum_univ_three] at e
    simp only [Matrix.vecMul, dotProduct, Fin.sum_univ_three, Matrix.add_apply, Matrix.one_apply] at e
    simp at e
    norm_num at e
  · intro l hl
    simp only [Forest.append, Forest.links, List.append_nil, List.mem_cons, List.not_mem_nil, or_false, List.cons_append,
      List.nil_append] at hl
    rcases hl with rfl | rfl
    · refine ⟨le_refl _, ?_⟩
      change tw ![0, 1, 0] 0 = (1 : Mat6) *ᵥ slice (n := 6) (tw ![0, 1, 0] 0) 0 6 (le_refl 6)
      rw [Matrix.one_mulVec]
      ext i
      simp [slice]
    · exact ⟨by simp, by simp [fixedVal]⟩

end Arboris
