import Verif.Spec.Pin
import Verif.Props.LimitRun
import Verif.Props.MomentumRuns

/-!
# C128: a closed loop of a mechanism that slides stays closed
-/

namespace Arboris
open Matrix Spec Mech Build Sim

variable {n : ℕ} {σ : Type}

/-! ### the solver -/

/-- the pseudo-inverse of `J Y Jᵀ` inverts it on the velocities the mechanism can reach -/
lemma pinv_range {J : Matrix (Fin 3) (Fin n) ℝ} {Y : Matrix (Fin n) (Fin n) ℝ} (hY : SymPD Y) {P : Mat3} (hP : IsPinv (J * Y * Jᵀ) P) (x : Fin n → ℝ) :
    (J * Y * Jᵀ) *ᵥ (P *ᵥ (J *ᵥ x)) = J *ᵥ x := by
  set A : Mat3 := J * Y * Jᵀ with hA
  set E : Mat3 := 1 - A * P with hE
  have h0 : E * A = 0 := by rw [hE, Matrix.sub_mul, Matrix.one_mul, hP.apa, sub_self]
  have h1 : ∀ a : Vec3, Jᵀ *ᵥ (Eᵀ *ᵥ a) = 0 := by
    intro a
    by_contra hne
    have h2 := hY.2 _ hne
    have h3 : (Jᵀ *ᵥ (Eᵀ *ᵥ a)) ⬝ᵥ Y *ᵥ (Jᵀ *ᵥ (Eᵀ *ᵥ a)) = a ⬝ᵥ (E * A * Eᵀ) *ᵥ a := by
      rw [Matrix.mulVec_mulVec, Matrix.mulVec_mulVec, Matrix.dotProduct_mulVec, ← Matrix.mulVec_transpose, Matrix.transpose_mul, Matrix.mulVec_mulVec]
      rw [dotProduct_comm, Matrix.dotProduct_mulVec, ← Matrix.mulVec_transpose, dotProduct_comm]
      congr 1
      rw [hA]
      simp only [Matrix.transpose_mul, Matrix.transpose_transpose, hY.1, Matrix.mul_assoc]
    rw [h3, h0, Matrix.zero_mul, Matrix.zero_mulVec, dotProduct_zero] at h2
    exact lt_irrefl _ h2
  have h4 : E * J = 0 := by
    have : Jᵀ * Eᵀ = 0 := by
      refine Matrix.toLin'.injective (LinearMap.ext fun a => ?_)
      rw [Matrix.toLin'_apply, ← Matrix.mulVec_mulVec, h1]
      simp
    have := congrArg Matrix.transpose this
    rwa [Matrix.transpose_mul, Matrix.transpose_transpose, Matrix.transpose_transpose, Matrix.transpose_zero] at this
  have h5 : E *ᵥ (J *ᵥ x) = 0 := by rw [Matrix.mulVec_mulVec, h4, Matrix.zero_mulVec]
  rw [hE, Matrix.sub_mulVec, Matrix.one_mulVec, sub_eq_zero] at h5
  rw [Matrix.mulVec_mulVec, ← h5]

/-- a lone ball-and-socket whose gap can be closed is closed by the solver, even if `J Y Jᵀ` is singular -/
lemma pin_single {pinv : Mat3 → Mat3} (s : BSState n) {Y : Matrix (Fin n) (Fin n) ℝ} (mass : Matrix (Fin n) (Fin n) ℝ)
    (gvel gforce : Fin n → ℝ) {dt : ℝ} (maxiters : ℕ) (hmax : 0 < maxiters) (tol : ℝ) (hp : ∀ A, IsPinv A (pinv A)) (hY : SymPD Y)
    (hx : ∃ x, s.pos0 + bsJac s.pose0 s.pose1 s.jac0 s.jac1 *ᵥ x = 0) :
    let cs : List (Con n) := [⟨ballAndSocket n pinv, s⟩]
    ∀ v, integrateGvel mass Y gvel (addGforces cs (gsRun cs Y mass gvel gforce dt maxiters tol).st gforce) dt = .ok v →
      s.pos0 + dt • (bsJac s.pose0 s.pose1 s.jac0 s.jac1 *ᵥ v) = 0 := by
  intro cs v hv
  have hl : ∀ c ∈ cs, Lawful c.cls := by
    intro c hc
    rw [List.mem_singleton] at hc
    rw [hc]; exact C36_ballAndSocket n pinv
  have hdt : 0 < dt := by
    unfold integrateGvel at hv
    by_contra h
    rw [if_neg h] at hv; cases hv
  let A : Matrix (Dol cs) (Dol cs) ℝ := gsAdm cs Y
  let i0 : Fin cs.length := ⟨0, by simp [cs]⟩
  let J : Matrix (Fin 3) (Fin n) ℝ := bsJac s.pose0 s.pose1 s.jac0 s.jac1
  have hadm : admOf cs A i0 = J * Y * Jᵀ := by
    rw [Matrix.mul_assoc]
    ext k l
    rfl
  let vv : GS cs → Vec3 := fun g => velOf cs g.vel i0
  have hkeep : ∀ g : GS cs, (∃ f, g.st i0 = { s with force := f }) → (∃ y, vv g = J *ᵥ y) →
      (∃ f, (sweep cs A dt g).st i0 = { s with force := f }) ∧ (∃ y, vv (sweep cs A dt g) = J *ᵥ y) ∧
      s.pos0 + dt • vv (sweep cs A dt g) = 0 := by
    rintro g ⟨f, hf⟩ ⟨y, hy⟩
    have hs : sweep cs A dt g = solveOne cs A dt g i0 := rfl
    rw [hs]
    set r := (ballAndSocket n pinv).solve (g.st i0) (velOf cs g.vel i0) (admOf cs A i0) dt with hr
    let Mw : Mat3 := admOf cs A i0
    have hMw : Mw = J * Y * Jᵀ := hadm
    have h1 : (solveOne cs A dt g i0).st i0 = r.1 := by simp [solveOne, hr]; rfl
    have h2 : vv (solveOne cs A dt g i0) = vv g + Mw *ᵥ r.2 := rfl
    refine ⟨?_, ?_, ?_⟩
    · rw [h1, hr, hf]; exact ⟨_, rfl⟩
    · rw [h2, hMw, hy]
      refine ⟨y + (Y * Jᵀ) *ᵥ r.2, ?_⟩
      have e : ∀ z : Vec3, (J * Y * Jᵀ) *ᵥ z = J *ᵥ ((Y * Jᵀ) *ᵥ z) := fun z => by rw [Matrix.mulVec_mulVec, Matrix.mul_assoc]
      rw [Matrix.mulVec_add]
      exact congrArg _ (e r.2)
    · rw [h2]
      obtain ⟨x, hx⟩ := hx
      have e2 : r.2 = -(pinv Mw *ᵥ (vv g + dt⁻¹ • s.pos0)) := by rw [hr, hf]; rfl
      have e3 : s.pos0 = -(J *ᵥ x) := eq_neg_of_add_eq_zero_left hx
      have e4 : vv g + dt⁻¹ • s.pos0 = J *ᵥ (y - dt⁻¹ • x) := by
        rw [hy, e3, Matrix.mulVec_sub, Matrix.mulVec_smul, smul_neg, sub_eq_add_neg]
      have e5 : Mw *ᵥ r.2 = -(vv g + dt⁻¹ • s.pos0) := by
        rw [e2, Matrix.mulVec_neg, e4, hMw, pinv_range hY (hp _)]
      have e6 : vv g + Mw *ᵥ r.2 = -(dt⁻¹ • s.pos0) := by rw [e5]; abel
      rw [e6, smul_neg, smul_smul, mul_inv_cancel₀ hdt.ne', one_smul, add_neg_cancel]
  have hiter : ∀ m, ∀ g : GS cs, (∃ f, g.st i0 = { s with force := f }) → (∃ y, vv g = J *ᵥ y) →
      (∃ f, ((sweep cs A dt)^[m] g).st i0 = { s with force := f }) ∧ (∃ y, vv ((sweep cs A dt)^[m] g) = J *ᵥ y) ∧
      (0 < m → s.pos0 + dt • vv ((sweep cs A dt)^[m] g) = 0) := by
    intro m
    induction m with
    | zero => intro g hg hy; exact ⟨hg, hy, fun h => absurd h (lt_irrefl _)⟩
    | succ m ih =>
      intro g hg hy
      rw [Function.iterate_succ_apply']
      obtain ⟨k1, k2, -⟩ := ih g hg hy
      obtain ⟨k3, k4, k5⟩ := hkeep _ k1 k2
      exact ⟨k3, k4, fun _ => k5⟩
  obtain ⟨m, _, hm, hrun⟩ := gsLoop_eq_sweeps cs A dt tol maxiters true (gsInit cs Y mass gvel gforce dt)
  have h0 := hiter m (gsInit cs Y mass gvel gforce dt) ⟨s.force, rfl⟩ ⟨_, rfl⟩
  have hfin := C36_final hl Y mass gvel gforce dt maxiters tol i0 v hv
  have hgs : gsRun cs Y mass gvel gforce dt maxiters tol = (sweep cs A dt)^[m] (gsInit cs Y mass gvel gforce dt) := hrun
  rw [hgs] at hfin
  change vv _ = _ at hfin
  have h3 := h0.2.2 (hm hmax)
  rw [hfin] at h3
  obtain ⟨f, hf⟩ := h0.1
  rw [hf] at h3
  exact h3

/-! ### the gap -/

lemma frame_rot {H F : Mat4} (hH : IsRigid H) (hF : IsRigid F) : rot (H * F) = rot H * rot F := by
  rw [hH.eq_mkH, hF.eq_mkH, mkH_mul, rot_mkH, rot_mkH, rot_mkH]

lemma frame_pos {H F : Mat4} (hH : IsRigid H) (hF : IsRigid F) : pos (H * F) = rot H *ᵥ pos F + pos H := by
  rw [hH.eq_mkH, hF.eq_mkH, mkH_mul, pos_mkH, pos_mkH, pos_mkH, rot_mkH]

lemma rot_undo {H : Mat4} (hH : IsRigid H) (u : Vec3) : rot H *ᵥ ((rot H)ᵀ *ᵥ u) = u := by
  rw [Matrix.mulVec_mulVec, hH.rotation.1, Matrix.one_mulVec]

lemma frame_jac {d : BodyDyn n} (hd : Still d) (F : Mat4) (x : Fin n → ℝ) : (iadjointBody F * d.jac) *ᵥ x = tw 0 ((rot F)ᵀ *ᵥ lin (d.jac *ᵥ x)) := by
  rw [← Matrix.mulVec_mulVec, tw_of_ang (hd.jac x), iadj_zero, lin_tw]

lemma gap_pos {P0 P1 : Mat4} (h0 : IsRigid P0) (h1 : IsRigid P1) : rot P0 *ᵥ pos (relFrame P0 P1) = pos P1 - pos P0 := by
  unfold relFrame invBody
  rw [h1.eq_mkH, mkH_mul, pos_mkH, Matrix.mulVec_add, Matrix.mulVec_neg, rot_undo h0, rot_undo h0, pos_mkH]
  abel

lemma gap_jac {d0 d1 : BodyDyn n} (h0 : Still d0) (h1 : Still d1) {F0 F1 : Mat4} (hF0 : IsRigid F0) (hF1 : IsRigid F1) (x : Fin n → ℝ) :
    rot (d0.pose * F0) *ᵥ (bsJac (d0.pose * F0) (d1.pose * F1) (iadjointBody F0 * d0.jac) (iadjointBody F1 * d1.jac) *ᵥ x) =
      rot d1.pose *ᵥ lin (d1.jac *ᵥ x) - rot d0.pose *ᵥ lin (d0.jac *ᵥ x) := by
  have r0 := h0.pose.mul hF0
  rw [bsJac_mulVec, frame_jac h1, frame_jac h0, adj_zero, lin_tw, lin_tw]
  have e : rot (relFrame (d0.pose * F0) (d1.pose * F1)) = (rot (d0.pose * F0))ᵀ * (rot d1.pose * rot F1) := by
    unfold relFrame invBody
    rw [(h1.pose.mul hF1).eq_mkH, mkH_mul, rot_mkH, frame_rot h1.pose hF1]
  rw [e, Matrix.mulVec_sub, ← Matrix.mulVec_mulVec, rot_undo r0, ← Matrix.mulVec_mulVec, rot_undo hF1, frame_rot h0.pose hF0, ← Matrix.mulVec_mulVec, rot_undo hF0]

/-- the gap after the mechanism has slid -/
lemma gap_slid {dt : ℝ} {v : Fin n → ℝ} {d0 d1 d0' d1' : BodyDyn n} (h0 : Still d0) (h1 : Still d1) (h0' : Still d0') (h1' : Still d1') (s0 : Slid dt v d0 d0') (s1 : Slid dt v d1 d1')
    {F0 F1 : Mat4} (hF0 : IsRigid F0) (hF1 : IsRigid F1) :
    pos (d1'.pose * F1) - pos (d0'.pose * F0) = rot (d0.pose * F0) *ᵥ (pos (relFrame (d0.pose * F0) (d1.pose * F1)) +
      dt • (bsJac (d0.pose * F0) (d1.pose * F1) (iadjointBody F0 * d0.jac) (iadjointBody F1 * d1.jac) *ᵥ v)) := by
  rw [Matrix.mulVec_add, Matrix.mulVec_smul, gap_jac h0 h1 hF0 hF1, gap_pos (h0.pose.mul hF0) (h1.pose.mul hF1), frame_pos h0'.pose hF0, frame_pos h1'.pose hF1, frame_pos h0.pose hF0,
    frame_pos h1.pose hF1, s0.rot, s1.rot, s0.pos, s1.pos, smul_sub]
  abel

lemma slid_at {dt : ℝ} {v : Fin n → ℝ} {w w' : MWorld n σ} (h : ForestRel (Moved dt v) w.tree w'.tree) (hl : ∀ l ∈ w.tree.links, Sliding l ∧ RigidLink l)
    (hd : w.dyn = worldDynamic n (linksOf w)) (b : Option ℕ) :
    ∃ d' : BodyDyn n, Still (bodyAt w b) ∧ Still d' ∧ Slid dt v (bodyAt w b) d' ∧ bodyPose w b = (bodyAt w b).pose ∧ bodyPose w' b = d'.pose := by
  have hslid := dyn_slid h hl (still_ground n) (still_ground n) (slid_ground dt v)
  change List.Forall₂ _ (worldDynamic n (linksOf w)) (worldDynamic n (linksOf w')) at hslid
  cases b with
  | none => exact ⟨groundDyn n, still_ground n, still_ground n, slid_ground dt v, rfl, rfl⟩
  | some i =>
    simp only [bodyAt, bodyPose, hd]
    cases hi : (worldDynamic n (linksOf w'))[i]? with
    | none =>
      have : (worldDynamic n (linksOf w))[i]? = none := by
        rw [List.getElem?_eq_none_iff] at hi ⊢
        rw [hslid.length_eq]
        exact hi
      rw [this]
      exact ⟨groundDyn n, still_ground n, still_ground n, slid_ground dt v, rfl, rfl⟩
    | some y =>
      obtain ⟨x, hx, hxy⟩ := forall₂_get? hslid hi
      rw [hx]
      exact ⟨y.2, hxy.2.1, hxy.2.2.1, hxy.2.2.2, rfl, rfl⟩

/-- the gap after a move, from what the constraint computes -/
lemma gap_moved {dt : ℝ} {v : Fin n → ℝ} {w w' : MWorld n σ} (h : ForestRel (Moved dt v) w.tree w'.tree) (hl : ∀ l ∈ w.tree.links, Sliding l ∧ RigidLink l)
    (hd : w.dyn = worldDynamic n (linksOf w)) {f0 f1 : PinFrame} (hF0 : IsRigid f0.bpose) (hF1 : IsRigid f1.bpose) :
    center w' f1 - center w' f0 = rot (framePose w f0) *ᵥ (pos (relFrame (framePose w f0) (framePose w f1)) +
      dt • (bsJac (framePose w f0) (framePose w f1) (frameJac w f0) (frameJac w f1) *ᵥ v)) ∧ IsRigid (framePose w f0) := by
  obtain ⟨d0', a1, a2, a3, -, a4⟩ := slid_at h hl hd f0.body
  obtain ⟨d1', b1, b2, b3, -, b4⟩ := slid_at h hl hd f1.body
  refine ⟨?_, a1.pose.mul hF0⟩
  unfold center
  rw [a4, b4]
  exact gap_slid a1 b1 a2 b2 a3 b3 hF0 hF1

lemma closed_iff {dt : ℝ} {v : Fin n → ℝ} {w w' : MWorld n σ} (h : ForestRel (Moved dt v) w.tree w'.tree) (hl : ∀ l ∈ w.tree.links, Sliding l ∧ RigidLink l)
    (hd : w.dyn = worldDynamic n (linksOf w)) {f0 f1 : PinFrame} (hF0 : IsRigid f0.bpose) (hF1 : IsRigid f1.bpose) :
    Closed f0 f1 w' ↔ pos (relFrame (framePose w f0) (framePose w f1)) + dt • (bsJac (framePose w f0) (framePose w f1) (frameJac w f0) (frameJac w f1) *ᵥ v) = 0 := by
  obtain ⟨h1, h2⟩ := gap_moved h hl hd hF0 hF1
  unfold Closed
  rw [eq_comm, ← sub_eq_zero, h1]
  constructor
  · intro h3
    have := congrArg (fun u => (rot (framePose w f0))ᵀ *ᵥ u) h3
    simpa only [Matrix.mulVec_mulVec, h2.rotation.2.1, Matrix.one_mulVec, Matrix.mulVec_zero] using this
  · intro h3
    rw [h3, Matrix.mulVec_zero]

/-! ### the positions of a mechanism -/

lemma Spec.Moves.symm {l l' : MLink} (h : Moves l l') : Moves l' l := by
  refine ⟨h.bpose0.symm, h.bpose1.symm, ?_⟩
  rcases h.joint with h | ⟨k, q, dq, q', dq', h1, h2⟩
  · exact .inl h.symm
  · exact .inr ⟨k, q', dq', q, dq, h2, h1⟩

lemma Spec.Moves.trans {a b c : MLink} (h : Moves a b) (h' : Moves b c) : Moves a c := by
  refine ⟨h'.bpose0.trans h.bpose0, h'.bpose1.trans h.bpose1, ?_⟩
  rcases h.joint with h1 | ⟨k, q, dq, q', dq', h1, h2⟩
  · rw [← h1]
    exact h'.joint
  · rcases h'.joint with h3 | ⟨k2, q2, dq2, q2', dq2', h3, h4⟩
    · exact .inr ⟨k, q, dq, q', dq', h1, h3.trans h2⟩
    · rw [h2] at h3
      cases h3
      exact .inr ⟨k, q, dq, q2', dq2', h1, h4⟩

lemma Spec.Moved.moves {dt : ℝ} {v : Fin n → ℝ} {l l' : MLink} (hs : Sliding l) (h : Moved dt v l l') : Moves l l' := by
  refine ⟨h.bpose0, h.bpose1, ?_⟩
  have hj := h.joint
  unfold Sliding at hs
  generalize l.att = A at hj hs
  generalize l'.att = B at hj
  cases hj with
  | lin k q dq hb => exact .inr ⟨k, _, _, _, _, rfl, rfl⟩
  | free => exact hs.elim
  | fixed => exact .inl rfl

lemma Spec.ForestRel.rf {R : MLink → MLink → Prop} (h : ∀ l, R l l) (F : Forest MLink Body) : ForestRel R F F := by
  induction F with
  | nil => exact .nil
  | cons l b ch sib ih1 ih2 => exact .cons (h l) ih1 ih2

lemma Spec.ForestRel.sy {R S : MLink → MLink → Prop} {F G : Forest MLink Body} (hR : ∀ l l', R l l' → S l' l) (h : ForestRel R F G) : ForestRel S G F := by
  induction h with
  | nil => exact .nil
  | cons h1 _ _ i1 i2 => exact .cons (hR _ _ h1) i1 i2

lemma Spec.ForestRel.tr {R S T : MLink → MLink → Prop} {F G : Forest MLink Body} (hR : ∀ a b c, R a b → S b c → T a c) (h : ForestRel R F G) :
    ∀ {K : Forest MLink Body}, ForestRel S G K → ForestRel T F K := by
  induction h with
  | nil => intro K h; cases h; exact .nil
  | cons h1 _ _ i1 i2 =>
    intro K h
    cases h with
    | cons g1 g2 g3 => exact .cons (hR _ _ _ h1 g1) (i1 g2) (i2 g3)

lemma Spec.ForestRel.on {R S : MLink → MLink → Prop} {F G : Forest MLink Body} (h : ForestRel R F G) (hR : ∀ l ∈ F.links, ∀ l', R l l' → S l l') : ForestRel S F G := by
  induction h with
  | nil => exact .nil
  | cons h1 _ _ i1 i2 =>
    exact .cons (hR _ (by simp [Forest.links]) _ h1) (i1 fun l hl => hR l (by simp [Forest.links, hl])) (i2 fun l hl => hR l (by simp [Forest.links, hl]))

/-- where a mechanism is depends on the positions of its joints only -/
lemma poses_eq {F G : Forest MLink Body} (h : ForestRel (fun l l' : MLink => relPose l'.link = relPose l.link) F G) : ∀ {d d' : BodyDyn n}, d'.pose = d.pose →
    (updateDynamic d' (G.map MLink.link id)).map (fun x => x.2.pose) = (updateDynamic d (F.map MLink.link id)).map fun x => x.2.pose := by
  induction h with
  | nil => intros; rfl
  | cons h1 _ _ i1 i2 =>
    intro d d' hd
    simp only [Forest.map, updateDynamic, List.map_cons, List.map_append]
    have e : ∀ L L' : Link, relPose L' = relPose L → (dynStep d' L').pose = (dynStep d L).pose := by
      intro L L' hL
      rw [dynStep_pose, dynStep_pose, hL, hd]
    rw [i1 (e _ _ h1), i2 hd, e _ _ h1]

lemma center_eq {w w' : MWorld n σ} (h : ForestRel (fun l l' : MLink => relPose l'.link = relPose l.link) w.tree w'.tree) (f : PinFrame) : center w' f = center w f := by
  have := poses_eq (n := n) h (d := groundDyn n) (d' := groundDyn n) rfl
  change (worldDynamic n (linksOf w')).map _ = (worldDynamic n (linksOf w)).map _ at this
  unfold center
  congr 2
  cases f.body with
  | none => rfl
  | some i =>
    simp only [bodyPose, ← List.getElem?_map]
    rw [this]

/-- velocities that take the joints to given positions in a unit of time -/
lemma target_vel {ls ls1 : List MLink} (h : List.Forall₂ Moves ls ls1) : ∀ {a : ℕ}, Numbered a ls → ∃ v : ℕ → ℝ, List.Forall₂ (fun l l1 : MLink =>
    ∀ (k : LinKind) (q dq q' dq' : Fin k.ndof → ℝ), l.att = .lin k q dq → l1.att = .lin k q' dq' → ∀ i : Fin k.ndof, q i + v (l.start + i.val) = q' i) ls ls1 := by
  induction h with
  | nil => intro a _; exact ⟨0, .nil⟩
  | @cons l l1 ls ls1 h1 hs ih =>
    intro a ha
    obtain ⟨v, hv⟩ := ih ha.2
    have hst : ∀ x ∈ ls, a + l.att.ndof ≤ x.start := by
      intro x hx
      obtain ⟨i, hi, rfl⟩ := List.getElem_of_mem hx
      exact numbered_le ha.2 hi
    obtain ⟨u, hu⟩ : ∃ u : ℕ → ℝ, ∀ (k : LinKind) (q dq q' dq' : Fin k.ndof → ℝ), l.att = .lin k q dq → l1.att = .lin k q' dq' → ∀ i : Fin k.ndof, q i + u i.val = q' i := by
      by_cases hk : ∃ (k : LinKind) (q dq q' dq' : Fin k.ndof → ℝ), l.att = .lin k q dq ∧ l1.att = .lin k q' dq'
      · obtain ⟨k, q, dq, q', dq', e1, e2⟩ := hk
        refine ⟨fun j => if hj : j < k.ndof then q' ⟨j, hj⟩ - q ⟨j, hj⟩ else 0, ?_⟩
        intro k2 q2 dq2 q2' dq2' g1 g2 i
        rw [e1] at g1
        cases g1
        rw [e2] at g2
        cases g2
        simp [i.isLt]
      · exact ⟨0, fun k q dq q' dq' e1 e2 => absurd ⟨k, q, dq, q', dq', e1, e2⟩ hk⟩
    refine ⟨fun d => if d < a + l.att.ndof then u (d - a) else v d, .cons ?_ ?_⟩
    · intro k q dq q' dq' e1 e2 i
      have hnd : l.att.ndof = k.ndof := by rw [e1]; rfl
      have := i.isLt
      beta_reduce
      rw [if_pos (by rw [ha.1, hnd]; omega), ha.1, Nat.add_sub_cancel_left]
      exact hu k q dq q' dq' e1 e2 i
    · clear ih ha hs
      induction hv with
      | nil => exact .nil
      | cons g1 _ ih =>
        refine .cons ?_ (ih fun x hx => hst x (by simp [hx]))
        intro k q dq q' dq' e1 e2 i
        beta_reduce
        rw [if_neg (by have := hst _ (List.mem_cons_self ..); omega)]
        exact g1 k q dq q' dq' e1 e2 i

lemma forall₂_append' {α : Type} {R : α → α → Prop} : ∀ {a a' b b' : List α}, a.length = a'.length → List.Forall₂ R (a ++ b) (a' ++ b') → List.Forall₂ R a a' ∧ List.Forall₂ R b b'
  | [], [], _, _, _, h => ⟨.nil, h⟩
  | x :: a, y :: a', b, b', hl, h => by
    simp only [List.cons_append] at h
    cases h with
    | cons h1 h2 =>
      obtain ⟨k1, k2⟩ := forall₂_append' (by simpa using hl) h2
      exact ⟨.cons h1 k1, k2⟩
  | [], y :: a', _, _, hl, _ => by simp at hl
  | x :: a, [], _, _, hl, _ => by simp at hl

lemma forestRel_and {R S : MLink → MLink → Prop} {F G : Forest MLink Body} (h : ForestRel R F G) : List.Forall₂ S F.links G.links → ForestRel (fun l l' => R l l' ∧ S l l') F G := by
  induction h with
  | nil => intro _; exact .nil
  | cons h1 hc hs i1 i2 =>
    intro h
    simp only [Forest.links, List.cons_append] at h
    cases h with
    | cons g1 g2 =>
      have hl := hc.links.1.length_eq
      obtain ⟨k1, k2⟩ := forall₂_append' hl g2
      exact .cons ⟨h1, g1⟩ (i1 k1) (i2 k2)

lemma forestRel_map {T : MLink → MLink → Prop} {f : MLink → MLink} {F G : Forest MLink Body} (h : ForestRel (fun l l' => T (f l) l') F G) : ForestRel T (F.map f id) G := by
  induction h with
  | nil => exact .nil
  | cons h1 _ _ i1 i2 => exact .cons h1 i1 i2

lemma relPose_of {l l' : MLink} (h0 : l'.bpose0 = l.bpose0) (h1 : l'.bpose1 = l.bpose1) (h2 : l'.att.val.pose = l.att.val.pose) : relPose l'.link = relPose l.link := by
  unfold relPose MLink.link
  simp only [h0, h1, h2]

/-- a mechanism that can be closed has velocities that close it -/
lemma closable_vel {w : MWorld n σ} (hnum : Numbered 0 w.tree.links) {ν : Fin n → ℝ} (hvel : ∀ l ∈ w.tree.links, HasVel ν l) (hl : ∀ l ∈ w.tree.links, Sliding l ∧ RigidLink l)
    (hd : w.dyn = worldDynamic n (linksOf w)) {f0 f1 : PinFrame} (hF0 : IsRigid f0.bpose) (hF1 : IsRigid f1.bpose) (hc : Closable f0 f1 w) :
    ∃ x, pos (relFrame (framePose w f0) (framePose w f1)) + bsJac (framePose w f0) (framePose w f1) (frameJac w f0) (frameJac w f1) *ᵥ x = 0 := by
  obtain ⟨w1, hm, hcl⟩ := hc
  obtain ⟨v, hv⟩ := target_vel hm.links.1 hnum
  let x : Fin n → ℝ := fun d => v d.val
  let w2 : MWorld n σ := { w with tree := w.tree.map (advance x 1) id }
  have hmv : ForestRel (Moved 1 x) w.tree w2.tree := ForestRel.of_map _ _ fun l hl => (moved_advance x 1 (hvel l hl)).1
  have hp : ForestRel (fun l l' : MLink => relPose l'.link = relPose l.link) w2.tree w1.tree := by
    refine forestRel_map ((forestRel_and hm hv).on ?_)
    rintro l hl l' ⟨h1, h2⟩
    refine relPose_of h1.bpose0 h1.bpose1 ?_
    have hb := ((hasVel_iff _ _).mp (hvel l hl)).1
    have key : ∀ (k : LinKind) (q dq q' dq' : Fin k.ndof → ℝ), l.att = .lin k q dq → l'.att = .lin k q' dq' → l'.att.val.pose = (advance x 1 l).att.val.pose := by
      intro k q dq q' dq' e1 e2
      have hnd : l.att.ndof = k.ndof := by rw [e1]; rfl
      have e3 : (advance x 1 l).att = .lin k q' (fun j => part x l.start j.val) := by
        simp only [advance, e1, JAttr.integrate]
        congr 1
        funext i
        have h3 := h2 k q dq q' dq' e1 e2 i
        have := i.isLt
        simp only [linIntegrate, Pi.add_apply, Pi.smul_apply, smul_eq_mul, one_mul]
        rw [← h3, part, dif_pos (by omega)]
      rw [e2, e3]
      rfl
    rcases h1.joint with h3 | ⟨k, q, dq, q', dq', e1, e2⟩
    · cases hatt : l.att with
      | lin k q dq => exact key k q dq q dq hatt (h3.trans hatt)
      | fixed =>
        have : (advance x 1 l).att = .fixed := by simp only [advance, hatt, JAttr.integrate]
        rw [h3, this, hatt]
      | free H T =>
        have := (‹∀ l ∈ w.tree.links, Sliding l ∧ RigidLink l› l hl).1
        unfold Sliding at this
        rw [hatt] at this
        exact this.elim
    · exact key k q dq q' dq' e1 e2
  have hcl2 : Closed f0 f1 w2 := by
    unfold Closed at hcl ⊢
    rw [← center_eq hp, ← center_eq hp]
    exact hcl
  have := (closed_iff hmv hl hd hF0 hF1).mp hcl2
  rw [one_smul] at this
  exact ⟨x, this⟩

/-! ### the run -/

section
variable {ctrl : MWorld n σ → ℝ → Except PyErr (σ × List (CtrlVal n))} {pinv : Mat3 → Mat3} {f0 f1 : PinFrame}

/-- what holds at the beginning of each step -/
structure PinNow (pinv : Mat3 → Mat3) (f0 f1 : PinFrame) (w : MWorld n σ) : Prop where
  pinned : Pinned pinv f0 f1 w
  num : Numbered 0 w.tree.links
  vel : ∀ l ∈ w.tree.links, HasVel w.gvel l

lemma pinLook_self (w : MWorld n σ) (s : (ballAndSocket n pinv).St) :
    pinLook pinv f0 f1 w ⟨ballAndSocket n pinv, s⟩ =
      ⟨ballAndSocket n pinv, { (s : BSState n) with pose0 := framePose w f0, pose1 := framePose w f1, jac0 := frameJac w f0, jac1 := frameJac w f1 }⟩ := by
  unfold pinLook
  rw [dif_pos rfl]
  rfl

lemma pin_active {s : BSState n} (hen : s.enabled = true) (dt : ℝ) :
    activeCons dt [(⟨ballAndSocket n pinv, s⟩ : Con n)] = [⟨ballAndSocket n pinv, { s with pos0 := pos (relFrame s.pose0 s.pose1) }⟩] := by
  have e : (ballAndSocket n pinv).enabled s = true := hen
  have e2 : ∀ s, (ballAndSocket n pinv).active s = true := fun _ => rfl
  rw [activeCons_cons]
  simp only [e, e2, if_true]
  rfl

lemma pin_keeps {s : BSState n} (hen : s.enabled = true) {mass : Matrix (Fin n) (Fin n) ℝ} {gvel : Fin n → ℝ} {w : CtrlOut n} {dt : ℝ} (hdt : 0 < dt) {g : Fin n → ℝ} {cs : List (Con n)}
    (hu : updateConstraints mass gvel w [⟨ballAndSocket n pinv, s⟩] dt = .ok (g, cs)) :
    ∃ s' : BSState n, writeBack dt [(⟨ballAndSocket n pinv, s⟩ : Con n)] cs = [⟨ballAndSocket n pinv, s'⟩] ∧ s'.enabled = true := by
  have e : (ballAndSocket n pinv).enabled s = true := hen
  have e2 : ∀ s, (ballAndSocket n pinv).active s = true := fun _ => rfl
  rw [updateConstraints_eq hdt (pin_active hen dt)] at hu
  set s1 : BSState n := { s with pos0 := pos (relFrame s.pose0 s.pose1) } with hs1
  obtain ⟨st, hst, -, hrun⟩ := single_run (c := (⟨ballAndSocket n pinv, s1⟩ : Con n)) (C36_ballAndSocket n pinv) (fun st : BSState n => st.enabled = true) hen
    (fun st vel A dt h => h) w.admittance mass gvel w.gforce dt (maxiters := 1000) (by norm_num) 1e-4
  have hc : cs = (gsRun [(⟨ballAndSocket n pinv, s1⟩ : Con n)] w.admittance mass gvel w.gforce dt 1000 1e-4).cons := (Prod.mk.inj (Except.ok.inj hu)).2.symm
  have hcons : ∀ (gs : GS [(⟨ballAndSocket n pinv, s1⟩ : Con n)]) (s' : BSState n), gs.st ⟨0, by simp⟩ = s' → gs.cons = [⟨ballAndSocket n pinv, s'⟩] := by
    intro gs s' h
    rw [← h]
    simp [GS.cons, List.finRange_succ]
  rw [hcons _ _ hrun] at hc
  rw [hc]
  simp only [writeBack, e, e2, if_true]
  exact ⟨_, rfl, hst⟩

/-- one step -/
lemma pin_step (hp : ∀ A, IsPinv A (pinv A)) {dt : ℝ} {w a b c w' : MWorld n σ} (hw : PinNow pinv f0 f1 w)
    (hd : dynamic w = .ok a) (hc : controllers (pinPlug ctrl pinv f0 f1) dt a = .ok b) (hs : constraints (pinPlug ctrl pinv f0 f1) dt b = .ok c) (hi : Mech.integrate dt c = .ok w') :
    PinNow pinv f0 f1 w' ∧ c.tree = w.tree ∧ ForestRel Moves w.tree w'.tree ∧ (SymPD c.ctrl.admittance → Closable f0 f1 w → Closed f0 f1 w') := by
  have hb : b.tree = w.tree ∧ b.cons = w.cons ∧ b.gvel = w.gvel ∧ b.dyn = worldDynamic n (linksOf w) := by
    unfold dynamic at hd
    split at hd
    · cases hd
    rename_i bs hbs
    obtain rfl := Except.ok.inj hd
    unfold controllers at hc
    split at hc
    · cases hc
    split at hc
    · cases hc
    obtain rfl := Except.ok.inj hc
    refine ⟨rfl, rfl, rfl, ?_⟩
    have hval : ∀ l ∈ (w.tree.map MLink.link id).links, ValidLink l := by
      intro l hl
      rw [links_map] at hl
      obtain ⟨l0, hl0, rfl⟩ := List.mem_map.mp hl
      exact (hw.pinned.links l0 hl0).2.valid
    exact (Except.ok.inj ((C20_no_assertion n _ hval).2.symm.trans hbs)).symm
  obtain ⟨hbt, hbc, hbg, hbd⟩ := hb
  obtain ⟨s, hs1, hs2⟩ := hw.pinned.con
  unfold constraints at hs
  have hlook : b.cons.map ((pinPlug ctrl pinv f0 f1).look b) =
      [⟨ballAndSocket n pinv, { s with pose0 := framePose b f0, pose1 := framePose b f1, jac0 := frameJac b f0, jac1 := frameJac b f1 }⟩] := by
    rw [hbc, hs1]
    exact congrArg (fun c => [c]) (pinLook_self b s)
  rw [hlook] at hs
  set s1 : BSState n := { s with pose0 := framePose b f0, pose1 := framePose b f1, jac0 := frameJac b f0, jac1 := frameJac b f1 } with hs1def
  simp only at hs
  split at hs
  · cases hs
  rename_i g solved hu
  obtain rfl := Except.ok.inj hs
  unfold Mech.integrate at hi
  split at hi
  · cases hi
  rename_i v hv
  obtain rfl := Except.ok.inj hi
  have hdt : 0 < dt := by
    unfold integrateGvel at hv
    by_contra h
    rw [if_neg h] at hv
    cases hv
  have hbl : ∀ l ∈ b.tree.links, Sliding l ∧ RigidLink l := by rw [hbt]; exact hw.pinned.links
  have hbv : ∀ l ∈ b.tree.links, HasVel w.gvel l := by rw [hbt]; exact hw.vel
  have hbd' : b.dyn = worldDynamic n (linksOf b) := by
    rw [hbd]
    unfold linksOf
    rw [hbt]
  have hmv : ForestRel (Moved dt v) b.tree (b.tree.map (advance v dt) id) := ForestRel.of_map _ _ fun l hl => (moved_advance v dt (hbv l hl)).1
  obtain ⟨s', k1, k2⟩ := pin_keeps (s := s1) hs2 hdt hu
  refine ⟨⟨⟨?_, hw.pinned.frame0, hw.pinned.frame1, s', k1, k2⟩, ?_, ?_⟩, hbt, ?_, ?_⟩
  · intro l hl
    obtain ⟨l0, hl0, hm0⟩ := hmv.mem hl
    exact ⟨(slid_of (hbl l0 hl0).1 hm0).2, rigid_moved (hbl l0 hl0).1 (hbl l0 hl0).2 hm0⟩
  · exact numbered_slid hmv.links.1 (by rw [hbt]; exact hw.num)
  · intro l hl
    change l ∈ (b.tree.map (advance v dt) id).links at hl
    rw [links_map] at hl
    obtain ⟨l', hl', rfl⟩ := List.mem_map.mp hl
    exact (moved_advance _ dt (hbv l' hl')).2
  · rw [← hbt]
    exact hmv.on fun l hl l' h => h.moves (hbl l hl).1
  · intro hY hcl
    have hclb : Closable f0 f1 b := by
      obtain ⟨w1, g1, g2⟩ := hcl
      exact ⟨w1, by rw [hbt]; exact g1, g2⟩
    have hx := closable_vel (by rw [hbt]; exact hw.num) hbv hbl hbd' hw.pinned.frame0 hw.pinned.frame1 hclb
    rw [updateConstraints_eq hdt (pin_active (s := s1) hs2 dt)] at hu
    obtain ⟨rfl, -⟩ := Prod.mk.inj (Except.ok.inj hu)
    have := pin_single (pinv := pinv) { s1 with pos0 := pos (relFrame s1.pose0 s1.pose1) } b.mass b.gvel b.ctrl.gforce (dt := dt) 1000 (by norm_num) 1e-4 hp hY hx v hv
    refine (closed_iff (w := b) (dt := dt) (v := v) ?_ hbl hbd' hw.pinned.frame0 hw.pinned.frame1).mpr this
    exact hmv

lemma closable_moves {w w' : MWorld n σ} (h : ForestRel Moves w.tree w'.tree) (hc : Closable f0 f1 w) : Closable f0 f1 w' := by
  obtain ⟨w1, g1, g2⟩ := hc
  exact ⟨w1, (h.sy (S := Moves) fun _ _ h => h.symm).tr (T := Moves) (fun _ _ _ h h' => h.trans h') g1, g2⟩

lemma closed_tree {w w' : MWorld n σ} (h : w'.tree = w.tree) : Closed f0 f1 w' ↔ Closed f0 f1 w := by
  unfold Closed center bodyPose linksOf
  rw [h]

lemma pin_steps (hp : ∀ A, IsPinv A (pinv A)) {tl : List ℝ} {w w' : MWorld n σ} {seen : List (ℝ × ℝ × MWorld n σ)}
    (h : Steps (engine (pinPlug ctrl pinv f0 f1)) tl w seen w') (hw : PinNow pinv f0 f1 w) :
    (∃ c, (states seen w')[0]? = some c ∧ c.tree = w.tree) ∧ (∀ c ∈ states seen w', ForestRel Moves w.tree c.tree) ∧
    ∀ j c c', (states seen w')[j]? = some c → (states seen w')[j + 1]? = some c' → SymPD c.ctrl.admittance → Closable f0 f1 w → Closed f0 f1 c' := by
  have hrefl : ∀ F : Forest MLink Body, ForestRel Moves F F := fun F => Spec.ForestRel.rf (fun l => ⟨rfl, rfl, .inl rfl⟩) F
  induction h with
  | done t w =>
    refine ⟨⟨w, rfl, rfl⟩, ?_, fun j c c' _ h2 => ?_⟩
    · intro c hc
      simp only [states, List.map_nil, List.nil_append, List.mem_singleton] at hc
      rw [hc]
      exact hrefl _
    · simp [states] at h2
  | step hdyn hctrl hcons hint _ ih =>
    rename_i t t' ts w a b c w1 w2 obs hrest
    obtain ⟨k1, k2, k3, k4⟩ := pin_step hp hw hdyn hctrl hcons hint
    obtain ⟨⟨c1, i1, i2⟩, i3, i4⟩ := ih k1
    have e : states ((t, t' - t, c) :: obs) w2 = c :: states obs w2 := rfl
    refine ⟨⟨c, rfl, k2⟩, ?_, fun j d d' h1 h2 hY hcl => ?_⟩
    · intro d hd
      rw [e] at hd
      rcases List.mem_cons.mp hd with rfl | hd
      · rw [k2]
        exact hrefl _
      · exact k3.tr (T := Moves) (fun _ _ _ h h' => h.trans h') (i3 d hd)
    · rw [e] at h1 h2
      cases j with
      | zero =>
        obtain rfl : c = d := by simpa using h1
        rw [List.getElem?_cons_succ, i1] at h2
        obtain rfl := Option.some.inj h2
        rw [closed_tree i2]
        exact k4 hY hcl
      | succ j => exact i4 j d d' (by simpa using h1) (by simpa using h2) hY (closable_moves k3 hcl)

lemma started_moves {w w0 : MWorld n σ} (h : Started w w0) : ForestRel Moves w.tree w0.tree :=
  h.tree.on fun l _ l' e => by rw [e]; exact ⟨rfl, rfl, .inl rfl⟩

lemma pin_started {w w0 : MWorld n σ} (hw : Pinned pinv f0 f1 w) (h : Started w w0) : PinNow pinv f0 f1 w0 := by
  refine ⟨⟨?_, hw.frame0, hw.frame1, ?_⟩, h.numbered, h.vel⟩
  · intro l hl
    obtain ⟨l0, hl0, he⟩ := h.tree.mem hl
    obtain ⟨k1, k2⟩ := hw.links l0 hl0
    rw [he]
    exact ⟨k1, ⟨k2.bpose0, k2.bpose1, k2.free⟩⟩
  · rw [h.cons]
    exact hw.con

/-- C128.  A mechanism of joints that slide, with any controllers, and one enabled ball-and-socket constraint between two of its frames.  In every simulation that returns normally: let
`c` and `c'` be two successive states, shown to the observers, or the last one.  If the mechanism has a position where the ball is in the socket, and the admittance of `c` is symmetric
positive definite, in `c'` the ball is in the socket, exactly.  (The admittance of the constraint itself may be singular, as it is in a loop.) -/
theorem C128_closes (hp : ∀ A, IsPinv A (pinv A)) {w w' : MWorld n σ} {tl : List ℝ} {k : ℕ} {tr : List (Ev (MWorld n σ))} {t' : ℝ} (hn : ndof w.tree = n)
    (hw : Pinned pinv f0 f1 w) (hc : Closable f0 f1 w) (h : simulate (engine (pinPlug ctrl pinv f0 f1)) w tl (.list k) = (tr, .ok (w', t'))) :
    ∃ t0 w0 seen, tr = runCalls k t0 w0 tl seen ∧ ∀ j c c', (states seen w')[j]? = some c → (states seen w')[j + 1]? = some c' →
      SymPD c.ctrl.admittance → Closed f0 f1 c' := by
  obtain ⟨t0, rest, w0, seen, h1, -, h2, h3, h4, h5⟩ := (C45_run ..).mp h
  obtain ⟨w0', h6, h7⟩ := init_started hn
  obtain rfl : w0' = w0 := Except.ok.inj (h6.symm.trans h2)
  obtain ⟨-, -, k3⟩ := pin_steps hp h3 (pin_started hw h7)
  exact ⟨t0, w0', seen, h4, fun j c c' a1 a2 hY => k3 j c c' a1 a2 hY (closable_moves (started_moves h7) hc)⟩

/-- C128, the converse: if the ball is in the socket in one of the states of the simulation, the mechanism could be closed from the beginning. -/
theorem C128_only (hp : ∀ A, IsPinv A (pinv A)) {w w' : MWorld n σ} {tl : List ℝ} {k : ℕ} {tr : List (Ev (MWorld n σ))} {t' : ℝ} (hn : ndof w.tree = n)
    (hw : Pinned pinv f0 f1 w) (h : simulate (engine (pinPlug ctrl pinv f0 f1)) w tl (.list k) = (tr, .ok (w', t'))) :
    ∃ t0 w0 seen, tr = runCalls k t0 w0 tl seen ∧ ∀ c ∈ states seen w', Closed f0 f1 c → Closable f0 f1 w := by
  obtain ⟨t0, rest, w0, seen, h1, -, h2, h3, h4, h5⟩ := (C45_run ..).mp h
  obtain ⟨w0', h6, h7⟩ := init_started hn
  obtain rfl : w0' = w0 := Except.ok.inj (h6.symm.trans h2)
  obtain ⟨-, k2, -⟩ := pin_steps hp h3 (pin_started hw h7)
  exact ⟨t0, w0', seen, h4, fun c hc hcl => ⟨c, (started_moves h7).tr (T := Moves) (fun _ _ _ h h' => h.trans h') (k2 c hc), hcl⟩⟩

end

/-! ### under gravity -/

lemma psd_zero {M : Matrix (Fin n) (Fin n) ℝ} (hM : SymPSD M) {x : Fin n → ℝ} (h : x ⬝ᵥ M *ᵥ x = 0) : M *ᵥ x = 0 := by
  by_contra hne
  set y := M *ᵥ x with hy
  have hc : 0 < y ⬝ᵥ y := by
    rcases lt_or_eq_of_le (show 0 ≤ y ⬝ᵥ y from Finset.sum_nonneg fun i _ => mul_self_nonneg (y i)) with h1 | h1
    · exact h1
    · exact absurd (dotProduct_self_eq_zero.mp h1.symm) hne
  have hb := hM.2 y
  set b := y ⬝ᵥ M *ᵥ y with hbd
  set c := y ⬝ᵥ y with hcd
  have e : ∀ t : ℝ, (x - t • y) ⬝ᵥ M *ᵥ (x - t • y) = -(2 * t * c) + t ^ 2 * b := by
    intro t
    have e1 : x ⬝ᵥ M *ᵥ y = c := by rw [Matrix.dotProduct_mulVec, ← Matrix.mulVec_transpose, hM.1]
    rw [Matrix.mulVec_sub, Matrix.mulVec_smul, sub_dotProduct, dotProduct_sub, dotProduct_sub, smul_dotProduct, smul_dotProduct, dotProduct_smul, dotProduct_smul, h, e1, ← hy]
    simp only [smul_eq_mul, ← hbd, ← hcd]
    ring
  have h1 := hM.2 (x - (c / (b + 1)) • y)
  rw [e] at h1
  have hb1 : 0 < b + 1 := by linarith
  have h2 : -(2 * (c / (b + 1)) * c) + (c / (b + 1)) ^ 2 * b = -(c ^ 2 * (b + 2)) / (b + 1) ^ 2 := by
    field_simp
    ring
  rw [h2] at h1
  have h3 : 0 < c ^ 2 * (b + 2) / (b + 1) ^ 2 := by positivity
  rw [neg_div] at h1
  linarith

lemma pd_of_det {M : Matrix (Fin n) (Fin n) ℝ} (hM : SymPSD M) (h : M.det ≠ 0) : SymPD M := by
  refine ⟨hM.1, fun x hx => lt_of_le_of_ne (hM.2 x) fun h0 => h ?_⟩
  exact Matrix.exists_mulVec_eq_zero_iff.mp ⟨x, hx, psd_zero hM h0.symm⟩

section
variable {up : Vec3} {gs : List ℝ} {m : Body → ℝ} {com : Body → Vec3} {pinv : Mat3 → Mat3} {f0 f1 : PinFrame}

/-- the admittance of a mechanism that slides under gravity -/
lemma going_adm {P : Plug n Unit} (hP : P.ctrl = (libPlug n up (gs.map .weight)).ctrl) {w a b c : MWorld n Unit} {dt : ℝ} (hw : Going m com w) (hmass : ∀ b ∈ w.tree.bodies, SymPSD b.mass)
    (hd : dynamic w = .ok a) (hc : controllers P dt a = .ok b) (hs : constraints P dt b = .ok c) : SymPD c.ctrl.admittance := by
  have hval : ∀ l ∈ (w.tree.map MLink.link id).links, ValidLink l := by
    intro l hl
    rw [links_map] at hl
    obtain ⟨l0, hl0, rfl⟩ := List.mem_map.mp hl
    exact (hw.links l0 hl0).2.valid
  have h1 := (C20_no_assertion n _ hval).2
  unfold dynamic at hd
  rw [h1] at hd
  obtain rfl := Except.ok.inj hd
  unfold controllers at hc
  split at hc
  · cases hc
  rename_i mm vals hvals
  split at hc
  · cases hc
  rename_i o ho
  obtain rfl := Except.ok.inj hc
  unfold constraints at hs
  simp only at hs
  split at hs
  · cases hs
  obtain rfl := Except.ok.inj hs
  obtain ⟨hdt, hdet, -, hZ, hadm⟩ := (C33_sum _ _ _ _ _ _).mp ho
  have himp : ∀ v ∈ vals, v.impedance = 0 := by
    rw [hP] at hvals
    simp only [libPlug] at hvals
    split at hvals
    · cases hvals
    rename_i vs hvs
    obtain ⟨-, rfl⟩ := Prod.mk.inj (Except.ok.inj hvals)
    intro v hv
    obtain ⟨x, hx, hxv⟩ := forall₂_left (askAll_inv hvs).flip v hv
    obtain ⟨γ, -, rfl⟩ := List.mem_map.mp hx
    exact weight_impedance hxv
  have hV : worldViscosity (worldDynamic n (linksOf w)) = 0 := by
    rw [worldViscosity_eq]
    refine List.sum_eq_zero fun A hA => ?_
    obtain ⟨x, hx, rfl⟩ := List.mem_map.mp hA
    rw [(hw.bodies _ (mem_dyn hx)).2.2, Matrix.mul_zero, Matrix.zero_mul]
  have hN : worldNleffects (worldDynamic n (linksOf w)) = 0 := nl_slid (going_still hw)
  have hZ0 : (vals.map (·.impedance)).sum = 0 := List.sum_eq_zero fun A hA => by
    obtain ⟨v, hv, rfl⟩ := List.mem_map.mp hA
    exact himp v hv
  have hM := pd_of_det (C27_psd (worldDynamic n (linksOf w)) fun x hx => hmass _ (mem_dyn hx))
    (loose_mass hw.dofs hw.num hw.links fun b hb => ⟨(hw.bodies b hb).1, (hw.bodies b hb).2.1⟩)
  have hZ' : o.impedance = dt⁻¹ • worldMass (worldDynamic n (linksOf w)) := by
    rw [hZ, hZ0, sub_zero]
    change dt⁻¹ • worldMass (worldDynamic n (linksOf w)) + worldViscosity (worldDynamic n (linksOf w)) + worldNleffects (worldDynamic n (linksOf w)) = _
    rw [hV, hN, add_zero, add_zero]
  refine pd_inverse ⟨?_, fun x hx => ?_⟩ hadm
  · rw [hZ', Matrix.transpose_smul, hM.1]
  · rw [hZ', Matrix.smul_mulVec, dotProduct_smul]
    exact mul_pos (inv_pos.mpr hdt) (hM.2 x hx)

lemma going_moves {w w' : MWorld n Unit} (hw : Going m com w) (hw' : PinNow pinv f0 f1 w') (h : ForestRel Moves w.tree w'.tree) : Going m com w' := by
  refine ⟨?_, hw'.num, hw'.pinned.links, ?_, hw'.vel⟩
  · refine (ndof_rel (fun l l' e => ?_) h).trans hw.dofs
    rcases e.joint with e | ⟨k, q, dq, q', dq', e1, e2⟩
    · rw [e]
    · rw [e1, e2]
      rfl
  · rw [← h.links.2]
    exact hw.bodies

lemma going_seen {ctrl : MWorld n Unit → ℝ → Except PyErr (Unit × List (CtrlVal n))} (hP : ctrl = (libPlug n up (gs.map .weight)).ctrl) (hp : ∀ A, IsPinv A (pinv A)) {tl : List ℝ}
    {w w' : MWorld n Unit} {seen : List (ℝ × ℝ × MWorld n Unit)} (h : Steps (engine (pinPlug ctrl pinv f0 f1)) tl w seen w') (hw : PinNow pinv f0 f1 w) (hg : Going m com w)
    (hmass : ∀ b ∈ w.tree.bodies, SymPSD b.mass) : ∀ x ∈ seen, SymPD x.2.2.ctrl.admittance := by
  induction h with
  | done t w => simp
  | step hdyn hctrl hcons hint _ ih =>
    obtain ⟨k1, -, k3, -⟩ := pin_step hp hw hdyn hctrl hcons hint
    intro x hx
    rcases List.mem_cons.mp hx with rfl | hx
    · exact going_adm (P := pinPlug ctrl pinv f0 f1) hP hg hmass hdyn hctrl hcons
    · exact ih k1 (going_moves hg k1 k3) (by rw [← k3.links.2]; exact hmass) x hx

lemma steps_len {E : Engine (MWorld n Unit)} {tl : List ℝ} {w w' : MWorld n Unit} {seen : List (ℝ × ℝ × MWorld n Unit)} (h : Steps E tl w seen w') : seen.length + 1 = tl.length := by
  induction h with
  | done => rfl
  | step _ _ _ _ _ ih => simpa using ih

/-- C128.  Under gravity, or without controllers: when the bodies have mass and no viscosity, the simulation runs to its end on any strictly increasing timeline, and if the mechanism has a
position where the ball is in the socket, the ball is in the socket in every state after the first step. -/
theorem C128_run (hp : ∀ A, IsPinv A (pinv A)) {w : MWorld n Unit} (hn : ndof w.tree = n) (hw : Pinned pinv f0 f1 w)
    (hb : ∀ b ∈ w.tree.bodies, (∃ I, IsRigidMass b.mass (m b) (com b) I) ∧ SymPSD b.mass ∧ 0 < m b ∧ b.viscosity = 0) (hc : Closable f0 f1 w)
    {tl : List ℝ} (htl : tl ≠ []) (hinc : tl.Pairwise (· < ·)) (k : ℕ) :
    ∃ tr w' t', simulate (engine (pinPlug (libPlug n up (gs.map .weight)).ctrl pinv f0 f1)) w tl (.list k) = (tr, .ok (w', t')) ∧
      ∃ t0 w0 seen, tr = runCalls k t0 w0 tl seen ∧ seen.length + 1 = tl.length ∧ ∀ j c, (states seen w')[j + 1]? = some c → Closed f0 f1 c := by
  have hb' : ∀ b ∈ w.tree.bodies, (∃ I, IsRigidMass b.mass (m b) (com b) I) ∧ 0 < m b ∧ b.viscosity = 0 := fun b h => ⟨(hb b h).1, (hb b h).2.2⟩
  obtain ⟨tr, w', t', hrun⟩ := sliding_runs (up := up) (gs := gs) (P := pinPlug (libPlug n up (gs.map .weight)).ctrl pinv f0 f1) rfl hn hw.links hb' htl hinc k
  refine ⟨tr, w', t', hrun, ?_⟩
  obtain ⟨t0, rest, w0, seen, h1, -, h2, h3, h4, h5⟩ := (C45_run ..).mp hrun
  obtain ⟨w0', h6, h7⟩ := init_started hn
  obtain rfl : w0' = w0 := Except.ok.inj (h6.symm.trans h2)
  have hnow := pin_started hw h7
  obtain ⟨-, -, k3⟩ := pin_steps hp h3 hnow
  have hpd := going_seen rfl hp h3 hnow (going_started hn hw.links hb' h7) (by rw [← h7.tree.links.2]; exact fun b h => (hb b h).2.1)
  have hlen : seen.length + 1 = tl.length := by
    exact steps_len h3
  refine ⟨t0, w0', seen, h4, hlen, fun j c hj => ?_⟩
  have hlt : j < seen.length := by
    have := (List.getElem?_eq_some_iff.mp hj).1
    simp only [states, List.length_append, List.length_map, List.length_singleton] at this
    omega
  refine k3 j (seen[j].2.2) c ?_ hj (hpd _ (List.getElem_mem hlt)) (closable_moves (started_moves h7) hc)
  simp only [states]
  rw [List.getElem?_append_left (by simpa using hlt)]
  simp [hlt]

end

/-! ### a slider -/

/-- a body of mass 1 that slides along x, at `q`, velocity `v`, with a ball-and-socket constraint -/
noncomputable def pinSlider (pinv : Mat3 → Mat3) (q v : ℝ) : MWorld 1 Unit where
  tree := .cons ⟨.lin .Tx (fun _ => q) (fun _ => v), 0, 1, 1⟩ ⟨1, 0⟩ .nil .nil
  gvel := 0
  dyn := []
  mass := 0
  viscosity := 0
  nleffects := 0
  ctrl := ⟨0, 0, 0⟩
  mem := ()
  cons := [⟨ballAndSocket 1 pinv, ⟨true, 0, 0, 0, 0, 0, 0⟩⟩]

/-- a frame of the ground -/
noncomputable def spot (x y z : ℝ) : PinFrame := ⟨none, transl x y z⟩

lemma transl_rigid (x y z : ℝ) : IsRigid (transl x y z) := by
  rw [transl_mkH]
  exact isRigid_mkH IsRotation.one

lemma pinSlider_pinned (pinv : Mat3 → Mat3) (q v x y z : ℝ) : Pinned pinv (spot x y z) ⟨some 0, 1⟩ (pinSlider pinv q v) := by
  refine ⟨?_, transl_rigid x y z, isRigid_one, _, rfl, rfl⟩
  intro l hl
  simp only [pinSlider, Forest.links, List.append_nil, List.mem_singleton] at hl
  subst hl
  exact ⟨by simp [Sliding], isRigid_one, isRigid_one, fun H T h => by cases h⟩

lemma slider_center (w : MWorld 1 Unit) {q dq : Fin 1 → ℝ} {s : ℕ} {b : Body} (hw : w.tree = .cons ⟨.lin .Tx q dq, s, 1, 1⟩ b .nil .nil) :
    center w ⟨some 0, 1⟩ = ![q 0, 0, 0] := by
  have hinv : invBody (1 : Mat4) = 1 := by
    have := isRigid_one.invBody_mul; simpa using this
  have h1 : bodyPose w (some 0) = transl (q 0) 0 0 := by
    unfold bodyPose linksOf
    rw [hw]
    have e : ∀ d : BodyDyn 1, d.pose = 1 → ∀ L : Link, L.bpose0 = 1 → L.bpose1 = 1 → (dynStep d L).pose = L.joint.pose := by
      intro d hd L h0 h1
      rw [dynStep_pose, hd]
      unfold relPose
      simp only [h0, h1, hinv, Matrix.one_mul, Matrix.mul_one]
    exact e (groundDyn 1) rfl _ rfl rfl
  unfold center
  rw [h1, Matrix.mul_one, transl_mkH, pos_mkH]

lemma spot_center (w : MWorld 1 Unit) (x y z : ℝ) : center w (spot x y z) = ![x, y, z] := by
  unfold center spot bodyPose
  simp only [Matrix.one_mul]
  rw [transl_mkH, pos_mkH]

/-- C128, example: the slider, pinned to the point (3, 0, 0) of the ground, wherever it starts and however fast, under a gravity of -9.81 along x: the simulation runs to its end, and
after the first step the slider is at 3.  The constraint is three equations on one dof: its admittance is singular. -/
theorem C128_example {pinv : Mat3 → Mat3} (hp : ∀ A, IsPinv A (pinv A)) (q v : ℝ) :
    Pinned pinv (spot 3 0 0) ⟨some 0, 1⟩ (pinSlider pinv q v) ∧ Closable (spot 3 0 0) ⟨some 0, 1⟩ (pinSlider pinv q v) ∧
    ¬ Closable (spot 3 1 0) ⟨some 0, 1⟩ (pinSlider pinv q v) ∧
    ∀ (tl : List ℝ), tl ≠ [] → tl.Pairwise (· < ·) → ∀ k, ∃ tr w' t',
      simulate (engine (pinPlug (libPlug 1 ![1, 0, 0] ([-9.81].map .weight)).ctrl pinv (spot 3 0 0) ⟨some 0, 1⟩)) (pinSlider pinv q v) tl (.list k) = (tr, .ok (w', t')) ∧
      (2 ≤ tl.length → Closed (spot 3 0 0) ⟨some 0, 1⟩ w') := by
  have hcl : Closable (spot 3 0 0) ⟨some 0, 1⟩ (pinSlider pinv q v) := by
    refine ⟨pinSlider pinv 3 0, .cons ⟨rfl, rfl, .inr ⟨.Tx, _, _, _, _, rfl, rfl⟩⟩ .nil .nil, ?_⟩
    unfold Closed
    rw [spot_center, slider_center (pinSlider pinv 3 0) rfl]
  have hmass : IsRigidMass (1 : Mat6) 1 0 1 := by
    constructor
    · simp
    · simp [skew_zero, blk_one]
  refine ⟨pinSlider_pinned pinv q v 3 0 0, hcl, ?_, ?_⟩
  · rintro ⟨w1, h1, h2⟩
    generalize ht : w1.tree = T at h1
    cases h1 with
    | cons hl hc hs =>
      cases hc
      cases hs
      rename_i l'
      obtain ⟨att, s, b0, b1⟩ := l'
      obtain ⟨g0, g1, g2⟩ := hl
      dsimp only at g0 g1 g2
      subst g0 g1
      have : ∃ q dq : Fin 1 → ℝ, att = .lin .Tx q dq := by
        rcases g2 with rfl | ⟨k, a, b, c, d, e1, e2⟩
        · exact ⟨_, _, rfl⟩
        · cases e1
          exact ⟨_, _, e2⟩
      obtain ⟨q1, dq1, rfl⟩ := this
      unfold Closed at h2
      rw [spot_center, slider_center w1 ht] at h2
      have := congrFun h2 1
      simp at this
  · intro tl htl hinc k
    obtain ⟨tr, w', t', h1, t0, w0, seen, h2, h3, h4⟩ := C128_run (up := ![1, 0, 0]) (gs := [-9.81]) (m := fun _ => 1) (com := fun _ => 0) hp (w := pinSlider pinv q v) rfl
      (pinSlider_pinned pinv q v 3 0 0) (by
        intro b hb
        simp only [pinSlider, Forest.bodies, List.append_nil, List.mem_singleton] at hb
        subst hb
        refine ⟨⟨1, hmass⟩, ⟨Matrix.transpose_one, fun x => ?_⟩, one_pos, rfl⟩
        rw [Matrix.one_mulVec]
        exact Finset.sum_nonneg fun i _ => mul_self_nonneg (x i)) hcl htl hinc k
    refine ⟨tr, w', t', h1, fun hlen => h4 (seen.length - 1) w' ?_⟩
    have : seen.length - 1 + 1 = seen.length := by omega
    rw [this, states, List.getElem?_append_right (by simp)]
    simp

end Arboris
