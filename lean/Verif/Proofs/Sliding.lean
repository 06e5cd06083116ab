import Verif.Proofs.Tree
import Verif.Spec.World
import Verif.Proofs.Joints

/-!
# Mechanisms that only slide

The bodies of a tree of sliding joints do not turn: constant jacobians, no gyroscopic effects.
-/

namespace Arboris
open Matrix Spec Mech Build

variable {n : ℕ}

/-- `TxJoint`, `TyJoint`, `TzJoint`, `TxTyTzJoint`, `FixedJoint` -/
def Spec.Sliding (l : MLink) : Prop :=
  match l.att with
  | .lin k _ _ => k = .Tx ∨ k = .Ty ∨ k = .Tz ∨ k = .TxTyTz
  | .fixed => True
  | .free _ _ => False

/-- a link whose joint does not turn -/
structure Slider (L : Link) : Prop where
  bpose0 : IsRigid L.bpose0
  bpose1 : IsRigid L.bpose1
  pose : L.joint.pose = mkH 1 (pos L.joint.pose)
  ipose : rot L.joint.ipose = 1
  twist : ang L.joint.twist = 0
  jac : ∀ y, ang (L.joint.jac *ᵥ y) = 0
  djac : L.joint.djac = 0

lemma ang_eq_zero_iff {T : Vec6} : ang T = 0 ↔ T 0 = 0 ∧ T 1 = 0 ∧ T 2 = 0 := by
  constructor
  · intro h
    exact ⟨congrFun h 0, congrFun h 1, congrFun h 2⟩
  · rintro ⟨h0, h1, h2⟩
    funext i
    fin_cases i
    · exact h0
    · exact h1
    · exact h2

lemma transl_mkH (x y z : ℝ) : transl x y z = mkH 1 ![x, y, z] := by
  refine (eq_mkH_of_row (H := transl x y z) rfl rfl rfl rfl).trans ?_
  rw [mkH_inj]
  constructor
  · ext i j
    fin_cases i <;> fin_cases j <;> rfl
  · ext i
    fin_cases i <;> rfl

lemma col3 (a b c : ℝ) (q : Fin 1 → ℝ) : (!![a; b; c] : Matrix (Fin 3) (Fin 1) ℝ) *ᵥ q = ![a * q 0, b * q 0, c * q 0] := by
  ext i
  fin_cases i <;> simp [Matrix.mulVec, dotProduct]

lemma col6 (a b c : ℝ) (q : Fin 1 → ℝ) : (!![0; 0; 0; a; b; c] : Matrix (Fin 6) (Fin 1) ℝ) *ᵥ q = tw 0 ((!![a; b; c] : Matrix (Fin 3) (Fin 1) ℝ) *ᵥ q) := by
  rw [col3]
  ext i
  fin_cases i <;> simp [Matrix.mulVec, dotProduct, tw]

lemma col63 (q : Fin 3 → ℝ) : (!![0, 0, 0; 0, 0, 0; 0, 0, 0; 1, 0, 0; 0, 1, 0; 0, 0, 1] : Matrix (Fin 6) (Fin 3) ℝ) *ᵥ q = tw 0 q := by
  ext i
  fin_cases i <;> simp [Matrix.mulVec, dotProduct, tw, Fin.sum_univ_three]

/-- a sliding joint is linear in its coordinates -/
lemma sliding_kind {k : LinKind} (hk : k = .Tx ∨ k = .Ty ∨ k = .Tz ∨ k = .TxTyTz) :
    ∃ S : Matrix (Fin 3) (Fin k.ndof) ℝ, ∀ q, k.pose q = mkH 1 (S *ᵥ q) ∧ k.ipose q = mkH 1 (-(S *ᵥ q)) ∧ (∀ y, k.jac q *ᵥ y = tw 0 (S *ᵥ y)) ∧
      ∀ dq, k.djac q dq = 0 ∧ k.jac dq = k.jac q := by
  have e1 : ∀ (a b c : ℝ) (q : Fin 1 → ℝ), transl (a * q 0) (b * q 0) (c * q 0) = mkH 1 ((!![a; b; c] : Matrix (Fin 3) (Fin 1) ℝ) *ᵥ q) := by
    intro a b c q
    rw [transl_mkH, col3]
  have e2 : ∀ (a b c : ℝ) (q : Fin 1 → ℝ), transl (-(a * q 0)) (-(b * q 0)) (-(c * q 0)) = mkH 1 (-((!![a; b; c] : Matrix (Fin 3) (Fin 1) ℝ) *ᵥ q)) := by
    intro a b c q
    rw [transl_mkH, col3]
    congr 1
    ext i
    fin_cases i <;> rfl
  rcases hk with rfl | rfl | rfl | rfl
  · refine ⟨(!![1; 0; 0] : Matrix (Fin 3) (Fin 1) ℝ), fun q => ⟨?_, ?_, col6 1 0 0, fun _ => ⟨rfl, rfl⟩⟩⟩
    · refine Eq.trans ?_ (e1 1 0 0 q)
      simp [LinKind.pose]
    · refine Eq.trans ?_ (e2 1 0 0 q)
      simp [LinKind.ipose]
  · refine ⟨(!![0; 1; 0] : Matrix (Fin 3) (Fin 1) ℝ), fun q => ⟨?_, ?_, col6 0 1 0, fun _ => ⟨rfl, rfl⟩⟩⟩
    · refine Eq.trans ?_ (e1 0 1 0 q)
      simp [LinKind.pose]
    · refine Eq.trans ?_ (e2 0 1 0 q)
      simp [LinKind.ipose]
  · refine ⟨(!![0; 0; 1] : Matrix (Fin 3) (Fin 1) ℝ), fun q => ⟨?_, ?_, col6 0 0 1, fun _ => ⟨rfl, rfl⟩⟩⟩
    · refine Eq.trans ?_ (e1 0 0 1 q)
      simp [LinKind.pose]
    · refine Eq.trans ?_ (e2 0 0 1 q)
      simp [LinKind.ipose]
  · have e3 : ∀ q : Fin 3 → ℝ, transl (q 0) (q 1) (q 2) = mkH 1 ((1 : Mat3) *ᵥ q) := by
      intro q
      rw [transl_mkH, Matrix.one_mulVec]
      congr 1
      ext i
      fin_cases i <;> rfl
    have e4 : ∀ q : Fin 3 → ℝ, invBody (transl (q 0) (q 1) (q 2)) = mkH 1 (-((1 : Mat3) *ᵥ q)) := by
      intro q
      rw [e3, invBody, rot_mkH, pos_mkH, Matrix.transpose_one, Matrix.one_mulVec]
    have e5 : ∀ q : Fin 3 → ℝ, (!![0, 0, 0; 0, 0, 0; 0, 0, 0; 1, 0, 0; 0, 1, 0; 0, 0, 1] : Matrix (Fin 6) (Fin 3) ℝ) *ᵥ q = tw 0 ((1 : Mat3) *ᵥ q) := by
      intro q
      rw [Matrix.one_mulVec]
      exact col63 q
    exact ⟨(1 : Matrix (Fin 3) (Fin 3) ℝ), fun q => ⟨e3 q, e4 q, e5, fun _ => ⟨rfl, rfl⟩⟩⟩

lemma slider_of {l : MLink} (hs : Sliding l) (hr : RigidLink l) : Slider l.link := by
  obtain ⟨att, start, b0, b1⟩ := l
  cases att with
  | fixed =>
    have e0 : ∀ y : Fin 0 → ℝ, ang ((0 : Matrix (Fin 6) (Fin 0) ℝ) *ᵥ y) = 0 := by
      intro y
      rw [Matrix.zero_mulVec]
      rfl
    refine ⟨hr.bpose0, hr.bpose1, ?_, ?_, ?_, ?_, rfl⟩
    · change (1 : Mat4) = mkH 1 (pos 1)
      rw [← mkH_one]
      simp
    · change rot (invBody 1) = 1
      rw [← mkH_one]
      simp [invBody]
    · rfl
    · intro y
      exact e0 y
  | free H T => exact hs.elim
  | lin k q dq =>
    obtain ⟨S, hS⟩ := sliding_kind hs
    obtain ⟨h1, h2, h3, h4⟩ := hS q
    refine ⟨hr.bpose0, hr.bpose1, ?_, ?_, ?_, ?_, (h4 dq).1⟩
    · change k.pose q = mkH 1 (pos (k.pose q))
      rw [h1, pos_mkH]
    · change rot (k.ipose q) = 1
      rw [h2, rot_mkH]
    · change ang (k.jac q *ᵥ dq) = 0
      rw [h3, ang_tw]
    · have e0 : ∀ y, ang (k.jac q *ᵥ y) = 0 := fun y => by rw [h3, ang_tw]
      exact e0

/-- the link after its joint has slid -/
structure SlidTo (dt : ℝ) (v : Fin n → ℝ) (L L' : Link) : Prop where
  eq : ∃ J : JointVal L.k, L' = { L with joint := J } ∧ J.jac = L.joint.jac ∧
    pos J.pose = pos L.joint.pose + dt • lin (L.joint.jac *ᵥ (selMat n L.start L.k *ᵥ v))

lemma slid_of {dt : ℝ} {v : Fin n → ℝ} {l l' : MLink} (hs : Sliding l) (h : Moved dt v l l') : SlidTo dt v l.link l'.link ∧ Sliding l' := by
  obtain ⟨att, start, b0, b1⟩ := l
  obtain ⟨att', start', b0', b1'⟩ := l'
  obtain ⟨h1, h2, h3, h4⟩ := h
  dsimp only at h1 h2 h3 h4
  subst h1 h2 h3
  cases h4 with
  | lin k q dq hb =>
    refine ⟨⟨k.val (fun i => q i + dt * slice v start' k.ndof hb i) (slice v start' k.ndof hb), rfl, ?_, ?_⟩, hs⟩
    · obtain ⟨S, hS⟩ := sliding_kind hs
      exact ((hS q).2.2.2 _).2
    · obtain ⟨S, hS⟩ := sliding_kind hs
      change pos (k.pose _) = pos (k.pose q) + dt • lin (k.jac q *ᵥ (selMat n start' k.ndof *ᵥ v))
      rw [(hS _).1, (hS q).1, (hS q).2.2.1, pos_mkH, pos_mkH, lin_tw, selMat_mulVec v _ _ hb, ← Matrix.mulVec_smul, ← Matrix.mulVec_add]
      rfl
  | free => exact hs.elim
  | fixed =>
    have e0 : ∀ y : Fin 0 → ℝ, lin ((0 : Matrix (Fin 6) (Fin 0) ℝ) *ᵥ y) = 0 := by
      intro y
      rw [Matrix.zero_mulVec]
      rfl
    refine ⟨⟨fixedVal, rfl, rfl, ?_⟩, trivial⟩
    change pos 1 = pos 1 + dt • lin ((0 : Matrix (Fin 6) (Fin 0) ℝ) *ᵥ (selMat n start' 0 *ᵥ v))
    rw [e0, smul_zero, add_zero]

/-- a body that does not turn -/
structure Still (d : BodyDyn n) : Prop where
  pose : IsRigid d.pose
  jac : ∀ x, ang (d.jac *ᵥ x) = 0
  djac : d.djac = 0
  twist : ang d.twist = 0

/-- where it slides to -/
structure Slid (dt : ℝ) (v : Fin n → ℝ) (d d' : BodyDyn n) : Prop where
  jac : d'.jac = d.jac
  rot : rot d'.pose = rot d.pose
  pos : pos d'.pose = pos d.pose + dt • (Arboris.rot d.pose *ᵥ lin (d.jac *ᵥ v))

lemma relPose_slider {L : Link} (h : Slider L) : relPose L = mkH (rot L.bpose0 * (rot L.bpose1)ᵀ)
    (rot L.bpose0 *ᵥ (pos L.joint.pose - (rot L.bpose1)ᵀ *ᵥ pos L.bpose1) + pos L.bpose0) := by
  unfold relPose
  rw [h.pose, h.bpose0.eq_mkH]
  simp only [invBody, mkH_mul, rot_mkH, pos_mkH, Matrix.one_mul, Matrix.one_mulVec]
  congr 2
  abel_nf

lemma iadj_zero {H : Mat4} (u : Vec3) : iadjointBody H *ᵥ tw 0 u = tw 0 ((rot H)ᵀ *ᵥ u) := by
  unfold iadjointBody invBody
  rw [adjointBody_mkH, blk_mulVec]
  simp

lemma adj_zero {H : Mat4} (u : Vec3) : adjointBody H *ᵥ tw 0 u = tw 0 (rot H *ᵥ u) := by
  unfold adjointBody
  rw [blk_mulVec]
  simp

lemma tw_of_ang {T : Vec6} (h : ang T = 0) : T = tw 0 (lin T) := by rw [← h, tw_ang_lin]

lemma step_jac {d : BodyDyn n} {L : Link} (hd : Still d) (hL : Slider L) (x : Fin n → ℝ) :
    (dynStep d L).jac *ᵥ x = tw 0 ((rot L.bpose0 * (rot L.bpose1)ᵀ)ᵀ *ᵥ lin (d.jac *ᵥ x) + rot L.bpose1 *ᵥ lin (L.joint.jac *ᵥ (selMat n L.start L.k *ᵥ x))) := by
  rw [dynStep_jac, Matrix.add_mulVec, ← Matrix.mulVec_mulVec, Matrix.mul_assoc, ← Matrix.mulVec_mulVec, ← Matrix.mulVec_mulVec,
    tw_of_ang (hd.jac x), tw_of_ang (hL.jac _), iadj_zero, adj_zero, tw_add, add_zero, relPose_slider hL, rot_mkH, lin_tw, lin_tw]

lemma still_step {d : BodyDyn n} {L : Link} (hd : Still d) (hL : Slider L) : Still (dynStep d L) := by
  have hrot : IsRigid (relPose L) := by
    rw [relPose_slider hL]
    exact isRigid_mkH (hL.bpose0.rotation.mul hL.bpose1.rotation.transpose)
  refine ⟨hd.pose.mul hrot, ?_, ?_, ?_⟩
  · intro x
    rw [step_jac hd hL, ang_tw]
  · rw [dynStep_djac, hd.djac, hL.djac]
    simp only [Matrix.mul_zero, Matrix.zero_mul, add_zero]
    refine Matrix.toLin'.injective (LinearMap.ext fun x => ?_)
    have ht : adjacency L.joint.itwist = blk 0 0 (skew (lin L.joint.itwist)) 0 := by
      have : ang L.joint.itwist = 0 := by
        rw [JointVal.itwist, JointVal.iadjoint, tw_of_ang hL.twist, adj_zero, tw_neg, ang_tw, neg_zero]
      rw [adjacency_eq, this, skew_zero]
    rw [Matrix.toLin'_apply, ← Matrix.mulVec_mulVec, ← Matrix.mulVec_mulVec, ← Matrix.mulVec_mulVec, tw_of_ang (hd.jac x), adj_zero, JointVal.idadjoint,
      ← Matrix.mulVec_mulVec, ht, blk_mulVec]
    simp [tw_zero]
  · rw [dynStep_twist, tw_of_ang hd.twist, tw_of_ang hL.twist, iadj_zero, adj_zero, tw_add, ang_tw, add_zero]

lemma slid_step {dt : ℝ} {v : Fin n → ℝ} {d d' : BodyDyn n} {L L' : Link} (hd : Still d) (hd' : Still d') (hL : Slider L) (hL' : Slider L') (h : Slid dt v d d')
    (hs : SlidTo dt v L L') : Slid dt v (dynStep d L) (dynStep d' L') := by
  obtain ⟨J, rfl, hj, hp⟩ := hs.eq
  refine ⟨?_, ?_, ?_⟩
  · refine Matrix.toLin'.injective (LinearMap.ext fun x => ?_)
    rw [Matrix.toLin'_apply, Matrix.toLin'_apply, step_jac hd hL, step_jac hd' hL', h.jac]
    dsimp only
    rw [hj]
  · rw [dynStep_pose, dynStep_pose, hd.pose.eq_mkH, hd'.pose.eq_mkH, relPose_slider hL, relPose_slider hL', mkH_mul, mkH_mul, rot_mkH, rot_mkH, h.rot]
  · rw [step_jac hd hL, lin_tw, dynStep_pose, dynStep_pose, hd.pose.eq_mkH, hd'.pose.eq_mkH, relPose_slider hL, relPose_slider hL', mkH_mul, mkH_mul,
      pos_mkH, pos_mkH, rot_mkH, h.rot, h.pos]
    dsimp only
    rw [hp]
    have hR := hL.bpose0.rotation.mul hL.bpose1.rotation.transpose
    have e1 : ∀ u, (rot d.pose * (rot L.bpose0 * (rot L.bpose1)ᵀ)) *ᵥ ((rot L.bpose0 * (rot L.bpose1)ᵀ)ᵀ *ᵥ u) = rot d.pose *ᵥ u := by
      intro u
      rw [Matrix.mulVec_mulVec, Matrix.mul_assoc, hR.1, Matrix.mul_one]
    have e2 : ∀ u, (rot d.pose * (rot L.bpose0 * (rot L.bpose1)ᵀ)) *ᵥ (rot L.bpose1 *ᵥ u) = rot d.pose *ᵥ (rot L.bpose0 *ᵥ u) := by
      intro u
      rw [Matrix.mulVec_mulVec, Matrix.mulVec_mulVec, Matrix.mul_assoc, Matrix.mul_assoc, hL.bpose1.rotation.2.1, Matrix.mul_one]
    rw [Matrix.mulVec_add (rot d.pose * _), e1, e2]
    simp only [Matrix.mulVec_add, Matrix.mulVec_sub, Matrix.mulVec_smul, smul_add]
    abel

lemma rigid_moved {dt : ℝ} {v : Fin n → ℝ} {l l' : MLink} (hs : Sliding l) (hr : RigidLink l) (h : Moved dt v l l') : RigidLink l' := by
  refine ⟨h.bpose0 ▸ hr.bpose0, h.bpose1 ▸ hr.bpose1, ?_⟩
  intro H T e
  have := (slid_of hs h).2
  unfold Sliding at this
  rw [e] at this
  exact this.elim

lemma dyn_slid {dt : ℝ} {v : Fin n → ℝ} {F F' : Forest MLink Body} (h : ForestRel (Moved dt v) F F') (hl : ∀ l ∈ F.links, Sliding l ∧ RigidLink l) :
    ∀ {d d' : BodyDyn n}, Still d → Still d' → Slid dt v d d' →
    List.Forall₂ (fun x y : Body × BodyDyn n => x.1 = y.1 ∧ Still x.2 ∧ Still y.2 ∧ Slid dt v x.2 y.2) (updateDynamic d (F.map MLink.link id))
      (updateDynamic d' (F'.map MLink.link id)) := by
  induction h with
  | nil => intros; exact .nil
  | @cons l l' b ch ch' sib sib' hm hc hs ihc ihs =>
    intro d d' hd hd' hdd
    have h0 := hl l (by simp [Forest.links])
    have s1 := slider_of h0.1 h0.2
    have s2 := slider_of (slid_of h0.1 hm).2 (rigid_moved h0.1 h0.2 hm)
    have k1 := still_step hd s1
    have k2 := slid_step hd hd' s1 s2 hdd (slid_of h0.1 hm).1
    refine .cons ⟨rfl, k1, still_step hd' s2, k2⟩ (List.rel_append ?_ ?_)
    · exact ihc (fun x hx => hl x (by simp [Forest.links, hx])) k1 (still_step hd' s2) k2
    · exact ihs (fun x hx => hl x (by simp [Forest.links, hx])) hd hd' hdd

lemma still_ground (n : ℕ) : Still (groundDyn n) := by
  refine ⟨isRigid_one, ?_, rfl, rfl⟩
  intro x
  change ang ((0 : Matrix (Fin 6) (Fin n) ℝ) *ᵥ x) = 0
  rw [Matrix.zero_mulVec]
  rfl

lemma slid_ground (dt : ℝ) (v : Fin n → ℝ) : Slid dt v (groundDyn n) (groundDyn n) := by
  refine ⟨rfl, rfl, ?_⟩
  change _ = _ + dt • (_ *ᵥ lin ((0 : Matrix (Fin 6) (Fin n) ℝ) *ᵥ v))
  rw [Matrix.zero_mulVec]
  have : lin 0 = 0 := rfl
  rw [this, Matrix.mulVec_zero, smul_zero, add_zero]

lemma mass_slid {dt : ℝ} {v : Fin n → ℝ} {bs bs' : List (Body × BodyDyn n)}
    (h : List.Forall₂ (fun x y : Body × BodyDyn n => x.1 = y.1 ∧ Still x.2 ∧ Still y.2 ∧ Slid dt v x.2 y.2) bs bs') : worldMass bs' = worldMass bs := by
  unfold worldMass
  generalize (0 : Matrix (Fin n) (Fin n) ℝ) = A
  induction h generalizing A with
  | nil => rfl
  | cons h1 _ ih =>
    simp only [List.foldl_cons]
    rw [h1.2.2.2.jac, ← h1.1]
    exact ih _

lemma nl_slid {bs : List (Body × BodyDyn n)} (h : ∀ x ∈ bs, Still x.2) : worldNleffects bs = 0 := by
  unfold worldNleffects
  generalize (0 : Matrix (Fin n) (Fin n) ℝ) = A
  induction bs with
  | nil => rfl
  | cons x bs ih =>
    rw [List.foldl_cons]
    have hx := h x (by simp)
    have e : bodyNleffects x.1.mass x.2.twist = 0 := by
      unfold bodyNleffects
      simp only [hx.twist, skew_zero, Matrix.mul_zero, Matrix.zero_mul, sub_zero, blk_zero]
    rw [e, hx.djac, Matrix.mul_zero, Matrix.zero_mul, add_zero, Matrix.mul_zero, add_zero]
    exact ih fun y hy => h y (by simp [hy])

end Arboris
