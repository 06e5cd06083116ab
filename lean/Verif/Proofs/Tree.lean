import Verif.Spec.Motion
import Verif.Proofs.Joints

/-! # Helper lemmas on trees -/

namespace Arboris
open Matrix Real Spec

/-! ### the recursion is a fold along root paths -/

lemma updateDynamic_eq {B : Type} {n : ℕ} (F : Forest Link B) (s : BodyDyn n) :
    updateDynamic s F = F.paths.map fun x => (x.1, x.2.foldl dynStep s) := by
  induction F generalizing s with
  | nil => rfl
  | cons l b ch sib ih1 ih2 =>
    simp [updateDynamic, Forest.paths, ih1, ih2, List.map_map, Function.comp_def]

lemma updateGeometric_eq {B : Type} (F : Forest Link B) (s : Mat4) :
    updateGeometric s F = F.paths.map fun x => (x.1, x.2.foldl geoStep s) := by
  induction F generalizing s with
  | nil => rfl
  | cons l b ch sib ih1 ih2 =>
    simp [updateGeometric, Forest.paths, ih1, ih2, List.map_map, Function.comp_def]

lemma paths_map {L L' B B' : Type} (f : L → L') (g : B → B') (F : Forest L B) :
    (F.map f g).paths = F.paths.map fun x => (g x.1, x.2.map f) := by
  induction F with
  | nil => rfl
  | cons l b ch sib ih1 ih2 =>
    simp [Forest.map, Forest.paths, ih1, ih2, List.map_map, Function.comp_def]

lemma mem_links_of_mem_paths {L B : Type} {F : Forest L B} {x : B × List L} (hx : x ∈ F.paths) {l : L}
    (hl : l ∈ x.2) : l ∈ F.links := by
  induction F generalizing x with
  | nil => simp [Forest.paths] at hx
  | cons l' b ch sib ih1 ih2 =>
    simp only [Forest.paths, List.cons_append, List.mem_cons, List.mem_append, List.mem_map] at hx
    simp only [Forest.links, List.cons_append, List.mem_cons, List.mem_append]
    rcases hx with rfl | ⟨y, hy, rfl⟩ | hx
    · simp at hl; exact Or.inl hl
    · simp only [List.mem_cons] at hl
      rcases hl with rfl | hl
      · exact Or.inl rfl
      · exact Or.inr (Or.inl (ih1 hy hl))
    · exact Or.inr (Or.inr (ih2 hx hl))

/-! ### columns -/

/-- selection matrix of a dof range -/
def selMat (n start k : ℕ) : Matrix (Fin k) (Fin n) ℝ :=
  Matrix.of fun j c => if c.val = start + j.val then 1 else 0

lemma addCols_eq {n : ℕ} (A : Matrix (Fin 6) (Fin n) ℝ) (start k : ℕ) (B : Matrix (Fin 6) (Fin k) ℝ) :
    addCols A start k B = A + B * selMat n start k := by
  ext i c
  simp only [addCols, selMat, Matrix.of_apply, Matrix.add_apply, Matrix.mul_apply]
  split_ifs with h
  · congr 1
    rw [Finset.sum_eq_single ⟨c.val - start, by omega⟩]
    · simp; omega
    · intro j _ hj
      have : c.val ≠ start + j.val := by
        intro e; apply hj; ext; simp; omega
      simp [this]
    · simp
  · rw [Finset.sum_eq_zero, add_zero]
    intro j _
    have : c.val ≠ start + j.val := by
      intro e; apply h; have := j.2; omega
    simp [this]

lemma selMat_mulVec {n : ℕ} (ν : Fin n → ℝ) (start k : ℕ) (h : start + k ≤ n) :
    selMat n start k *ᵥ ν = slice ν start k h := by
  ext j
  simp only [Matrix.mulVec, dotProduct, selMat, Matrix.of_apply, slice]
  rw [Finset.sum_eq_single ⟨start + j.val, by omega⟩]
  · simp
  · intro c _ hc
    have : c.val ≠ start + j.val := by intro e; apply hc; ext; simpa using e
    simp [this]
  · simp

/-! ### one step -/

lemma Spec.ValidLink.ipose_eq {l : Link} (h : ValidLink l) : l.joint.ipose = invBody l.joint.pose := by
  have h1 := h.pose.invBody_mul
  calc l.joint.ipose = invBody l.joint.pose * l.joint.pose * l.joint.ipose := by rw [h1, Matrix.one_mul]
    _ = _ := by rw [Matrix.mul_assoc, h.ipose, Matrix.mul_one]

lemma Spec.ValidLink.relPose {l : Link} (h : ValidLink l) : IsRigid (relPose l) :=
  h.bpose0.mul (h.pose.mul h.bpose1.invBody)

lemma dynStep_pose {n : ℕ} (s : BodyDyn n) (l : Link) : (dynStep s l).pose = s.pose * relPose l := rfl
lemma dynStep_twist {n : ℕ} (s : BodyDyn n) (l : Link) :
    (dynStep s l).twist = iadjointBody (relPose l) *ᵥ s.twist + adjointBody l.bpose1 *ᵥ l.joint.twist := rfl
lemma dynStep_jac {n : ℕ} (s : BodyDyn n) (l : Link) :
    (dynStep s l).jac = iadjointBody (relPose l) * s.jac +
      adjointBody l.bpose1 * l.joint.jac * selMat n l.start l.k := by
  simp only [dynStep, addCols_eq, relPose]
lemma dynStep_djac {n : ℕ} (s : BodyDyn n) (l : Link) :
    (dynStep s l).djac =
      adjointBody l.bpose1 * (l.joint.idadjoint * adjointBody (invBody l.bpose0)) * s.jac +
        iadjointBody (relPose l) * s.djac +
      adjointBody l.bpose1 * l.joint.djac * selMat n l.start l.k := by
  simp only [dynStep, addCols_eq, relPose]

lemma iadjoint_relPose {l : Link} (h : ValidLink l) :
    iadjointBody (relPose l) =
      adjointBody l.bpose1 * (adjointBody (invBody l.joint.pose) * adjointBody (invBody l.bpose0)) := by
  have h1 := h.pose.mul h.bpose1.invBody
  simp only [iadjointBody, relPose]
  rw [h.bpose0.invBody_mul_rev h1, h.pose.invBody_mul_rev h.bpose1.invBody, h.bpose1.invBody_invBody,
    adjointBody_mul (h.bpose1.mul h.pose.invBody) h.bpose0.invBody,
    adjointBody_mul h.bpose1 h.pose.invBody, Matrix.mul_assoc]

/-! ### assertions never fail on valid links -/

lemma geoStepE_ok {l : Link} (h : ValidLink l) (p : Mat4) : geoStepE p l = .ok (geoStep p l) := by
  simp only [geoStepE, inv, assertHom_ok h.bpose1.ishom]; rfl

lemma dynStepE_ok {n : ℕ} {l : Link} (h : ValidLink l) (s : BodyDyn n) : dynStepE s l = .ok (dynStep s l) := by
  have hr : IsRigid (l.bpose0 * (l.joint.pose * invBody l.bpose1)) := h.relPose
  have h1 : inv l.bpose1 = .ok (invBody l.bpose1) := assertHom_ok h.bpose1.ishom _
  have h2 : adjoint l.bpose1 = .ok (adjointBody l.bpose1) := assertHom_ok h.bpose1.ishom _
  have h3 : inv l.bpose0 = .ok (invBody l.bpose0) := assertHom_ok h.bpose0.ishom _
  have h4 : adjoint (invBody l.bpose0) = .ok (adjointBody (invBody l.bpose0)) :=
    assertHom_ok h.bpose0.invBody.ishom _
  have h5 : adjoint l.joint.ipose = .ok (adjointBody l.joint.ipose) := by
    rw [h.ipose_eq]; exact assertHom_ok h.pose.invBody.ishom _
  have h6 : iadjoint (l.bpose0 * (l.joint.pose * invBody l.bpose1)) =
      .ok (iadjointBody (l.bpose0 * (l.joint.pose * invBody l.bpose1))) := by
    have e1 : inv (l.bpose0 * (l.joint.pose * invBody l.bpose1)) = .ok _ := assertHom_ok hr.ishom _
    simp only [iadjoint, e1]; exact assertHom_ok hr.invBody.ishom _
  simp only [dynStepE, h1, h2, h3, h4, h5, h6, bind, Except.bind]
  rfl

lemma updateGeometricE_ok {B : Type} (F : Forest Link B) (h : ∀ l ∈ F.links, ValidLink l) (p : Mat4) :
    updateGeometricE p F = .ok (updateGeometric p F) := by
  induction F generalizing p with
  | nil => rfl
  | cons l b ch sib ih1 ih2 =>
    simp only [Forest.links, List.cons_append, List.mem_cons, List.mem_append] at h
    have e1 := ih1 (fun l hl => h l (Or.inr (Or.inl hl))) (geoStep p l)
    have e2 := ih2 (fun l hl => h l (Or.inr (Or.inr hl))) p
    simp only [updateGeometricE, geoStepE_ok (h l (Or.inl rfl))]
    simp only [bind, Except.bind, e1, e2]
    rfl

lemma updateDynamicE_ok {B : Type} {n : ℕ} (F : Forest Link B) (h : ∀ l ∈ F.links, ValidLink l)
    (s : BodyDyn n) : updateDynamicE s F = .ok (updateDynamic s F) := by
  induction F generalizing s with
  | nil => rfl
  | cons l b ch sib ih1 ih2 =>
    simp only [Forest.links, List.cons_append, List.mem_cons, List.mem_append] at h
    have e1 := ih1 (fun l hl => h l (Or.inr (Or.inl hl))) (dynStep s l)
    have e2 := ih2 (fun l hl => h l (Or.inr (Or.inr hl))) s
    simp only [updateDynamicE, dynStepE_ok (h l (Or.inl rfl))]
    simp only [bind, Except.bind, e1, e2]
    rfl

/-! ### along a path -/

lemma foldl_geo (p : List Link) (H : Mat4) : p.foldl geoStep H = H * (p.map relPose).prod := by
  induction p generalizing H with
  | nil => simp
  | cons l p ih => simp [ih, geoStep, Matrix.mul_assoc]

lemma foldl_dyn_pose {n : ℕ} (p : List Link) (s : BodyDyn n) :
    (p.foldl dynStep s).pose = s.pose * (p.map relPose).prod := by
  induction p generalizing s with
  | nil => simp
  | cons l p ih => simp [ih, dynStep_pose, Matrix.mul_assoc]

lemma isRigid_foldl {n : ℕ} (p : List Link) (s : BodyDyn n) (hs : IsRigid s.pose)
    (h : ∀ l ∈ p, ValidLink l) : IsRigid (p.foldl dynStep s).pose := by
  induction p generalizing s with
  | nil => simpa
  | cons l p ih =>
    simp only [List.foldl_cons]
    apply ih
    · rw [dynStep_pose]; exact hs.mul (h l (by simp)).relPose
    · intro l' hl'; exact h l' (by simp [hl'])

lemma foldl_twist {n : ℕ} (ν : Fin n → ℝ) (p : List Link) (s : BodyDyn n) (hs : s.twist = s.jac *ᵥ ν)
    (h : ∀ l ∈ p, Consistent ν l) : (p.foldl dynStep s).twist = (p.foldl dynStep s).jac *ᵥ ν := by
  induction p generalizing s with
  | nil => simpa
  | cons l p ih =>
    simp only [List.foldl_cons]
    apply ih
    · obtain ⟨hn, ht⟩ := h l (by simp)
      rw [dynStep_twist, dynStep_jac, hs, ht, Matrix.add_mulVec, ← selMat_mulVec ν _ _ hn,
        Matrix.mulVec_mulVec, Matrix.mulVec_mulVec, Matrix.mulVec_mulVec, Matrix.mul_assoc]
    · intro l' hl'; exact h l' (by simp [hl'])

/-- column `c` is outside the dof range of `l` -/
def Outside (l : Link) (c : ℕ) : Prop := c < l.start ∨ l.start + l.k ≤ c

lemma selMat_col {n start k : ℕ} (c : Fin n) (h : c.val < start ∨ start + k ≤ c.val) (j : Fin k) :
    selMat n start k j c = 0 := by
  have := j.2
  simp only [selMat, Matrix.of_apply]
  rw [if_neg]; omega

lemma foldl_cols {n : ℕ} (c : Fin n) (p : List Link) (s : BodyDyn n)
    (hs : ∀ i, s.jac i c = 0 ∧ s.djac i c = 0) (h : ∀ l ∈ p, Outside l c.val) (i : Fin 6) :
    (p.foldl dynStep s).jac i c = 0 ∧ (p.foldl dynStep s).djac i c = 0 := by
  induction p generalizing s with
  | nil => simpa using hs i
  | cons l p ih =>
    simp only [List.foldl_cons]
    apply ih
    · intro i
      have ho := h l (by simp)
      constructor
      · rw [dynStep_jac]
        simp [Matrix.mul_apply, (hs _).1, selMat_col c ho]
      · rw [dynStep_djac]
        simp [Matrix.mul_apply, (hs _).1, (hs _).2, selMat_col c ho]
    · intro l' hl'; exact h l' (by simp [hl'])

lemma foldl_jac_zero {n : ℕ} (p : List Link) (s : BodyDyn n) (hs : s.jac = 0) (h : ∀ l ∈ p, l.k = 0) :
    (p.foldl dynStep s).jac = 0 := by
  induction p generalizing s with
  | nil => simpa
  | cons l p ih =>
    simp only [List.foldl_cons]
    apply ih
    · rw [dynStep_jac, hs]
      have hk : l.k = 0 := h l (by simp)
      ext i c
      simp only [Matrix.mul_zero, zero_add, Matrix.mul_apply, Matrix.zero_apply]
      apply Finset.sum_eq_zero
      intro j _
      exact absurd j.2 (by omega)
    · intro l' hl'; exact h l' (by simp [hl'])

/-! ### motion along a path -/

/-- the values along a path at time `t` -/
noncomputable def dynAt (n : ℕ) (p : List LinkT) (t : ℝ) : BodyDyn n :=
  (p.map fun l => l.at t).foldl dynStep (groundDyn n)

lemma dynAt_concat (n : ℕ) (p : List LinkT) (l : LinkT) (t : ℝ) :
    dynAt n (p ++ [l]) t = dynStep (dynAt n p t) (l.at t) := by
  simp [dynAt]

lemma isRigid_dynAt {n : ℕ} {p : List LinkT} {t : ℝ} (h : ∀ l ∈ p, ValidLink (l.at t)) :
    IsRigid (dynAt n p t).pose := by
  apply isRigid_foldl
  · exact isRigid_one
  · intro l hl
    obtain ⟨l', hl', rfl⟩ := List.mem_map.mp hl
    exact h l' hl'

lemma relPose_hasTwist {l : LinkT} {t : ℝ} (hv : ValidLink (l.at t)) (hm : l.Moving t) :
    HasTwist (fun s => relPose (l.at s)) (adjointBody l.bpose1 *ᵥ (l.joint t).twist) t := by
  have hc : HasTwist (fun _ : ℝ => invBody l.bpose1) 0 t := HasTwist.const t
  have h0 : HasTwist (fun _ : ℝ => l.bpose0) 0 t := HasTwist.const t
  have h1 := HasTwist.mul (K := fun _ => invBody l.bpose1) hv.bpose1.invBody hm hc
  have h2 := HasTwist.mul (K := fun s => (l.joint s).pose * invBody l.bpose1)
    (hv.pose.mul hv.bpose1.invBody) h0 h1
  refine h2.congr ?_
  have e : invBody (invBody l.bpose1) = l.bpose1 := hv.bpose1.invBody_invBody
  simp [e]

lemma dynAt_hasTwist {n : ℕ} {p : List LinkT} {t : ℝ} (hv : ∀ l ∈ p, ValidLink (l.at t))
    (hm : ∀ l ∈ p, l.Moving t) : HasTwist (fun s => (dynAt n p s).pose) (dynAt n p t).twist t := by
  induction p using List.reverseRecOn with
  | nil => exact HasTwist.const t
  | append_singleton p l ih =>
    have hl := hv l (by simp)
    have h1 := ih (fun l hl => hv l (by simp [hl])) (fun l hl => hm l (by simp [hl]))
    have h2 := relPose_hasTwist hl (hm l (by simp))
    have h3 := HasTwist.mul (K := fun s => relPose (l.at s)) hl.relPose h1 h2
    simp only [dynAt_concat, dynStep_pose]
    exact h3

lemma ownInvariant_iff {l : LinkT} {t : ℝ} (hv : ValidLink (l.at t)) :
    l.OwnInvariant t ↔ adjointBody (l.joint t).pose *ᵥ (l.joint t).twist = (l.joint t).twist := by
  unfold LinkT.OwnInvariant
  have hp : IsRigid (l.joint t).pose := hv.pose
  rw [hp.mul_hat]
  constructor
  · intro h
    apply hat_inj
    have := congrArg (fun X => X * invBody (l.joint t).pose) h
    simpa only [Matrix.mul_assoc, hp.mul_invBody, Matrix.mul_one] using this
  · intro h; rw [h]

/-- the true derivative of the inverse adjoint of the joint -/
lemma iadjoint_deriv {l : LinkT} {t : ℝ} (hv : ValidLink (l.at t)) (hm : l.Moving t) :
    HasDeriv (fun s => adjointBody (invBody (l.joint s).pose))
      (adjointBody (invBody (l.joint t).pose) *
        adjacency (-(adjointBody (l.joint t).pose *ᵥ (l.joint t).twist))) t := by
  have hp : IsRigid (l.joint t).pose := hv.pose
  have h1 := hm.inv hp
  exact HasTwist.adjoint (H := fun s => invBody (l.joint s).pose) hp.invBody h1

lemma idadjoint_of_invariant {l : LinkT} {t : ℝ} (hv : ValidLink (l.at t))
    (h : adjointBody (l.joint t).pose *ᵥ (l.joint t).twist =
      adjointBody (invBody (l.joint t).pose) *ᵥ (l.joint t).twist) :
    (l.joint t).idadjoint = adjointBody (invBody (l.joint t).pose) *
        adjacency (-(adjointBody (l.joint t).pose *ᵥ (l.joint t).twist)) := by
  have e : (l.joint t).ipose = invBody (l.joint t).pose := hv.ipose_eq
  simp only [JointVal.idadjoint, JointVal.itwist, JointVal.iadjoint, e, h]

lemma dynAt_hasDeriv_jac {n : ℕ} {p : List LinkT} {t : ℝ} (hv : ∀ s, ∀ l ∈ p, ValidLink (l.at s))
    (hm : ∀ l ∈ p, l.Moving t) (hj : ∀ l ∈ p, l.MovingJac t)
    (hok : ∀ pre l post, p = pre ++ l :: post → l.OwnInvariant t ∨ ∀ m ∈ pre, m.k = 0) :
    HasDeriv (fun s => (dynAt n p s).jac) (dynAt n p t).djac t := by
  induction p using List.reverseRecOn with
  | nil => exact HasDeriv.const _ t
  | append_singleton p l ih =>
    have hl := fun s => hv s l (by simp)
    have h1 := ih (fun s l hl => hv s l (by simp [hl])) (fun l hl => hm l (by simp [hl]))
      (fun l hl => hj l (by simp [hl])) (fun pre l' post e => hok pre l' (post ++ [l]) (by simp [e]))
    have hml := hm l (by simp)
    have hjl : HasDeriv (fun s => (l.joint s).jac) (l.joint t).djac t := hj l (by simp)
    have hd := iadjoint_deriv (hl t) hml
    simp only [dynAt_concat, dynStep_jac, dynStep_djac]
    have e0 : ∀ s, iadjointBody (relPose (l.at s)) = adjointBody l.bpose1 *
        (adjointBody (invBody (l.joint s).pose) * adjointBody (invBody l.bpose0)) :=
      fun s => iadjoint_relPose (hl s)
    have hAd : HasDeriv (fun s => iadjointBody (relPose (l.at s)))
        (adjointBody l.bpose1 * ((adjointBody (invBody (l.joint t).pose) *
          adjacency (-(adjointBody (l.joint t).pose *ᵥ (l.joint t).twist))) * adjointBody (invBody l.bpose0))) t := by
      simp only [e0]
      have := (HasDeriv.const (adjointBody l.bpose1) t).mul
        (hd.mul (HasDeriv.const (adjointBody (invBody l.bpose0)) t))
      refine this.congr ?_
      simp
    have h2 := (hAd.mul h1).add (((HasDeriv.const (adjointBody l.bpose1) t).mul hjl).mul
      (HasDeriv.const (selMat n l.start l.k) t))
    refine h2.congr ?_
    have key : adjointBody l.bpose1 * ((adjointBody (invBody (l.joint t).pose) *
          adjacency (-(adjointBody (l.joint t).pose *ᵥ (l.joint t).twist))) * adjointBody (invBody l.bpose0)) *
            (dynAt n p t).jac =
        adjointBody l.bpose1 * ((l.joint t).idadjoint * adjointBody (invBody l.bpose0)) *
            (dynAt n p t).jac := by
      rcases hok p l [] rfl with h | h
      · have h' := (ownInvariant_iff (hl t)).mp h
        have hp : IsRigid (l.joint t).pose := (hl t).pose
        rw [idadjoint_of_invariant (hl t)]
        rw [h']
        nth_rw 2 [← h']
        rw [Matrix.mulVec_mulVec, hp.adjoint_inv_mul, Matrix.one_mulVec]
      · have : (dynAt n p t).jac = 0 := by
          apply foldl_jac_zero
          · rfl
          · intro m hm
            obtain ⟨m', hm', rfl⟩ := List.mem_map.mp hm
            exact h m' hm'
        rw [this]; simp
    rw [key]
    simp [LinkT.at]
    rfl

end Arboris
