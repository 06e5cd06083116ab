import Verif.Props.Tree
import Verif.Props.MatlabConvert

/-!
# One joint of several rotations and the chain of its hinges
-/

namespace Arboris
open Graph Spec Build Matlab Matrix Real

/-- the same place, jacobian and twist -/
def Spec.AlikeDyn {n : ℕ} (d d' : BodyDyn n) : Prop := d'.pose = d.pose ∧ d'.jac = d.jac ∧ d'.twist = d.twist

lemma Spec.AlikeDyn.refl {n : ℕ} (d : BodyDyn n) : AlikeDyn d d := ⟨rfl, rfl, rfl⟩

lemma Spec.AlikeDyn.trans {n : ℕ} {a b c : BodyDyn n} (h : AlikeDyn a b) (h' : AlikeDyn b c) : AlikeDyn a c :=
  ⟨h'.1.trans h.1, h'.2.1.trans h.2.1, h'.2.2.trans h.2.2⟩

lemma alikeDyn_step {n : ℕ} {s s' : BodyDyn n} (h : AlikeDyn s s') (l : Link) : AlikeDyn (dynStep s l) (dynStep s' l) := by
  obtain ⟨h1, h2, h3⟩ := h
  exact ⟨by rw [dynStep_pose, dynStep_pose, h1], by rw [dynStep_jac, dynStep_jac, h2], by rw [dynStep_twist, dynStep_twist, h3]⟩

/-- two links one below the other through a body, the frames being at the body -/
lemma merge {n : ℕ} (s : BodyDyn n) {l l1 l2 : Link} (e1 : l1.bpose1 = 1) (e2 : l2.bpose0 = 1) (e3 : l.bpose0 = l1.bpose0) (e4 : l.bpose1 = l2.bpose1)
    (h0 : IsRigid l.bpose0) (h1 : IsRigid l.bpose1) (p1 : IsRigid l1.joint.pose) (p2 : IsRigid l2.joint.pose)
    (hp : l.joint.pose = l1.joint.pose * l2.joint.pose)
    (ht : l.joint.twist = iadjointBody l2.joint.pose *ᵥ l1.joint.twist + l2.joint.twist)
    (hj : l.joint.jac * selMat n l.start l.k = iadjointBody l2.joint.pose * (l1.joint.jac * selMat n l1.start l1.k) + l2.joint.jac * selMat n l2.start l2.k) :
    AlikeDyn (dynStep s l) (dynStep (dynStep s l1) l2) := by
  have one : invBody (1 : Mat4) = 1 := by
    have := isRigid_one.mul_invBody; rwa [Matrix.one_mul] at this
  have r1 : relPose l1 = l.bpose0 * l1.joint.pose := by simp [relPose, e1, e3, one]
  have r2 : relPose l2 = l2.joint.pose * invBody l.bpose1 := by simp [relPose, e2, e4]
  have r : relPose l = relPose l1 * relPose l2 := by
    rw [r1, r2, relPose, hp]; simp only [Matrix.mul_assoc]
  have g1 : IsRigid (relPose l1) := by rw [r1]; exact h0.mul p1
  have g2 : IsRigid (relPose l2) := by rw [r2]; exact p2.mul h1.invBody
  have a : iadjointBody (relPose l) = iadjointBody (relPose l2) * iadjointBody (relPose l1) := by
    rw [r, iadjointBody, g1.invBody_mul_rev g2, adjointBody_mul g2.invBody g1.invBody]; rfl
  have a2 : iadjointBody (relPose l2) = adjointBody l.bpose1 * iadjointBody l2.joint.pose := by
    rw [r2, iadjointBody, p2.invBody_mul_rev h1.invBody, h1.invBody_invBody, adjointBody_mul h1 p2.invBody]; rfl
  refine ⟨?_, ?_, ?_⟩
  · simp only [dynStep_pose, r, Matrix.mul_assoc]
  · rw [dynStep_jac, dynStep_jac, dynStep_jac, e1, adjointBody_one, Matrix.one_mul, ← e4, a, Matrix.mul_add, Matrix.mul_assoc (adjointBody l.bpose1) l.joint.jac, hj,
      Matrix.mul_add, a2]
    simp only [Matrix.mul_assoc, add_assoc]
  · rw [dynStep_twist, dynStep_twist, dynStep_twist, e1, adjointBody_one, Matrix.one_mulVec, ← e4, a, Matrix.mulVec_add, ht, Matrix.mulVec_add, a2]
    simp only [Matrix.mulVec_mulVec, Matrix.mul_assoc, add_assoc]

/-- the link of a joint in state `a` -/
noncomputable abbrev lk (a : JAttr) (start : ℕ) (b0 b1 : Mat4) : Link := ⟨a.ndof, start, a.val, b0, b1⟩

lemma iadj_rotx (a : ℝ) : iadjointBody (rotx a) = blk (Rx a)ᵀ 0 0 (Rx a)ᵀ := by
  rw [rotx_eq]; simp [iadjointBody, invBody, adjointBody_mkH, skew_zero]
lemma iadj_roty (a : ℝ) : iadjointBody (roty a) = blk (Ry a)ᵀ 0 0 (Ry a)ᵀ := by
  rw [roty_eq]; simp [iadjointBody, invBody, adjointBody_mkH, skew_zero]

lemma sel_one {n : ℕ} (J : Matrix (Fin 6) (Fin 1) ℝ) (s : ℕ) : J * selMat n s 1 = Matrix.of fun i c => if c.val = s then J i 0 else 0 := by
  ext i c; simp [selMat, Matrix.mul_apply]
lemma sel_two {n : ℕ} (J : Matrix (Fin 6) (Fin 2) ℝ) (s : ℕ) :
    J * selMat n s 2 = Matrix.of fun i c => (if c.val = s then J i 0 else 0) + if c.val = s + 1 then J i 1 else 0 := by
  ext i c; simp [selMat, Matrix.mul_apply, Fin.sum_univ_two]
lemma sel_three {n : ℕ} (J : Matrix (Fin 6) (Fin 3) ℝ) (s : ℕ) :
    J * selMat n s 3 = Matrix.of fun i c => (if c.val = s then J i 0 else 0) + (if c.val = s + 1 then J i 1 else 0) + if c.val = s + 2 then J i 2 else 0 := by
  ext i c; simp [selMat, Matrix.mul_apply, Fin.sum_univ_three]

lemma merge_RzRy {n : ℕ} (s : BodyDyn n) (q dq : Fin 2 → ℝ) (st : ℕ) {b0 b1 : Mat4} (h0 : IsRigid b0) (h1 : IsRigid b1) :
    AlikeDyn (dynStep s (lk (.lin .RzRy q dq) st b0 b1))
      (dynStep (dynStep s (lk (.lin .Rz (fun _ => q 0) (fun _ => dq 0)) st b0 1)) (lk (.lin .Ry (fun _ => q 1) (fun _ => dq 1)) (st + 1) 1 b1)) := by
  refine merge s rfl rfl rfl rfl h0 h1 (C01_rotz _) (C01_roty _) (C02_rotzy _ _) ?_ ?_
  · change (!![-sin (q 1), 0; 0, 1; cos (q 1), 0; 0, 0; 0, 0; 0, 0] : Matrix (Fin 6) (Fin 2) ℝ) *ᵥ dq = iadjointBody (roty (q 1)) *ᵥ ((!![0; 0; 1; 0; 0; 0] : Matrix (Fin 6) (Fin 1) ℝ) *ᵥ fun _ => dq 0) +
      (!![0; 1; 0; 0; 0; 0] : Matrix (Fin 6) (Fin 1) ℝ) *ᵥ fun _ => dq 1
    rw [iadj_roty]
    ext i
    fin_cases i <;> simp [blk, Ry, Matrix.mulVec, dotProduct, Fin.sum_univ_six, Fin.sum_univ_two]
  · change (!![-sin (q 1), 0; 0, 1; cos (q 1), 0; 0, 0; 0, 0; 0, 0] : Matrix (Fin 6) (Fin 2) ℝ) * selMat n st 2 = iadjointBody (roty (q 1)) * ((!![0; 0; 1; 0; 0; 0] : Matrix (Fin 6) (Fin 1) ℝ) * selMat n st 1) +
      (!![0; 1; 0; 0; 0; 0] : Matrix (Fin 6) (Fin 1) ℝ) * selMat n (st + 1) 1
    rw [iadj_roty, sel_two, sel_one, sel_one]
    ext i c
    simp only [Matrix.add_apply, Matrix.mul_apply, Matrix.of_apply, Fin.sum_univ_six]
    by_cases e : c.val = st
    · have : c.val ≠ st + 1 := by omega
      simp only [if_pos e, if_neg this]
      fin_cases i <;> simp [blk, Ry]
    · simp only [if_neg e]
      by_cases e : c.val = st + 1
      · simp only [if_pos e]
        fin_cases i <;> simp
      · simp [if_neg e]

lemma merge_RzRx {n : ℕ} (s : BodyDyn n) (q dq : Fin 2 → ℝ) (st : ℕ) {b0 b1 : Mat4} (h0 : IsRigid b0) (h1 : IsRigid b1) :
    AlikeDyn (dynStep s (lk (.lin .RzRx q dq) st b0 b1))
      (dynStep (dynStep s (lk (.lin .Rz (fun _ => q 0) (fun _ => dq 0)) st b0 1)) (lk (.lin .Rx (fun _ => q 1) (fun _ => dq 1)) (st + 1) 1 b1)) := by
  refine merge s rfl rfl rfl rfl h0 h1 (C01_rotz _) (C01_rotx _) (C02_rotzx _ _) ?_ ?_
  · change (!![0, 1; sin (q 1), 0; cos (q 1), 0; 0, 0; 0, 0; 0, 0] : Matrix (Fin 6) (Fin 2) ℝ) *ᵥ dq = iadjointBody (rotx (q 1)) *ᵥ ((!![0; 0; 1; 0; 0; 0] : Matrix (Fin 6) (Fin 1) ℝ) *ᵥ fun _ => dq 0) +
      (!![1; 0; 0; 0; 0; 0] : Matrix (Fin 6) (Fin 1) ℝ) *ᵥ fun _ => dq 1
    rw [iadj_rotx]
    ext i
    fin_cases i <;> simp [blk, Rx, Matrix.mulVec, dotProduct, Fin.sum_univ_six, Fin.sum_univ_two]
  · change (!![0, 1; sin (q 1), 0; cos (q 1), 0; 0, 0; 0, 0; 0, 0] : Matrix (Fin 6) (Fin 2) ℝ) * selMat n st 2 = iadjointBody (rotx (q 1)) * ((!![0; 0; 1; 0; 0; 0] : Matrix (Fin 6) (Fin 1) ℝ) * selMat n st 1) +
      (!![1; 0; 0; 0; 0; 0] : Matrix (Fin 6) (Fin 1) ℝ) * selMat n (st + 1) 1
    rw [iadj_rotx, sel_two, sel_one, sel_one]
    ext i c
    simp only [Matrix.add_apply, Matrix.mul_apply, Matrix.of_apply, Fin.sum_univ_six]
    by_cases e : c.val = st
    · have : c.val ≠ st + 1 := by omega
      simp only [if_pos e, if_neg this]
      fin_cases i <;> simp [blk, Rx]
    · simp only [if_neg e]
      by_cases e : c.val = st + 1
      · simp only [if_pos e]
        fin_cases i <;> simp
      · simp [if_neg e]

lemma merge_RyRx {n : ℕ} (s : BodyDyn n) (q dq : Fin 2 → ℝ) (st : ℕ) {b0 b1 : Mat4} (h0 : IsRigid b0) (h1 : IsRigid b1) :
    AlikeDyn (dynStep s (lk (.lin .RyRx q dq) st b0 b1))
      (dynStep (dynStep s (lk (.lin .Ry (fun _ => q 0) (fun _ => dq 0)) st b0 1)) (lk (.lin .Rx (fun _ => q 1) (fun _ => dq 1)) (st + 1) 1 b1)) := by
  refine merge s rfl rfl rfl rfl h0 h1 (C01_roty _) (C01_rotx _) (C02_rotyx _ _) ?_ ?_
  · change (!![0, 1; cos (q 1), 0; -sin (q 1), 0; 0, 0; 0, 0; 0, 0] : Matrix (Fin 6) (Fin 2) ℝ) *ᵥ dq = iadjointBody (rotx (q 1)) *ᵥ ((!![0; 1; 0; 0; 0; 0] : Matrix (Fin 6) (Fin 1) ℝ) *ᵥ fun _ => dq 0) +
      (!![1; 0; 0; 0; 0; 0] : Matrix (Fin 6) (Fin 1) ℝ) *ᵥ fun _ => dq 1
    rw [iadj_rotx]
    ext i
    fin_cases i <;> simp [blk, Rx, Matrix.mulVec, dotProduct, Fin.sum_univ_six, Fin.sum_univ_two]
  · change (!![0, 1; cos (q 1), 0; -sin (q 1), 0; 0, 0; 0, 0; 0, 0] : Matrix (Fin 6) (Fin 2) ℝ) * selMat n st 2 = iadjointBody (rotx (q 1)) * ((!![0; 1; 0; 0; 0; 0] : Matrix (Fin 6) (Fin 1) ℝ) * selMat n st 1) +
      (!![1; 0; 0; 0; 0; 0] : Matrix (Fin 6) (Fin 1) ℝ) * selMat n (st + 1) 1
    rw [iadj_rotx, sel_two, sel_one, sel_one]
    ext i c
    simp only [Matrix.add_apply, Matrix.mul_apply, Matrix.of_apply, Fin.sum_univ_six]
    by_cases e : c.val = st
    · have : c.val ≠ st + 1 := by omega
      simp only [if_pos e, if_neg this]
      fin_cases i <;> simp [blk, Rx]
    · simp only [if_neg e]
      by_cases e : c.val = st + 1
      · simp only [if_pos e]
        fin_cases i <;> simp
      · simp [if_neg e]

lemma merge_RzRyRx {n : ℕ} (s : BodyDyn n) (q dq : Fin 3 → ℝ) (st : ℕ) {b0 b1 : Mat4} (h0 : IsRigid b0) (h1 : IsRigid b1) :
    AlikeDyn (dynStep s (lk (.lin .RzRyRx q dq) st b0 b1))
      (dynStep (dynStep (dynStep s (lk (.lin .Rz (fun _ => q 0) (fun _ => dq 0)) st b0 1)) (lk (.lin .Ry (fun _ => q 1) (fun _ => dq 1)) (st + 1) 1 1))
        (lk (.lin .Rx (fun _ => q 2) (fun _ => dq 2)) (st + 2) 1 b1)) := by
  have h2 := merge_RzRy s ![q 0, q 1] ![dq 0, dq 1] st h0 isRigid_one
  refine AlikeDyn.trans ?_ (alikeDyn_step h2 _)
  refine merge s rfl rfl rfl rfl h0 h1 (C01_rotzy _ _) (C01_rotx _) ?_ ?_ ?_
  · change rotzyx (q 0) (q 1) (q 2) = rotzy (q 0) (q 1) * rotx (q 2)
    rw [C02_rotzyx, C02_rotzy]
  · change (!![-sin (q 1), 0, 1; sin (q 2) * cos (q 1), cos (q 2), 0; cos (q 2) * cos (q 1), -sin (q 2), 0; 0, 0, 0; 0, 0, 0; 0, 0, 0] : Matrix (Fin 6) (Fin 3) ℝ) *ᵥ dq = iadjointBody (rotx (q 2)) *ᵥ ((!![-sin (q 1), 0; 0, 1; cos (q 1), 0; 0, 0; 0, 0; 0, 0] : Matrix (Fin 6) (Fin 2) ℝ) *ᵥ ![dq 0, dq 1]) +
      (!![1; 0; 0; 0; 0; 0] : Matrix (Fin 6) (Fin 1) ℝ) *ᵥ fun _ => dq 2
    rw [iadj_rotx]
    ext i
    fin_cases i <;> simp [blk, Rx, Matrix.mulVec, dotProduct, Fin.sum_univ_six, Fin.sum_univ_two, Fin.sum_univ_three] <;> ring
  · change (!![-sin (q 1), 0, 1; sin (q 2) * cos (q 1), cos (q 2), 0; cos (q 2) * cos (q 1), -sin (q 2), 0; 0, 0, 0; 0, 0, 0; 0, 0, 0] : Matrix (Fin 6) (Fin 3) ℝ) * selMat n st 3 = iadjointBody (rotx (q 2)) * ((!![-sin (q 1), 0; 0, 1; cos (q 1), 0; 0, 0; 0, 0; 0, 0] : Matrix (Fin 6) (Fin 2) ℝ) * selMat n st 2) +
      (!![1; 0; 0; 0; 0; 0] : Matrix (Fin 6) (Fin 1) ℝ) * selMat n (st + 2) 1
    rw [iadj_rotx, sel_three, sel_two, sel_one]
    ext i c
    simp only [Matrix.add_apply, Matrix.mul_apply, Matrix.of_apply, Fin.sum_univ_six]
    by_cases e : c.val = st
    · have e1 : c.val ≠ st + 1 := by omega
      have e2 : c.val ≠ st + 2 := by omega
      simp only [if_pos e, if_neg e1, if_neg e2]
      fin_cases i <;> simp [blk, Rx]
    · simp only [if_neg e]
      by_cases e : c.val = st + 1
      · have e2 : c.val ≠ st + 2 := by omega
        simp only [if_pos e, if_neg e2]
        fin_cases i <;> simp [blk, Rx]
      · simp only [if_neg e]
        by_cases e : c.val = st + 2
        · simp only [if_pos e]
          fin_cases i <;> simp
        · simp [if_neg e]

end Arboris
