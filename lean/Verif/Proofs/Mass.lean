import Verif.Spec.Mass
import Verif.Proofs.Tree

namespace Arboris
open Matrix Real Spec

lemma Spec.IsRigidMass.b12 {M : Mat6} {m : ℝ} {c : Vec3} {I : Mat3} (h : IsRigidMass M m c I) :
    b12 M = m • skew c := by rw [h.eq, b12_blk]
lemma Spec.IsRigidMass.m55 {M : Mat6} {m : ℝ} {c : Vec3} {I : Mat3} (h : IsRigidMass M m c I) :
    M 5 5 = m := by rw [h.eq]; simp [blk]

lemma Spec.IsRigidMass.transpose {M : Mat6} {m : ℝ} {c : Vec3} {I : Mat3} (h : IsRigidMass M m c I) :
    Mᵀ = M := by
  rw [h.eq, blk_transpose, h.symm]
  simp [skew_transpose]

lemma nle_eq {M : Mat6} {m : ℝ} {c : Vec3} {I : Mat3} (h : IsRigidMass M m c I) (hm : 1e-10 < m) (T : Vec6) :
    bodyNleffects M T *ᵥ T = newtonEulerBias M T := by
  have hne : m ≠ 0 := by intro e; rw [e] at hm; norm_num at hm
  have hP : lin (M *ᵥ T) = m • (lin T + ang T ⨯₃ c) := by
    conv_lhs => rw [h.eq, ← tw_ang_lin T, blk_mulVec, lin_tw]
    simp only [Matrix.neg_mulVec, Matrix.smul_mulVec, Matrix.one_mulVec, skew_mulVec]
    rw [← smul_neg, ← smul_add, cross_anticomm, add_comm]
  unfold bodyNleffects newtonEulerBias
  simp only
  rw [h.m55, if_neg (not_le.mpr hm), h.b12, smul_smul, inv_mul_cancel₀ hne, one_smul, ← skew_cross,
    ← Matrix.mulVec_mulVec]
  conv_lhs => rw [← tw_ang_lin (M *ᵥ T)]
  rw [blk_mulVec]
  simp only [skew_mulVec, Matrix.zero_mulVec, zero_add]
  congr 2
  rw [hP]
  simp only [map_smul, map_add, LinearMap.smul_apply, LinearMap.add_apply]
  congr 1
  rw [← cross_anticomm c (ang T), map_neg, cross_self, cross_self, neg_zero, add_zero,
    zero_add, map_neg, cross_anticomm]

lemma nle_small {M : Mat6} {m : ℝ} {c : Vec3} {I : Mat3} (h : IsRigidMass M m c I) (hm : m ≤ 1e-10) (T : Vec6) :
    bodyNleffects M T *ᵥ T = tw (ang T ⨯₃ ang (M *ᵥ T)) (ang T ⨯₃ lin (M *ᵥ T)) := by
  unfold bodyNleffects
  simp only
  rw [h.m55, if_pos hm, ← Matrix.mulVec_mulVec]
  conv_lhs => rw [← tw_ang_lin (M *ᵥ T)]
  rw [blk_mulVec]
  simp [skew_mulVec]

lemma dot_newtonEulerBias (M : Mat6) (T : Vec6) : T ⬝ᵥ newtonEulerBias M T = 0 := by
  unfold newtonEulerBias
  simp only
  conv_lhs => rw [← tw_ang_lin T]
  rw [tw_dot]
  simp only [ang_tw, lin_tw, dotProduct_add]
  rw [dot_self_cross, zero_add]
  generalize lin (M *ᵥ tw (ang T) (lin T)) = P
  rw [triple_product_permutation (lin T), ← cross_anticomm (lin T) P, dotProduct_neg, add_neg_cancel]

end Arboris
