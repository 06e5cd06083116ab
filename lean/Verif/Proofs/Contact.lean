import Verif.Spec.Contact
import Verif.Model.Collisions
import Verif.Props.Twist
import Verif.Props.Controllers
import Mathlib.Analysis.InnerProductSpace.PiL2

/-! # Helper lemmas on contact frames -/

namespace Arboris
open Matrix Spec

lemma dist3_eq (x y : Vec3) : dist3 x y = dist (WithLp.toLp 2 x) (WithLp.toLp 2 y) := by
  rw [EuclideanSpace.dist_eq, dist3, Fin.sum_univ_three]
  simp [Real.dist_eq, sq_abs]

lemma dist3_triangle (x y z : Vec3) : dist3 x z ≤ dist3 x y + dist3 y z := by
  simp only [dist3_eq]; exact dist_triangle _ _ _

lemma dist3_comm (x y : Vec3) : dist3 x y = dist3 y x := by
  simp only [dist3_eq]; exact dist_comm _ _

lemma dist3_nonneg (x y : Vec3) : 0 ≤ dist3 x y := Real.sqrt_nonneg _

lemma dist3_pos {x y : Vec3} (h : x ≠ y) : 0 < dist3 x y := by
  rw [dist3_eq]; apply dist_pos.mpr
  intro e; exact h (WithLp.toLp_injective 2 e)

lemma dist3_self (x : Vec3) : dist3 x x = 0 := by simp [dist3]

lemma norm3_sub (x y : Vec3) : norm3 (x - y) = dist3 x y := by simp [norm3, dist3]

lemma dist3_sq (x y : Vec3) : dist3 x y ^ 2 = (x 0 - y 0) ^ 2 + (x 1 - y 1) ^ 2 + (x 2 - y 2) ^ 2 :=
  Real.sq_sqrt (by positivity)

lemma norm3_smul (a : ℝ) (v : Vec3) : norm3 (a • v) = |a| * norm3 v := by
  unfold norm3
  rw [← Real.sqrt_sq_eq_abs, ← Real.sqrt_mul (sq_nonneg a)]
  congr 1; simp; ring

lemma norm3_neg (v : Vec3) : norm3 (-v) = norm3 v := by simp [norm3]

lemma norm3_eq_zero {v : Vec3} : norm3 v = 0 ↔ v = 0 := by
  constructor
  · intro h
    have := norm3_sq v
    rw [h] at this
    simp [dotProduct, Fin.sum_univ_three] at this
    ext i
    fin_cases i <;> simp <;> nlinarith [sq_nonneg (v 0), sq_nonneg (v 1), sq_nonneg (v 2)]
  · rintro rfl; simp [norm3]

lemma norm3_unit {v : Vec3} (h : v ≠ 0) : norm3 ((norm3 v)⁻¹ • v) = 1 := by
  have h0 : norm3 v ≠ 0 := fun e => h (norm3_eq_zero.mp e)
  rw [norm3_smul, abs_inv, abs_of_nonneg (norm3_nonneg v), inv_mul_cancel₀ h0]

lemma dist3_add_smul (p z : Vec3) (hz : norm3 z = 1) (r : ℝ) : dist3 p (p + r • z) = |r| := by
  rw [← norm3_sub, show p - (p + r • z) = (-r) • z by ext i; simp, norm3_smul, hz, abs_neg, mul_one]

lemma norm3_dot_self {z : Vec3} (hz : norm3 z = 1) : z 0 ^ 2 + z 1 ^ 2 + z 2 ^ 2 = 1 := by
  have := norm3_sq z
  rw [hz] at this
  simp [dotProduct, Fin.sum_univ_three] at this
  linarith

lemma setPos_mkH (R : Mat3) (p q : Vec3) : setPos (mkH R p) q = mkH R q := by
  ext i j; fin_cases i <;> fin_cases j <;> simp [setPos, mkH]

lemma origin_mkH (R : Mat3) (p : Vec3) : origin (mkH R p) = p := by
  ext i; fin_cases i <;> simp [origin, mkH]

lemma zAxis_mkH (R : Mat3) (p : Vec3) : zAxis (mkH R p) = fun i => R i 2 := by
  ext i; fin_cases i <;> simp [zAxis, mkH]

lemma zcol_mkH (R : Mat3) (p : Vec3) : zcol (mkH R p) = fun i => R i 2 := by
  ext i; fin_cases i <;> simp [zcol, mkH]

lemma sameAxes_mkH (R : Mat3) (p q : Vec3) : SameAxes (mkH R p) (mkH R q) := by
  intro i j; fin_cases i <;> fin_cases j <;> simp [mkH]

lemma toGround_mkH (R : Mat3) (p c : Vec3) : toGround (mkH R p) c = R *ᵥ c + p := by
  ext i; fin_cases i <;> simp [toGround, mkH, Matrix.mulVec, dotProduct, Fin.sum_univ_three]

lemma dirToGround_mkH (R : Mat3) (p c : Vec3) : dirToGround (mkH R p) c = R *ᵥ c := by
  ext i; fin_cases i <;> simp [dirToGround, mkH, Matrix.mulVec, dotProduct, Fin.sum_univ_three]

lemma toGround_eq {H : Mat4} (h : IsRigid H) (c : Vec3) : toGround H c = pdotBody H c := by
  rw [h.eq_mkH, toGround_mkH]; simp [pdotBody]

/-- a rigid motion keeps distances -/
lemma dist3_toGround {H : Mat4} (h : IsRigid H) (x y : Vec3) : dist3 (toGround H x) (toGround H y) = dist3 x y := by
  have e : toGround H x - toGround H y = rot H *ᵥ (x - y) := by
    rw [h.eq_mkH, toGround_mkH, toGround_mkH, rot_mkH, Matrix.mulVec_sub]; abel
  rw [← norm3_sub, ← norm3_sub, e]
  have h1 : norm3 (rot H *ᵥ (x - y)) ^ 2 = norm3 (x - y) ^ 2 := by
    rw [norm3_sq, norm3_sq, h.rotation.dot]
  exact (sq_eq_sq₀ (norm3_nonneg _) (norm3_nonneg _)).mp h1

lemma toGround_invBody {H : Mat4} (h : IsRigid H) (x : Vec3) : toGround H (pdotBody (invBody H) x) = x := by
  rw [toGround_eq h]
  have hR := h.rotation
  simp only [pdotBody, invBody, rot_mkH, pos_mkH]
  rw [Matrix.mulVec_add, Matrix.mulVec_neg, Matrix.mulVec_mulVec, Matrix.mulVec_mulVec, hR.1]
  simp

lemma invBody_toGround {H : Mat4} (h : IsRigid H) (x : Vec3) : pdotBody (invBody H) (toGround H x) = x := by
  rw [toGround_eq h]
  have hR := h.rotation
  simp only [pdotBody, invBody, rot_mkH, pos_mkH]
  rw [Matrix.mulVec_add, Matrix.mulVec_mulVec, hR.2.1]
  simp

lemma zaligned_mkH {v : Vec3} (hv : norm3 v = 1) {idx : Equiv.Perm (Fin 3)} (hi : IsArgsortAbs v idx) :
    ∃ R, zaligned v idx = .ok (mkH R 0) ∧ IsRotation R ∧ (fun i => R i 2) = v := by
  obtain ⟨H, e, hr, hz, hp⟩ := C09_zaligned hv hi
  have hpos : pos H = 0 := by
    ext i; have := hp i; fin_cases i <;> simpa [pos] using this
  refine ⟨rot H, ?_, hr.rotation, ?_⟩
  · rw [e, ← hpos, ← hr.eq_mkH]
  · ext i; have := hz i; fin_cases i <;> simpa [rot] using this

end Arboris
