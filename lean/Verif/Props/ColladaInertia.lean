import Verif.Spec.ColladaInertia
import Verif.Props.Mass
import Verif.Props.Twist

/-! # C102: the Collada `rigid_body` element describes the body's mass -/

namespace Arboris
open Spec Visu Matrix

lemma radians_degrees (x : ℝ) : radians (degrees x) = x := by
  have := Real.pi_ne_zero
  simp only [radians, degrees]
  field_simp

lemma turn_degrees (z y x : ℝ) : turn (degrees z) (degrees y) (degrees x) = rot (rotzyx z y x) := by
  simp only [turn, radians_degrees]
  ext i j
  fin_cases i <;> fin_cases j <;> simp [rot, rotzyx, Matrix.mul_apply, Fin.sum_univ_three] <;> ring

/-- in its principal frame the mass matrix is diagonal -/
lemma transport_central {M : Mat6} {m : ℝ} {c : Vec3} {I : Mat3} (h : IsRigidMass M m c I) {Q : Mat3} :
    b11 (transportBody M (mkH Q c)) = Qᵀ * (I + m • (skew c * skew c)) * Q := by
  rw [h.eq]
  simp only [transportBody, adjointBody_mkH, blk_transpose, blk_mul, Matrix.transpose_mul, skew_transpose, Matrix.transpose_zero, b11_blk]
  simp only [Matrix.mul_add, Matrix.add_mul, Matrix.mul_neg, Matrix.neg_mul,
        Matrix.mul_assoc, Matrix.smul_mul, Matrix.mul_smul, smul_neg, neg_neg, smul_zero, Matrix.one_mul]
  abel

/-- **C102.** For every rigid-body positive definite mass matrix `M`, the element written by `create_inertia` describes `M`:
its mass, its frame (translation, then turns about z, y, x in degrees) and its three moments are those of `M`.  (`R` is the
answer of `eig`; the frame must be out of the band around the singularity of the angles, or exactly singular: C08.) -/
theorem C102_inertia {M : Mat6} {m : ℝ} {c : Vec3} {I : Mat3} (h : IsRigidMass M m c I) (hp : SymPD M)
    {R : Mat3} {d : Vec3} (ho : Rᵀ * R = 1) (he : IsEig (centralInertia M) R d)
    (hband : ∀ H, principalframe M R = .ok H → (tol ≤ |H 0 0| ∨ tol ≤ |H 1 0|) ∨ (H 0 0 = 0 ∧ H 1 0 = 0)) :
    ∃ e, createInertia M R = .ok e ∧ e.mass = m ∧ e.translate = c ∧ elemMass e = M := by
  obtain ⟨H, hH, hr, hpos, d', hd⟩ := C15_principal h hp ho he
  obtain ⟨az, ay, ax, hang, hrot⟩ := C08_roundtrip hr (hband H hH)
  have htr : transport M H = .ok (transportBody M H) := by
    simp only [transport, if_pos (ismass_of h hp), if_pos hr.ishom, adjoint, assertHom_ok hr.ishom, bind, Except.bind, pure, Except.pure]
  have hm : transportBody M H 5 5 = m := by rw [hd]; simp [diag6]
  refine ⟨⟨transportBody M H 5 5, pos H, degrees az, degrees ay, degrees ax, ![transportBody M H 0 0, transportBody M H 1 1, transportBody M H 2 2]⟩,
    by simp only [createInertia, hH, htr, hang, bind, Except.bind, pure, Except.pure], hm, hpos, ?_⟩
  have hR := hr.rotation
  have hHe : H = mkH (rot H) c := by rw [← hpos]; exact hr.eq_mkH
  have hd3 : (![transportBody M H 0 0, transportBody M H 1 1, transportBody M H 2 2] : Vec3) = d' := by
    rw [hd]; ext i; fin_cases i <;> simp [diag6]
  have hcen : (rot H)ᵀ * (I + m • (skew c * skew c)) * rot H = Matrix.diagonal d' := by
    rw [← transport_central h, ← hHe, hd]
    ext i j; fin_cases i <;> fin_cases j <;> simp [b11, diag6, Matrix.diagonal]
  have hI : rot H * Matrix.diagonal d' * (rot H)ᵀ = I + m • (skew c * skew c) := by
    rw [← hcen]
    have h1 : rot H * (rot H)ᵀ = 1 := hR.1
    calc rot H * ((rot H)ᵀ * (I + m • (skew c * skew c)) * rot H) * (rot H)ᵀ
        = (rot H * (rot H)ᵀ) * (I + m • (skew c * skew c)) * (rot H * (rot H)ᵀ) := by simp only [Matrix.mul_assoc]
      _ = _ := by rw [h1, Matrix.one_mul, Matrix.mul_one]
  simp only [elemMass, principalMass, turn_degrees, hrot, hm, hpos, hd3, hI]
  rw [h.eq]
  congr 1
  abel

/-- the hypotheses are met: a box, with the eigenvectors `1` -/
example : ∃ e, createInertia (massBox 1 2 3 4) 1 = .ok e ∧ e.mass = 4 ∧ elemMass e = massBox 1 2 3 4 := by
  have h1 : IsRigidMass (massBox 1 2 3 4) 4 0 _ := diag6_rigid _ _ _ _
  have h2 : SymPD (massBox 1 2 3 4) := diag6_pd (by norm_num) (by norm_num) (by norm_num) (by norm_num)
  have hc : centralInertia (massBox 1 2 3 4) = Matrix.diagonal ![4/3*(2^2+3^2), 4/3*(1^2+3^2), 4/3*(1^2+2^2)] := by
    simp only [centralInertia, massBox]
    rw [(diag6_rigid _ _ _ _).eq]
    simp [skew_zero]
  obtain ⟨e, h3, h4, -, h5⟩ := C102_inertia h1 h2 (R := 1) (d := ![4/3*(2^2+3^2), 4/3*(1^2+3^2), 4/3*(1^2+2^2)]) (by simp) (by
    rw [IsEig, hc, Matrix.mul_one, Matrix.one_mul]) (by
    intro H hH
    rw [principalframe, if_pos (ismass_of h1 h2)] at hH
    obtain rfl := Except.ok.inj hH
    refine .inl (.inl ?_)
    have : principalframeBody (massBox 1 2 3 4) 1 0 0 = 1 := by
      simp only [principalframeBody, Matrix.det_one]
      rw [if_neg (by norm_num)]
      simp [mkH]
    rw [this]
    norm_num [tol])
  exact ⟨e, h3, h4, h5⟩

end Arboris
