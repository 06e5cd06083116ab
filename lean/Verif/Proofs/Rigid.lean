import Verif.Model.Homogeneous
import Verif.Spec.Rigid
import Mathlib.Analysis.Calculus.Deriv.Mul
import Mathlib.Analysis.Calculus.Deriv.Add
import Mathlib.Analysis.SpecialFunctions.Trigonometric.Deriv
import Mathlib.LinearAlgebra.Matrix.Determinant.Basic

/-! # Helper lemmas on rigid motions -/

namespace Arboris
open Matrix Real Spec

/-! ### rotations -/

lemma Spec.IsRotation.mul {R S : Mat3} (hR : IsRotation R) (hS : IsRotation S) : IsRotation (R * S) := by
  obtain ⟨h1, h2, h3⟩ := hR
  obtain ⟨k1, k2, k3⟩ := hS
  refine ⟨?_, ?_, ?_⟩
  · rw [transpose_mul, Matrix.mul_assoc, ← Matrix.mul_assoc S, k1, Matrix.one_mul, h1]
  · rw [transpose_mul, Matrix.mul_assoc, ← Matrix.mul_assoc Rᵀ, h2, Matrix.one_mul, k2]
  · rw [det_mul, h3, k3, one_mul]

lemma Spec.IsRotation.transpose {R : Mat3} (hR : IsRotation R) : IsRotation Rᵀ := by
  obtain ⟨h1, h2, h3⟩ := hR
  exact ⟨by simpa using h2, by simpa using h1, by simpa using h3⟩

lemma Spec.IsRotation.one : IsRotation (1 : Mat3) := by
  refine ⟨?_, ?_, ?_⟩ <;> simp

lemma Spec.IsRotation.of_orth {R : Mat3} (h : Rᵀ * R = 1) (hd : R.det = 1) : IsRotation R :=
  ⟨mul_eq_one_comm.mp h, h, hd⟩

/-- `Aᵀ [A p]× A = det A · [p]×` for every 3×3 matrix. -/
lemma transpose_mul_skew_mul (A : Mat3) (p : Vec3) :
    Aᵀ * skew (A *ᵥ p) * A = A.det • skew p := by
  ext i j
  fin_cases i <;> fin_cases j <;>
    simp [skew, Matrix.mul_apply, Matrix.mulVec, dotProduct, Fin.sum_univ_three, det_fin_three] <;> ring

lemma Spec.IsRotation.skew_mulVec {R : Mat3} (hR : IsRotation R) (p : Vec3) :
    skew (R *ᵥ p) = R * skew p * Rᵀ := by
  obtain ⟨h1, _, h3⟩ := hR
  have h := transpose_mul_skew_mul R p
  rw [h3, one_smul] at h
  rw [← h]
  calc skew (R *ᵥ p) = (R * Rᵀ) * skew (R *ᵥ p) * (R * Rᵀ) := by rw [h1]; simp
    _ = _ := by simp only [Matrix.mul_assoc]

lemma Spec.IsRotation.skew_mul {R : Mat3} (hR : IsRotation R) (p : Vec3) :
    skew (R *ᵥ p) * R = R * skew p := by
  rw [hR.skew_mulVec, Matrix.mul_assoc, hR.2.1, Matrix.mul_one]

lemma Spec.IsRotation.dot {R : Mat3} (hR : IsRotation R) (u v : Vec3) :
    (R *ᵥ u) ⬝ᵥ (R *ᵥ v) = u ⬝ᵥ v := by
  rw [dotProduct_mulVec, vecMul_mulVec, ← dotProduct_mulVec]
  simp [hR.2.1]

lemma Spec.IsRotation.cross {R : Mat3} (hR : IsRotation R) (u v : Vec3) :
    (R *ᵥ u) ⨯₃ (R *ᵥ v) = R *ᵥ (u ⨯₃ v) := by
  rw [← Arboris.skew_mulVec, ← Arboris.skew_mulVec, Matrix.mulVec_mulVec, hR.skew_mul,
    ← Matrix.mulVec_mulVec]

/-! ### rigid motions -/

lemma isRigid_mkH {R : Mat3} {p : Vec3} (hR : IsRotation R) : IsRigid (mkH R p) := by
  refine ⟨?_, ?_, ?_, ?_, ?_⟩
  · have : (Matrix.of fun i j : Fin 3 => mkH R p i.castSucc j.castSucc) = R := by
      ext i j; fin_cases i <;> fin_cases j <;> simp [mkH, -Fin.castSucc_one]
    rw [this]; exact hR
  all_goals simp [mkH]

lemma Spec.IsRigid.rotation {H : Mat4} (h : IsRigid H) : IsRotation (rot H) := by
  have : rot H = (Matrix.of fun i j : Fin 3 => H i.castSucc j.castSucc) := by
    ext i j; fin_cases i <;> fin_cases j <;> rfl
  rw [this]; exact h.1

lemma eq_mkH_of_row {H : Mat4} (h0 : H 3 0 = 0) (h1 : H 3 1 = 0) (h2 : H 3 2 = 0) (h3 : H 3 3 = 1) :
    H = mkH (rot H) (pos H) := by
  ext i j; fin_cases i <;> fin_cases j <;> simp [mkH, rot, pos, h0, h1, h2, h3]

lemma Spec.IsRigid.eq_mkH {H : Mat4} (h : IsRigid H) : H = mkH (rot H) (pos H) :=
  eq_mkH_of_row h.2.1 h.2.2.1 h.2.2.2.1 h.2.2.2.2

lemma isRigid_iff {H : Mat4} : IsRigid H ↔ ∃ R p, IsRotation R ∧ H = mkH R p := by
  constructor
  · intro h; exact ⟨_, _, h.rotation, h.eq_mkH⟩
  · rintro ⟨R, p, hR, rfl⟩; exact isRigid_mkH hR

lemma Spec.IsRigid.mul {H K : Mat4} (hH : IsRigid H) (hK : IsRigid K) : IsRigid (H * K) := by
  obtain ⟨R, p, hR, rfl⟩ := isRigid_iff.mp hH
  obtain ⟨S, q, hS, rfl⟩ := isRigid_iff.mp hK
  rw [mkH_mul]; exact isRigid_mkH (IsRotation.mul hR hS)

lemma isRigid_one : IsRigid (1 : Mat4) := by
  rw [← mkH_one]; exact isRigid_mkH IsRotation.one

lemma Spec.IsRigid.invBody {H : Mat4} (h : IsRigid H) : IsRigid (invBody H) :=
  isRigid_mkH h.rotation.transpose

lemma Spec.IsRigid.mul_invBody {H : Mat4} (h : IsRigid H) : H * Arboris.invBody H = 1 := by
  obtain ⟨R, p, hR, rfl⟩ := isRigid_iff.mp h
  simp [Arboris.invBody, mkH_mul, Matrix.mulVec_neg, hR.1, mkH_one]

lemma Spec.IsRigid.invBody_mul {H : Mat4} (h : IsRigid H) : Arboris.invBody H * H = 1 := by
  obtain ⟨R, p, hR, rfl⟩ := isRigid_iff.mp h
  simp [Arboris.invBody, mkH_mul, hR.2.1, mkH_one]

lemma Spec.IsRigid.invBody_invBody {H : Mat4} (h : IsRigid H) : Arboris.invBody (Arboris.invBody H) = H := by
  obtain ⟨R, p, hR, rfl⟩ := isRigid_iff.mp h
  simp [Arboris.invBody, Matrix.mulVec_neg, hR.1]

lemma Spec.IsRigid.invBody_mul_rev {H K : Mat4} (hH : IsRigid H) (hK : IsRigid K) :
    Arboris.invBody (H * K) = Arboris.invBody K * Arboris.invBody H := by
  have h1 := (hH.mul hK).invBody_mul
  have h2 : (H * K) * (Arboris.invBody K * Arboris.invBody H) = 1 := by
    rw [Matrix.mul_assoc, ← Matrix.mul_assoc K, hK.mul_invBody, Matrix.one_mul, hH.mul_invBody]
  calc Arboris.invBody (H * K) = Arboris.invBody (H * K) * ((H * K) * (Arboris.invBody K * Arboris.invBody H)) := by
        rw [h2, Matrix.mul_one]
    _ = _ := by rw [← Matrix.mul_assoc, h1, Matrix.one_mul]

lemma tol_pos : 0 < tol := by norm_num [tol]

lemma Spec.IsRigid.ishom {H : Mat4} (h : IsRigid H) : ishomogeneousmatrix H := by
  refine ⟨?_, h.2⟩
  rw [h.rotation.2.2]; simp [tol_pos.le]

lemma assertHom_ok {α : Type} {H : Mat4} (h : ishomogeneousmatrix H) (x : α) :
    assertHom H x = .ok x := by simp [assertHom, h]

lemma assertHom_error {α : Type} {H : Mat4} (h : ¬ ishomogeneousmatrix H) (x : α) :
    assertHom H x = .error .assertion := by simp [assertHom, h]

/-! ### adjoint -/

lemma adjointBody_mkH (R : Mat3) (p : Vec3) : adjointBody (mkH R p) = blk R 0 (skew p * R) R := by
  simp [adjointBody]

lemma adjointBody_one : adjointBody 1 = 1 := by
  rw [← mkH_one, adjointBody_mkH, skew_zero]; simp [blk_one]

lemma adjointBody_mul {H K : Mat4} (hH : IsRigid H) (hK : IsRigid K) :
    adjointBody (H * K) = adjointBody H * adjointBody K := by
  obtain ⟨R, p, hR, rfl⟩ := isRigid_iff.mp hH
  obtain ⟨S, q, hS, rfl⟩ := isRigid_iff.mp hK
  rw [mkH_mul, adjointBody_mkH, adjointBody_mkH, adjointBody_mkH, blk_mul]
  congr 1
  · simp
  · simp
  · rw [skew_add, Matrix.add_mul, ← Matrix.mul_assoc, hR.skew_mul]
    simp only [Matrix.mul_assoc]; rw [add_comm]
  · simp

lemma Spec.IsRigid.adjoint_mul_inv {H : Mat4} (h : IsRigid H) :
    adjointBody H * adjointBody (Arboris.invBody H) = 1 := by
  rw [← adjointBody_mul h h.invBody, h.mul_invBody, adjointBody_one]

lemma Spec.IsRigid.adjoint_inv_mul {H : Mat4} (h : IsRigid H) :
    adjointBody (Arboris.invBody H) * adjointBody H = 1 := by
  rw [← adjointBody_mul h.invBody h, h.invBody_mul, adjointBody_one]

lemma adjInv_adjointBody {H : Mat4} (h : IsRigid H) : adjInv (adjointBody H) = adjointBody (invBody H) := by
  obtain ⟨R, p, hR, rfl⟩ := isRigid_iff.mp h
  simp only [invBody, rot_mkH, pos_mkH, adjointBody_mkH, adjInv, b11_blk, b21_blk]
  congr 1
  rw [skew_neg, hR.transpose.skew_mulVec, transpose_mul, skew_transpose, transpose_transpose]
  rw [Matrix.neg_mul, Matrix.mul_neg, Matrix.mul_assoc, hR.1, Matrix.mul_one]

/-! ### adjacency and hat -/

lemma adjacency_eq (T : Vec6) : adjacency T = blk (skew (ang T)) 0 (skew (lin T)) (skew (ang T)) := by
  ext i j; fin_cases i <;> fin_cases j <;> simp [adjacency, blk, skew, ang, lin]

lemma hat_eq (T : Vec6) : hat T = mkh (skew (ang T)) (lin T) := by
  ext i j; fin_cases i <;> fin_cases j <;> simp [hat, mkh, skew, ang, lin]

lemma hat_inj {T U : Vec6} (h : hat T = hat U) : T = U := by
  have h21 := congrFun (congrFun h 2) 1
  have h02 := congrFun (congrFun h 0) 2
  have h10 := congrFun (congrFun h 1) 0
  have h03 := congrFun (congrFun h 0) 3
  have h13 := congrFun (congrFun h 1) 3
  have h23 := congrFun (congrFun h 2) 3
  simp [hat] at h21 h02 h10 h03 h13 h23
  ext i; fin_cases i <;> simp [*]

lemma hat_add (T U : Vec6) : hat (T + U) = hat T + hat U := by
  ext i j; fin_cases i <;> fin_cases j <;> simp [hat] <;> ring
lemma hat_neg (T : Vec6) : hat (-T) = -hat T := by
  ext i j; fin_cases i <;> fin_cases j <;> simp [hat]
lemma hat_zero : hat 0 = 0 := by
  ext i j; fin_cases i <;> fin_cases j <;> simp [hat]
lemma hat_smul (c : ℝ) (T : Vec6) : hat (c • T) = c • hat T := by
  ext i j; fin_cases i <;> fin_cases j <;> simp [hat]

lemma adjacency_add (T U : Vec6) : adjacency (T + U) = adjacency T + adjacency U := by
  ext i j; fin_cases i <;> fin_cases j <;> simp [adjacency] <;> ring
lemma adjacency_neg (T : Vec6) : adjacency (-T) = -adjacency T := by
  ext i j; fin_cases i <;> fin_cases j <;> simp [adjacency]
lemma adjacency_zero : adjacency 0 = 0 := by
  ext i j; fin_cases i <;> fin_cases j <;> simp [adjacency]
lemma adjacency_self (T : Vec6) : adjacency T *ᵥ T = 0 := by
  ext i; fin_cases i <;> simp [adjacency, Matrix.mulVec, dotProduct, Fin.sum_univ_six] <;> ring

/-- `H hat(T) = hat(Ad_H T) H`. -/
lemma Spec.IsRigid.mul_hat {H : Mat4} (h : IsRigid H) (T : Vec6) :
    H * hat T = hat (adjointBody H *ᵥ T) * H := by
  obtain ⟨R, p, hR, rfl⟩ := isRigid_iff.mp h
  rw [← tw_ang_lin T]
  generalize ang T = w
  generalize lin T = v
  rw [adjointBody_mkH, blk_mulVec, hat_eq, hat_eq]
  simp only [ang_tw, lin_tw, Matrix.zero_mulVec, add_zero, mkH_mul_mkh, mkh_mul]
  rw [hR.skew_mul]
  congr 1
  have : skew (R *ᵥ w) *ᵥ p = -((skew p * R) *ᵥ w) := by
    rw [← Matrix.mulVec_mulVec, Arboris.skew_mulVec, Arboris.skew_mulVec, cross_anticomm]
  rw [this]; simp

/-- `Ad_H ad(T) = ad(Ad_H T) Ad_H`. -/
lemma Spec.IsRigid.adjoint_mul_adjacency {H : Mat4} (h : IsRigid H) (T : Vec6) :
    adjointBody H * adjacency T = adjacency (adjointBody H *ᵥ T) * adjointBody H := by
  obtain ⟨R, p, hR, rfl⟩ := isRigid_iff.mp h
  rw [← tw_ang_lin T]
  generalize ang T = w
  generalize lin T = v
  rw [adjointBody_mkH, blk_mulVec, adjacency_eq, adjacency_eq]
  simp only [ang_tw, lin_tw, Matrix.zero_mulVec, add_zero, blk_mul]
  simp only [Matrix.zero_mul, Matrix.mul_zero, add_zero, zero_add]
  rw [hR.skew_mul]
  congr 1
  rw [skew_add, Matrix.add_mul, hR.skew_mul, ← Matrix.mulVec_mulVec, Arboris.skew_mulVec p,
    skew_cross, Matrix.sub_mul]
  simp only [Matrix.mul_assoc, hR.skew_mul]
  rw [← Matrix.mul_assoc (skew (R *ᵥ w))]
  abel

lemma Spec.IsRigid.hat_mul_inv {H : Mat4} (h : IsRigid H) (T : Vec6) :
    hat T * Arboris.invBody H = Arboris.invBody H * hat (adjointBody H *ᵥ T) := by
  have h1 := h.mul_hat T
  calc hat T * Arboris.invBody H = Arboris.invBody H * H * hat T * Arboris.invBody H := by
        rw [h.invBody_mul, Matrix.one_mul]
    _ = Arboris.invBody H * (H * hat T) * Arboris.invBody H := by simp only [Matrix.mul_assoc]
    _ = Arboris.invBody H * hat (adjointBody H *ᵥ T) * (H * Arboris.invBody H) := by
        rw [h1]; simp only [Matrix.mul_assoc]
    _ = _ := by rw [h.mul_invBody, Matrix.mul_one]

/-! ### derivative calculus, entrywise -/

section Deriv
variable {l m n : Type*}

lemma Spec.HasDeriv.const (A : Matrix m n ℝ) (t : ℝ) : HasDeriv (fun _ => A) 0 t :=
  fun _ _ => hasDerivAt_const t _

lemma Spec.HasDeriv.add {A B : ℝ → Matrix m n ℝ} {A' B' : Matrix m n ℝ} {t : ℝ}
    (hA : HasDeriv A A' t) (hB : HasDeriv B B' t) : HasDeriv (fun s => A s + B s) (A' + B') t :=
  fun i j => (hA i j).add (hB i j)

lemma Spec.HasDeriv.sub {A B : ℝ → Matrix m n ℝ} {A' B' : Matrix m n ℝ} {t : ℝ}
    (hA : HasDeriv A A' t) (hB : HasDeriv B B' t) : HasDeriv (fun s => A s - B s) (A' - B') t :=
  fun i j => (hA i j).sub (hB i j)

lemma Spec.HasDeriv.neg {A : ℝ → Matrix m n ℝ} {A' : Matrix m n ℝ} {t : ℝ}
    (hA : HasDeriv A A' t) : HasDeriv (fun s => -A s) (-A') t :=
  fun i j => (hA i j).neg

lemma Spec.HasDeriv.transpose {A : ℝ → Matrix m n ℝ} {A' : Matrix m n ℝ} {t : ℝ}
    (hA : HasDeriv A A' t) : HasDeriv (fun s => (A s)ᵀ) A'ᵀ t :=
  fun i j => hA j i

lemma Spec.HasDeriv.mul [Fintype m] {A : ℝ → Matrix l m ℝ} {B : ℝ → Matrix m n ℝ} {A' : Matrix l m ℝ}
    {B' : Matrix m n ℝ} {t : ℝ} (hA : HasDeriv A A' t) (hB : HasDeriv B B' t) :
    HasDeriv (fun s => A s * B s) (A' * B t + A t * B') t := by
  intro i j
  have : HasDerivAt (fun s => ∑ k, A s i k * B s k j) (∑ k, (A' i k * B t k j + A t i k * B' k j)) t :=
    HasDerivAt.fun_sum fun k _ => (hA i k).mul (hB k j)
  rw [Finset.sum_add_distrib] at this
  simpa [Matrix.mul_apply] using this

lemma Spec.HasDeriv.mulVec [Fintype m] {A : ℝ → Matrix l m ℝ} {v : ℝ → m → ℝ} {A' : Matrix l m ℝ}
    {v' : m → ℝ} {t : ℝ} (hA : HasDeriv A A' t) (hv : HasDerivV v v' t) :
    HasDerivV (fun s => A s *ᵥ v s) (A' *ᵥ v t + A t *ᵥ v') t := by
  intro i
  have : HasDerivAt (fun s => ∑ k, A s i k * v s k) (∑ k, (A' i k * v t k + A t i k * v' k)) t :=
    HasDerivAt.fun_sum fun k _ => (hA i k).mul (hv k)
  rw [Finset.sum_add_distrib] at this
  simpa [Matrix.mulVec, dotProduct] using this

lemma Spec.HasDerivV.const (v : m → ℝ) (t : ℝ) : HasDerivV (fun _ => v) 0 t :=
  fun _ => hasDerivAt_const t _

lemma Spec.HasDerivV.add {v w : ℝ → m → ℝ} {v' w' : m → ℝ} {t : ℝ}
    (hv : HasDerivV v v' t) (hw : HasDerivV w w' t) : HasDerivV (fun s => v s + w s) (v' + w') t :=
  fun i => (hv i).add (hw i)

lemma Spec.HasDerivV.sub {v w : ℝ → m → ℝ} {v' w' : m → ℝ} {t : ℝ}
    (hv : HasDerivV v v' t) (hw : HasDerivV w w' t) : HasDerivV (fun s => v s - w s) (v' - w') t :=
  fun i => (hv i).sub (hw i)

lemma Spec.HasDerivV.neg {v : ℝ → m → ℝ} {v' : m → ℝ} {t : ℝ}
    (hv : HasDerivV v v' t) : HasDerivV (fun s => -v s) (-v') t :=
  fun i => (hv i).neg

lemma Spec.HasDerivV.dot [Fintype m] {v w : ℝ → m → ℝ} {v' w' : m → ℝ} {t : ℝ}
    (hv : HasDerivV v v' t) (hw : HasDerivV w w' t) :
    HasDerivAt (fun s => v s ⬝ᵥ w s) (v' ⬝ᵥ w t + v t ⬝ᵥ w') t := by
  have : HasDerivAt (fun s => ∑ k, v s k * w s k) (∑ k, (v' k * w t k + v t k * w' k)) t :=
    HasDerivAt.fun_sum fun k _ => (hv k).mul (hw k)
  rw [Finset.sum_add_distrib] at this
  simpa [dotProduct] using this

lemma Spec.HasDeriv.congr {A : ℝ → Matrix m n ℝ} {A' B' : Matrix m n ℝ} {t : ℝ}
    (hA : HasDeriv A A' t) (h : A' = B') : HasDeriv A B' t := h ▸ hA

lemma Spec.HasDeriv.unique {A : ℝ → Matrix m n ℝ} {A' B' : Matrix m n ℝ} {t : ℝ}
    (hA : HasDeriv A A' t) (hB : HasDeriv A B' t) : A' = B' := by
  ext i j; exact (hA i j).unique (hB i j)

lemma Spec.HasDerivV.congr {A : ℝ → m → ℝ} {A' B' : m → ℝ} {t : ℝ}
    (hA : HasDerivV A A' t) (h : A' = B') : HasDerivV A B' t := h ▸ hA

end Deriv

lemma Spec.HasDeriv.rot {H : ℝ → Mat4} {H' : Mat4} {t : ℝ} (h : HasDeriv H H' t) :
    HasDeriv (fun s => rot (H s)) (rot H') t := fun _ _ => h _ _

lemma Spec.HasDeriv.pos {H : ℝ → Mat4} {H' : Mat4} {t : ℝ} (h : HasDeriv H H' t) :
    HasDerivV (fun s => pos (H s)) (pos H') t := fun _ => h _ _

lemma Spec.HasDerivV.skew {p : ℝ → Vec3} {p' : Vec3} {t : ℝ} (h : HasDerivV p p' t) :
    HasDeriv (fun s => skew (p s)) (skew p') t := by
  intro i j
  fin_cases i <;> fin_cases j <;> simp only [Arboris.skew] <;>
    first
      | exact hasDerivAt_const t _
      | exact h _
      | exact (h _).neg

lemma Spec.HasDeriv.blk {A B C D : ℝ → Mat3} {A' B' C' D' : Mat3} {t : ℝ} (hA : HasDeriv A A' t)
    (hB : HasDeriv B B' t) (hC : HasDeriv C C' t) (hD : HasDeriv D D' t) :
    HasDeriv (fun s => blk (A s) (B s) (C s) (D s)) (blk A' B' C' D') t := by
  intro i j
  simp only [Arboris.blk, submatrix_apply]
  rcases e6.symm i with i | i <;> rcases e6.symm j with j | j <;>
    simp [hA i j, hB i j, hC i j, hD i j]

lemma Spec.HasDeriv.mkH {A : ℝ → Mat3} {v : ℝ → Vec3} {A' : Mat3} {v' : Vec3} {t : ℝ} (hA : HasDeriv A A' t)
    (hv : HasDerivV v v' t) :
    HasDeriv (fun s => Arboris.mkH (A s) (v s)) (mkh A' v') t := by
  intro i j
  simp only [Arboris.mkH, mkh, submatrix_apply]
  rcases e4.symm i with i | i <;> rcases e4.symm j with j | j <;>
    first
      | (simp; exact hA i j)
      | (simp; exact hv i)
      | (simp [hasDerivAt_const])

@[simp] lemma rot_mkh (A : Mat3) (v : Vec3) : rot (mkh A v) = A := by
  ext i j; simp [rot, mkh]
@[simp] lemma pos_mkh (A : Mat3) (v : Vec3) : pos (mkh A v) = v := by
  ext i; simp [pos, mkh]

/-- components of a motion with a given twist: `R' = R w×`, `p' = R v` -/
lemma Spec.HasTwist.rot_pos {H : ℝ → Mat4} {T : Vec6} {t : ℝ} (hr : IsRigid (H t)) (h : HasTwist H T t) :
    HasDeriv (fun s => rot (H s)) (rot (H t) * skew (ang T)) t ∧
    HasDerivV (fun s => pos (H s)) (rot (H t) *ᵥ lin T) t := by
  have e : H t * hat T = mkh (rot (H t) * skew (ang T)) (rot (H t) *ᵥ lin T) := by
    rw [hat_eq]; nth_rw 1 [hr.eq_mkH]; rw [mkH_mul_mkh]
  unfold HasTwist at h
  rw [e] at h
  exact ⟨by simpa using h.rot, by simpa using h.pos⟩

/-- time derivative of the adjoint -/
lemma Spec.HasTwist.adjoint {H : ℝ → Mat4} {T : Vec6} {t : ℝ} (hr : IsRigid (H t)) (h : HasTwist H T t) :
    HasDeriv (fun s => adjointBody (H s)) (adjointBody (H t) * adjacency T) t := by
  obtain ⟨h1, h2⟩ := h.rot_pos hr
  have h3 := HasDeriv.blk h1 (HasDeriv.const 0 t) ((HasDerivV.skew h2).mul h1) h1
  refine h3.congr ?_
  rw [adjacency_eq]
  simp only [adjointBody, blk_mul]
  congr 1
  · simp
  · simp
  · rw [hr.rotation.skew_mul, Matrix.mul_assoc, add_comm]
  · simp

/-- the inverse motion has twist `-Ad_H T` -/
lemma Spec.HasTwist.inv {H : ℝ → Mat4} {T : Vec6} {t : ℝ} (hr : IsRigid (H t)) (h : HasTwist H T t) :
    HasTwist (fun s => invBody (H s)) (-(adjointBody (H t) *ᵥ T)) t := by
  obtain ⟨h1, h2⟩ := h.rot_pos hr
  unfold HasTwist
  have h3 := HasDeriv.mkH h1.transpose ((h1.transpose.mulVec h2).neg)
  refine HasDeriv.congr h3 ?_
  rw [hat_neg, Matrix.mul_neg, ← hr.hat_mul_inv, hat_eq]
  simp only [invBody, mkh_mul, transpose_mul, skew_transpose]
  have e : (rot (H t))ᵀ *ᵥ (rot (H t) *ᵥ lin T) = lin T := by
    rw [Matrix.mulVec_mulVec, hr.rotation.2.1, Matrix.one_mulVec]
  rw [e]
  have : ∀ (A : Mat3) (v : Vec3), -mkh A v = mkh (-A) (-v) := by
    intro A v; ext i j; fin_cases i <;> fin_cases j <;> simp [mkh]
  rw [this]
  congr 1
  · simp
  · simp only [Matrix.neg_mul, Matrix.neg_mulVec, Matrix.mulVec_neg, ← Matrix.mulVec_mulVec]

lemma Spec.HasTwist.mul {H K : ℝ → Mat4} {T U : Vec6} {t : ℝ} (hK : IsRigid (K t))
    (h : HasTwist H T t) (k : HasTwist K U t) :
    HasTwist (fun s => H s * K s) (adjointBody (invBody (K t)) *ᵥ T + U) t := by
  have h1 := HasDeriv.mul h k
  refine HasDeriv.congr h1 ?_
  rw [hat_add, Matrix.mul_add]
  congr 1
  · have := (hK.invBody).hat_mul_inv T
    rw [hK.invBody_invBody] at this
    rw [Matrix.mul_assoc, this, ← Matrix.mul_assoc]
  · rw [Matrix.mul_assoc]

lemma Spec.HasTwist.const {H : Mat4} (t : ℝ) : HasTwist (fun _ => H) 0 t := by
  unfold HasTwist
  rw [hat_zero, Matrix.mul_zero]; exact HasDeriv.const H t

end Arboris
