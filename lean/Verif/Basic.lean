import Mathlib.Data.Matrix.Block
import Mathlib.Data.Matrix.Mul
import Mathlib.LinearAlgebra.Matrix.NonsingularInverse
import Mathlib.LinearAlgebra.CrossProduct
import Mathlib.Analysis.Real.Sqrt
import Mathlib.Tactic.Ring
import Mathlib.Tactic.LinearCombination
import Mathlib.Tactic.FinCases
import Mathlib.Tactic.NormNum
import Mathlib.Tactic.Linarith

/-!
# Basic vocabulary: arrays, slices and blocks

numpy arrays of fixed shape are Mathlib matrices over `ℝ` (exact arithmetic: floating point rounding is not
modelled).  The block accessors below are the numpy slices `H[0:3,0:3]`, `H[0:3,3]`, `A[0:3,3:6]`, `T[0:3]` …
used all over arboris; the block constructors are the slice *assignments* into a zero array.
-/

namespace Arboris

open Matrix

abbrev Vec3 := Fin 3 → ℝ
abbrev Vec6 := Fin 6 → ℝ
abbrev Mat3 := Matrix (Fin 3) (Fin 3) ℝ
abbrev Mat4 := Matrix (Fin 4) (Fin 4) ℝ
abbrev Mat6 := Matrix (Fin 6) (Fin 6) ℝ

/-- Python exceptions that the modelled code can raise. -/
inductive PyErr
  | assertion | valueError | typeError | keyError | indexError | notImplemented | linAlgError
  | zeroDivision | attributeError | duplicateName | runtimeError | recursionError | nameError | socketError | unicodeError
  deriving DecidableEq, Repr

/-- Index of row/column `i` of the first 3-block of a 6-array (`[0:3]`). -/
def e6 : Fin 3 ⊕ Fin 3 ≃ Fin 6 := finSumFinEquiv
/-- Index equivalence of `[0:3]` and `[3:4]` in a 4-array. -/
def e4 : Fin 3 ⊕ Fin 1 ≃ Fin 4 := finSumFinEquiv

@[simp] lemma e6_inl_0 : e6 (Sum.inl 0) = 0 := rfl
@[simp] lemma e6_inl_1 : e6 (Sum.inl 1) = 1 := rfl
@[simp] lemma e6_inl_2 : e6 (Sum.inl 2) = 2 := rfl
@[simp] lemma e6_inr_0 : e6 (Sum.inr 0) = 3 := rfl
@[simp] lemma e6_inr_1 : e6 (Sum.inr 1) = 4 := rfl
@[simp] lemma e6_inr_2 : e6 (Sum.inr 2) = 5 := rfl
@[simp] lemma e6_symm_0 : e6.symm 0 = Sum.inl 0 := rfl
@[simp] lemma e6_symm_1 : e6.symm 1 = Sum.inl 1 := rfl
@[simp] lemma e6_symm_2 : e6.symm 2 = Sum.inl 2 := rfl
@[simp] lemma e6_symm_3 : e6.symm 3 = Sum.inr 0 := rfl
@[simp] lemma e6_symm_4 : e6.symm 4 = Sum.inr 1 := rfl
@[simp] lemma e6_symm_5 : e6.symm 5 = Sum.inr 2 := rfl
@[simp] lemma e4_inl_0 : e4 (Sum.inl 0) = 0 := rfl
@[simp] lemma e4_inl_1 : e4 (Sum.inl 1) = 1 := rfl
@[simp] lemma e4_inl_2 : e4 (Sum.inl 2) = 2 := rfl
@[simp] lemma e4_inr_0 : e4 (Sum.inr 0) = 3 := rfl
@[simp] lemma e4_symm_0 : e4.symm 0 = Sum.inl 0 := rfl
@[simp] lemma e4_symm_1 : e4.symm 1 = Sum.inl 1 := rfl
@[simp] lemma e4_symm_2 : e4.symm 2 = Sum.inl 2 := rfl
@[simp] lemma e4_symm_3 : e4.symm 3 = Sum.inr 0 := rfl

/-! ### 4×4 -/

/-- `H[0:3, 0:3]` -/
def rot (H : Mat4) : Mat3 := Matrix.of fun i j => H (e4 (Sum.inl i)) (e4 (Sum.inl j))
/-- `H[0:3, 3]` -/
def pos (H : Mat4) : Vec3 := fun i => H (e4 (Sum.inl i)) 3
/-- `H = zeros((4,4)); H[0:3,0:3] = R; H[0:3,3] = p; H[3,3] = 1` -/
def mkH (R : Mat3) (p : Vec3) : Mat4 :=
  (fromBlocks R (Matrix.of fun i (_ : Fin 1) => p i) 0 1).submatrix e4.symm e4.symm
/-- 4×4 matrix with last row zero: `[[A, v], [0, 0]]`. -/
def mkh (A : Mat3) (v : Vec3) : Mat4 :=
  (fromBlocks A (Matrix.of fun i (_ : Fin 1) => v i) 0 0).submatrix e4.symm e4.symm

/-! ### 6×6 and 6-vectors -/

/-- `A = zeros((6,6)); A[0:3,0:3] = A₁₁; A[0:3,3:6] = A₁₂; A[3:6,0:3] = A₂₁; A[3:6,3:6] = A₂₂` -/
def blk (A B C D : Mat3) : Mat6 := (fromBlocks A B C D).submatrix e6.symm e6.symm
/-- `A[0:3,0:3]` -/
def b11 (A : Mat6) : Mat3 := Matrix.of fun i j => A (e6 (Sum.inl i)) (e6 (Sum.inl j))
/-- `A[0:3,3:6]` -/
def b12 (A : Mat6) : Mat3 := Matrix.of fun i j => A (e6 (Sum.inl i)) (e6 (Sum.inr j))
/-- `A[3:6,0:3]` -/
def b21 (A : Mat6) : Mat3 := Matrix.of fun i j => A (e6 (Sum.inr i)) (e6 (Sum.inl j))
/-- `A[3:6,3:6]` -/
def b22 (A : Mat6) : Mat3 := Matrix.of fun i j => A (e6 (Sum.inr i)) (e6 (Sum.inr j))
/-- `T[0:3]`, the angular part of a twist -/
def ang (T : Vec6) : Vec3 := fun i => T (e6 (Sum.inl i))
/-- `T[3:6]`, the linear part of a twist -/
def lin (T : Vec6) : Vec3 := fun i => T (e6 (Sum.inr i))
/-- the 6-vector `[w, v]` -/
def tw (w v : Vec3) : Vec6 := fun i => Sum.elim w v (e6.symm i)

/-- cross-product matrix of a vector: the literal array
`[[0,-p[2],p[1]],[p[2],0,-p[0]],[-p[1],p[0],0]]` used in homogeneousmatrix.py:381-384,
twistvector.py:59-62 and core.py:1397-1400. -/
def skew (p : Vec3) : Mat3 :=
  !![0, -p 2, p 1; p 2, 0, -p 0; -p 1, p 0, 0]

/-! ### Algebra of blocks -/

@[simp] lemma rot_mkH (R : Mat3) (p : Vec3) : rot (mkH R p) = R := by
  ext i j; simp [rot, mkH]
@[simp] lemma pos_mkH (R : Mat3) (p : Vec3) : pos (mkH R p) = p := by
  ext i; simp [pos, mkH]
@[simp] lemma b11_blk (A B C D : Mat3) : b11 (blk A B C D) = A := by ext i j; simp [b11, blk]
@[simp] lemma b12_blk (A B C D : Mat3) : b12 (blk A B C D) = B := by ext i j; simp [b12, blk]
@[simp] lemma b21_blk (A B C D : Mat3) : b21 (blk A B C D) = C := by ext i j; simp [b21, blk]
@[simp] lemma b22_blk (A B C D : Mat3) : b22 (blk A B C D) = D := by ext i j; simp [b22, blk]
@[simp] lemma ang_tw (w v : Vec3) : ang (tw w v) = w := by ext i; simp [ang, tw]
@[simp] lemma lin_tw (w v : Vec3) : lin (tw w v) = v := by ext i; simp [lin, tw]
@[simp] lemma tw_ang_lin (T : Vec6) : tw (ang T) (lin T) = T := by
  ext i; fin_cases i <;> simp [ang, lin, tw]
@[simp] lemma blk_eta (A : Mat6) : blk (b11 A) (b12 A) (b21 A) (b22 A) = A := by
  ext i j; fin_cases i <;> fin_cases j <;> simp [blk, b11, b12, b21, b22]

lemma blk_mul (A B C D A' B' C' D' : Mat3) :
    blk A B C D * blk A' B' C' D' =
      blk (A * A' + B * C') (A * B' + B * D') (C * A' + D * C') (C * B' + D * D') := by
  simp only [blk, Matrix.submatrix_mul_equiv, fromBlocks_multiply]
lemma blk_one : blk 1 0 0 1 = (1 : Mat6) := by
  simp [blk]
lemma blk_zero : blk 0 0 0 0 = (0 : Mat6) := by
  simp [blk]
lemma blk_transpose (A B C D : Mat3) : (blk A B C D)ᵀ = blk Aᵀ Cᵀ Bᵀ Dᵀ := by
  simp [blk, fromBlocks_transpose]
lemma blk_add (A B C D A' B' C' D' : Mat3) :
    blk A B C D + blk A' B' C' D' = blk (A + A') (B + B') (C + C') (D + D') := by
  ext i j; fin_cases i <;> fin_cases j <;> simp [blk]
lemma blk_neg (A B C D : Mat3) : -blk A B C D = blk (-A) (-B) (-C) (-D) := by
  ext i j; fin_cases i <;> fin_cases j <;> simp [blk]
lemma blk_smul (c : ℝ) (A B C D : Mat3) :
    c • blk A B C D = blk (c • A) (c • B) (c • C) (c • D) := by
  ext i j; fin_cases i <;> fin_cases j <;> simp [blk]
lemma blk_sub (A B C D A' B' C' D' : Mat3) :
    blk A B C D - blk A' B' C' D' = blk (A - A') (B - B') (C - C') (D - D') := by
  ext i j; fin_cases i <;> fin_cases j <;> simp [blk]
lemma blk_inj {A B C D A' B' C' D' : Mat3} :
    blk A B C D = blk A' B' C' D' ↔ A = A' ∧ B = B' ∧ C = C' ∧ D = D' := by
  constructor
  · intro h
    refine ⟨?_, ?_, ?_, ?_⟩
    · simpa using congrArg b11 h
    · simpa using congrArg b12 h
    · simpa using congrArg b21 h
    · simpa using congrArg b22 h
  · rintro ⟨rfl, rfl, rfl, rfl⟩; rfl
lemma blk_mulVec (A B C D : Mat3) (w v : Vec3) :
    blk A B C D *ᵥ tw w v = tw (A *ᵥ w + B *ᵥ v) (C *ᵥ w + D *ᵥ v) := by
  ext i; fin_cases i <;>
    simp [blk, tw, Matrix.mulVec, dotProduct, Fin.sum_univ_six, Fin.sum_univ_three] <;> ring
lemma tw_add (w v w' v' : Vec3) : tw w v + tw w' v' = tw (w + w') (v + v') := by
  ext i; fin_cases i <;> simp [tw]
lemma tw_neg (w v : Vec3) : -tw w v = tw (-w) (-v) := by
  ext i; fin_cases i <;> simp [tw]
lemma tw_smul (c : ℝ) (w v : Vec3) : c • tw w v = tw (c • w) (c • v) := by
  ext i; fin_cases i <;> simp [tw]
lemma tw_zero : tw 0 0 = 0 := by
  ext i; fin_cases i <;> simp [tw]
lemma tw_dot (w v w' v' : Vec3) : tw w v ⬝ᵥ tw w' v' = w ⬝ᵥ w' + v ⬝ᵥ v' := by
  simp [tw, dotProduct, Fin.sum_univ_six, Fin.sum_univ_three]; ring

lemma mkH_mul (R R' : Mat3) (p p' : Vec3) :
    mkH R p * mkH R' p' = mkH (R * R') (R *ᵥ p' + p) := by
  simp only [mkH, Matrix.submatrix_mul_equiv, fromBlocks_multiply]
  congr 1
  ext i j
  rcases i with i | i <;> rcases j with j | j <;>
    simp [Matrix.mul_apply, Matrix.mulVec, dotProduct]
lemma mkH_one : mkH 1 0 = (1 : Mat4) := by
  ext i j; fin_cases i <;> fin_cases j <;> simp [mkH]
lemma mkH_inj {R R' : Mat3} {p p' : Vec3} : mkH R p = mkH R' p' ↔ R = R' ∧ p = p' := by
  constructor
  · intro h; exact ⟨by simpa using congrArg rot h, by simpa using congrArg pos h⟩
  · rintro ⟨rfl, rfl⟩; rfl
lemma mkh_mul (A : Mat3) (v : Vec3) (R' : Mat3) (p' : Vec3) :
    mkh A v * mkH R' p' = mkh (A * R') (A *ᵥ p' + v) := by
  simp only [mkH, mkh, Matrix.submatrix_mul_equiv, fromBlocks_multiply]
  congr 1
  ext i j
  rcases i with i | i <;> rcases j with j | j <;>
    simp [Matrix.mul_apply, Matrix.mulVec, dotProduct]
lemma mkH_mul_mkh (R : Mat3) (p : Vec3) (A : Mat3) (v : Vec3) :
    mkH R p * mkh A v = mkh (R * A) (R *ᵥ v) := by
  simp only [mkH, mkh, Matrix.submatrix_mul_equiv, fromBlocks_multiply]
  congr 1
  ext i j
  rcases i with i | i <;> rcases j with j | j <;>
    simp [Matrix.mul_apply, Matrix.mulVec, dotProduct]

/-! ### Cross-product matrix -/

lemma skew_mulVec (p v : Vec3) : skew p *ᵥ v = p ⨯₃ v := by
  ext i; fin_cases i <;> simp [skew, Matrix.mulVec, dotProduct, Fin.sum_univ_three, cross_apply] <;> ring
lemma skew_transpose (p : Vec3) : (skew p)ᵀ = -skew p := by
  ext i j; fin_cases i <;> fin_cases j <;> simp [skew]
lemma skew_add (p q : Vec3) : skew (p + q) = skew p + skew q := by
  ext i j; fin_cases i <;> fin_cases j <;> simp [skew] <;> ring
lemma skew_neg (p : Vec3) : skew (-p) = -skew p := by
  ext i j; fin_cases i <;> fin_cases j <;> simp [skew]
lemma skew_smul (c : ℝ) (p : Vec3) : skew (c • p) = c • skew p := by
  ext i j; fin_cases i <;> fin_cases j <;> simp [skew]
lemma skew_zero : skew 0 = 0 := by
  ext i j; fin_cases i <;> fin_cases j <;> simp [skew]
lemma skew_inj {p q : Vec3} (h : skew p = skew q) : p = q := by
  have h1 := congrFun (congrFun h 2) 1
  have h2 := congrFun (congrFun h 0) 2
  have h3 := congrFun (congrFun h 1) 0
  simp [skew] at h1 h2 h3
  ext i; fin_cases i <;> simp [*]
/-- `[a×b]× = a× b× − b× a×` -/
lemma skew_cross (a b : Vec3) : skew (a ⨯₃ b) = skew a * skew b - skew b * skew a := by
  ext i j; fin_cases i <;> fin_cases j <;>
    simp [skew, cross_apply] <;> ring
lemma skew_mulVec_self (p : Vec3) : skew p *ᵥ p = 0 := by
  rw [skew_mulVec]; exact cross_self p

end Arboris
