import Verif.Basic
import Mathlib.Analysis.Calculus.Deriv.Basic
import Mathlib.Analysis.Matrix.Normed

/-!
# Specification vocabulary: rigid motions, twists, motions in time

Nothing here refers to the model of the code.
-/

namespace Arboris.Spec
open Matrix Arboris

/-- `R` is a rotation matrix. -/
def IsRotation (R : Mat3) : Prop := R * Rᵀ = 1 ∧ Rᵀ * R = 1 ∧ R.det = 1

/-- `H` is the matrix of a rigid motion of space: a rotation `R`, a translation `p`, last row `[0,0,0,1]`. -/
def IsRigid (H : Mat4) : Prop :=
  IsRotation (Matrix.of fun i j : Fin 3 => H i.castSucc j.castSucc) ∧
  H 3 0 = 0 ∧ H 3 1 = 0 ∧ H 3 2 = 0 ∧ H 3 3 = 1

/-- The 4×4 matrix `[[w×, v], [0, 0]]` of a twist `[w, v]`. -/
def hat (T : Vec6) : Mat4 :=
  !![   0, -T 2,  T 1, T 3;
      T 2,    0, -T 0, T 4;
     -T 1,  T 0,    0, T 5;
        0,    0,    0,   0]

/-- `M' ` is the derivative of the matrix-valued function `M` at time `t`, entry by entry. -/
def HasDeriv {m n : Type*} (M : ℝ → Matrix m n ℝ) (M' : Matrix m n ℝ) (t : ℝ) : Prop :=
  ∀ i j, HasDerivAt (fun s => M s i j) (M' i j) t

/-- `v'` is the derivative of the vector-valued function `v` at time `t`, entry by entry. -/
def HasDerivV {m : Type*} (v : ℝ → m → ℝ) (v' : m → ℝ) (t : ℝ) : Prop :=
  ∀ i, HasDerivAt (fun s => v s i) (v' i) t

/-- At time `t`, the moving frame `H(·)` has body twist `T`: `H' = H·hat(T)`. -/
def HasTwist (H : ℝ → Mat4) (T : Vec6) (t : ℝ) : Prop := HasDeriv H (H t * hat T) t

end Arboris.Spec
