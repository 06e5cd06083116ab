import Verif.Spec.Motion
import Mathlib.LinearAlgebra.Matrix.PosDef

/-!
# Specification vocabulary: masses
-/

namespace Arboris.Spec
open Matrix

/-- `M` is the mass matrix, about the origin of its frame, of a rigid body of mass `m`, centre of mass `c` and
(symmetric) inertia tensor `I` about the origin: kinetic energy `½ TᵀMT` for a twist `T = [w, v]`, `v` the velocity of
the origin. -/
structure IsRigidMass (M : Mat6) (m : ℝ) (c : Vec3) (I : Mat3) : Prop where
  symm : Iᵀ = I
  eq : M = blk I (m • skew c) (-(m • skew c)) (m • 1)

/-- Symmetric positive semi-definite, over the reals, in elementary terms. -/
def SymPSD {n : Type} [Fintype n] (M : Matrix n n ℝ) : Prop := Mᵀ = M ∧ ∀ x, 0 ≤ x ⬝ᵥ M *ᵥ x
/-- Symmetric positive definite. -/
def SymPD {n : Type} [Fintype n] (M : Matrix n n ℝ) : Prop := Mᵀ = M ∧ ∀ x, x ≠ 0 → 0 < x ⬝ᵥ M *ᵥ x

/-- Newton–Euler bias wrench in body coordinates of a body of mass matrix `M` and twist `T`: with
`L, P` the angular and linear momenta, `[w×L + v×P, w×P]`. -/
def newtonEulerBias (M : Mat6) (T : Vec6) : Vec6 :=
  let L := ang (M *ᵥ T)
  let P := lin (M *ᵥ T)
  tw (ang T ⨯₃ L + lin T ⨯₃ P) (ang T ⨯₃ P)

end Arboris.Spec
