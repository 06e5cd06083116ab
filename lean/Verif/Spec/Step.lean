import Verif.Model.Step

/-!
# Specification vocabulary: constraints and the discretised equation of motion
-/

namespace Arboris.Spec
open Matrix

/-- What the solver needs from a constraint class: `solve` does not move the constraint (same jacobian) and returns
exactly the change of its force. -/
structure Lawful {n : ℕ} (c : ConClass n) : Prop where
  jac : ∀ s v Y dt, c.jac (c.solve s v Y dt).1 = c.jac s
  force : ∀ s v Y dt, c.force (c.solve s v Y dt).1 = c.force s + (c.solve s v Y dt).2

/-- `gvel'` is the velocity at the end of the step in the implicit scheme: with `Z = mass/dt + viscosity + nleffects - ΣZₐ`,
`Z gvel' = mass gvel/dt + F`. -/
def EquationOfMotion {n : ℕ} (mass viscosity nleffects sumZ : Matrix (Fin n) (Fin n) ℝ) (dt : ℝ)
    (gvel gvel' F : Fin n → ℝ) : Prop :=
  (dt⁻¹ • mass + viscosity + nleffects - sumZ) *ᵥ gvel' = dt⁻¹ • (mass *ᵥ gvel) + F

/-- total generalized force of a list of constraints: `Σ_c jacobianᵀ force` -/
def totalForce {n : ℕ} (cs : List (Con n)) : Fin n → ℝ :=
  (cs.map fun c => (c.cls.jac c.st)ᵀ *ᵥ c.cls.force c.st).sum

/-- `P` is the Moore–Penrose pseudo-inverse of `A`. -/
structure IsPinv {m n : Type} [Fintype m] [Fintype n] (A : Matrix m n ℝ) (P : Matrix n m ℝ) : Prop where
  apa : A * P * A = A
  pap : P * A * P = P
  sym1 : (A * P)ᵀ = A * P
  sym2 : (P * A)ᵀ = P * A

end Arboris.Spec
