import Verif.Model.Homogeneous

/-! # Model of `arboris/massmatrix.py` -/

namespace Arboris
open Matrix Real

noncomputable section

/-- `numpy.allclose(A, B)` with the default tolerances. -/
def allclose {m n : Type} (A B : Matrix m n ℝ) : Prop :=
  ∀ i j, |A i j - B i j| ≤ 1e-8 + 1e-5 * |B i j|

/-- `l` is one of `numpy.linalg.eigvals(M)` (real eigenvalues; a symmetric matrix has no other). -/
def IsEigval {n : Type} [Fintype n] (M : Matrix n n ℝ) (l : ℝ) : Prop := ∃ x : n → ℝ, x ≠ 0 ∧ M *ᵥ x = l • x

/-- massmatrix.py:11-26.  The shape test is enforced by the type. -/
def ismassmatrix (M : Mat6) (semi : Bool := false) : Prop :=
  allclose M Mᵀ ∧ allclose (b22 M) (M 3 3 • (1 : Mat3)) ∧
  ∀ l, IsEigval M l → if semi then 0 ≤ l else 0 < l

/-- massmatrix.py:69-70 -/
def transportBody (M : Mat6) (H : Mat4) : Mat6 :=
  let Ad := adjointBody H
  Adᵀ * (M * Ad)

open Classical in
/-- massmatrix.py:28-70 -/
def transport (M : Mat6) (H : Mat4) : Except PyErr Mat6 :=
  if ismassmatrix M then
    if ishomogeneousmatrix H then do
      let _ ← adjoint H
      return transportBody M H
    else .error .assertion
  else .error .assertion

/-- massmatrix.py:94-98: the central inertia `RSR` whose eigenvectors are computed at line 99 -/
def centralInertia (M : Mat6) : Mat3 :=
  let m := M 5 5
  let rx : Mat3 := m⁻¹ • b12 M
  b11 M + m • (rx * rx)

open Classical in
/-- massmatrix.py:94-107, where `R` is the matrix of eigenvectors returned by `eig(RSR)` at line 99 -/
def principalframeBody (M : Mat6) (R : Mat3) : Mat4 :=
  let m := M 5 5
  let rx : Mat3 := m⁻¹ • b12 M
  let p : Vec3 := ![rx 2 1, rx 0 2, rx 1 0]
  let iI : Mat3 := !![0, 0, 1; 0, 1, 0; 1, 0, 0]
  let R := if R.det < 0 then R * iI else R
  mkH R p

open Classical in
/-- massmatrix.py:73-107 -/
def principalframe (M : Mat6) (R : Mat3) : Except PyErr Mat4 :=
  if ismassmatrix M then .ok (principalframeBody M R) else .error .assertion

/-- `diag((a, b, c, m, m, m))` -/
def diag6 (a b c m : ℝ) : Mat6 := Matrix.diagonal ![a, b, c, m, m, m]

/-- massmatrix.py:109-131 -/
def massBox (x y z mass : ℝ) : Mat6 :=
  diag6 (mass/3*(y^2+z^2)) (mass/3*(x^2+z^2)) (mass/3*(x^2+y^2)) mass
/-- massmatrix.py:134-156 -/
def massEllipsoid (x y z mass : ℝ) : Mat6 :=
  diag6 (mass/5*(y^2+z^2)) (mass/5*(x^2+z^2)) (mass/5*(x^2+y^2)) mass
/-- massmatrix.py:158-180 -/
def massCylinder (length radius mass : ℝ) : Mat6 :=
  let L := length
  let R := radius
  let Itan := mass*(R^2/4 + L^2/12)
  let Iaxe := mass*R^2/2
  diag6 Itan Itan Iaxe mass
/-- massmatrix.py:182-201 -/
def massSphere (radius mass : ℝ) : Mat6 :=
  let I := 2*mass*radius^2/5
  diag6 I I I mass

end
end Arboris
