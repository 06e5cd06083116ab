import Verif.Model.Constraints

/-!
# `SoftFingerContact.solve` with its exceptions
-/

namespace Arboris
open Matrix

noncomputable section

open Classical in
/-- `SoftFingerContact.solve`, constraints.py:786-843, with the exceptions it can raise: `softSolve` is the total function used in the
sweeps of `update_constraints`.

* constraints.py:811-825: numpy's `2/a`, `dot(beta, beta.T)/(a**2)` and `self._mu/y_n` are `inf` or `nan` when they divide by zero
  (with a `RuntimeWarning`), the zeros of `E` turn `inf` into `nan`, and `eigvals` raises `LinAlgError` on an array which is not
  finite;
* constraints.py:841: `solve` raises `LinAlgError` on a singular matrix. -/
def softSolveE (pinv : Matrix (Fin 4) (Fin 4) ℝ → Matrix (Fin 4) (Fin 4) ℝ) (eps : Vec3) (mu sdist : ℝ)
    (force vel : Vec4) (Y : Matrix (Fin 4) (Fin 4) ℝ) (dt : ℝ) : Except PyErr (Vec4 × Vec4) :=
  let vel_no_force := vel - Y *ᵥ force
  if 0 < sdist + dt * vel_no_force 3 then
    .ok (0, -force)
  else
    let zero_tan_vel := vel + Pi.single 3 (sdist / dt)
    let dforce := (-(pinv Y)) *ᵥ zero_tan_vel
    let f := force + dforce
    if (f 0 / eps 0) ^ 2 + (f 1 / eps 1) ^ 2 + (f 2 / eps 2) ^ 2 ≤ (f 3 * mu) ^ 2 then
      .ok (f, dforce)
    else
      let alpha := vel - Y *ᵥ force + Pi.single 3 (sdist / dt)
      let y_n := Y 3 3
      if y_n = 0 then .error .linAlgError
      else
        let a := mu / y_n * alpha 3
        if a = 0 then .error .linAlgError
        else
          let s := softS (softB eps mu Y alpha)
          let A := Y - Matrix.diagonal ![s * (eps 0)⁻¹ ^ 2, s * (eps 1)⁻¹ ^ 2, s * (eps 2)⁻¹ ^ 2, 0]
          if A.det = 0 then .error .linAlgError
          else
            let f' := A⁻¹ *ᵥ (-alpha)
            .ok (f', f' - force)

end
end Arboris
