import Verif.Model.Joints

/-! # Model of `twistvector.exp` and `FreeJoint.integrate` -/

namespace Arboris
open Matrix Real

noncomputable section

/-- `numpy.outer(w, w)` -/
def outer3 (u v : Vec3) : Mat3 := Matrix.of fun i j => u i * v j

/-- twistvector.py:72-81: `R`, `p` and `H` from the three coefficients. -/
def expCoeffs (sc cc dsc : ℝ) (t : Vec6) : Mat4 :=
  let w := ang t
  let v := lin t
  let wx := skew w
  let R := 1 + sc • wx + cc • (wx * wx)
  let p := (sc • (1 : Mat3) + cc • wx + dsc • outer3 w w) *ᵥ v
  mkH R p

open Classical in
/-- twistvector.py:38-81 (the coefficients are lines 63-70) -/
def twistExp (tw : Vec6) : Mat4 :=
  let t := norm3 (ang tw)
  if 0.001 ≤ t then
    expCoeffs (sin t / t) ((1 - cos t) / t ^ 2) ((t - sin t) / t ^ 3) tw
  else
    expCoeffs (1 - t ^ 2 / 6) (1 / 2) (1 / 6) tw

/-- `FreeJoint.integrate(gvel, dt)`, joints.py:64-66: the new `gpos`. -/
def freeIntegrate (gpos : Mat4) (gvel : Vec6) (dt : ℝ) : Mat4 := gpos * twistExp (dt • gvel)

/-- A run of `FreeJoint.integrate` with the given successive `(gvel, dt)`. -/
def freeRun (gpos : Mat4) (steps : List (Vec6 × ℝ)) : Mat4 :=
  steps.foldl (fun H s => freeIntegrate H s.1 s.2) gpos

end
end Arboris
