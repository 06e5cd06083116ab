import Verif.Model.Collada

/-! # Specification: the mass a Collada `rigid_body` describes -/

namespace Arboris.Spec
open Visu

/-- an angle given in degrees -/
noncomputable def radians (x : ℝ) : ℝ := x * (Real.pi / 180)

/-- the turn of the `mass_frame`: `rotate 0 0 1 z`, then `rotate 0 1 0 y`, then `rotate 1 0 0 x` (degrees), each in the
frame turned so far -/
noncomputable def turn (z y x : ℝ) : Mat3 :=
  !![Real.cos (radians z), -Real.sin (radians z), 0; Real.sin (radians z), Real.cos (radians z), 0; 0, 0, 1] *
  !![Real.cos (radians y), 0, Real.sin (radians y); 0, 1, 0; -Real.sin (radians y), 0, Real.cos (radians y)] *
  !![1, 0, 0; 0, Real.cos (radians x), -Real.sin (radians x); 0, Real.sin (radians x), Real.cos (radians x)]

/-- the mass matrix of a body of mass `m`, centre of mass `c`, principal axes the columns of `Q`, principal moments `d`
(parallel axes) -/
noncomputable def principalMass (m : ℝ) (c : Vec3) (Q : Mat3) (d : Vec3) : Mat6 :=
  blk (Q * Matrix.diagonal d * Q.transpose - m • (skew c * skew c)) (m • skew c) (-(m • skew c)) (m • 1)

/-- the mass matrix described by a `rigid_body` element -/
noncomputable def elemMass (e : RigidBodyElem) : Mat6 := principalMass e.mass e.translate (turn e.rotZ e.rotY e.rotX) e.inertia

end Arboris.Spec
