import Verif.Model.Homogeneous

/-! # Model of `arboris/rigidmotion.py` and of the Denavit–Hartenberg helper of `robots/icub.py` -/

namespace Arboris
open Matrix Real

noncomputable section

/-- rigidmotion.py:10-38.  The abstract class `RigidMotion`: `pose` (line 30) and `twist` (line 42) are given by
the concrete object; the remaining attributes are derived.  Assertions inside `Hg.inv` / `Hg.adjoint` are
discharged separately (they hold whenever `pose` is a rigid motion, see C03/C05). -/
structure RigidMotion where
  pose : Mat4
  twist : Vec6

namespace RigidMotion
variable (m : RigidMotion)

/-- rigidmotion.py:35-39 -/
def ipose : Mat4 := invBody m.pose
/-- rigidmotion.py:51-53 -/
def adjoint : Mat6 := adjointBody m.pose
/-- rigidmotion.py:55-57 -/
def iadjoint : Mat6 := adjointBody m.ipose
/-- rigidmotion.py:47-49 -/
def itwist : Vec6 := -(m.iadjoint *ᵥ m.twist)
/-- rigidmotion.py:59-61 -/
def adjacency : Mat6 := Arboris.adjacency m.twist
/-- rigidmotion.py:63-65 -/
def iadjacency : Mat6 := Arboris.adjacency m.itwist
/-- rigidmotion.py:67-69 -/
def dadjoint : Mat6 := m.adjoint * m.adjacency
/-- rigidmotion.py:71-73 -/
def idadjoint : Mat6 := m.iadjoint * m.iadjacency

end RigidMotion

/-- robots/icub.py:12-23 -/
def T_DH (d t r a : ℝ) : Mat4 :=
  !![cos t, -sin t * cos a, sin t * sin a , r * cos t;
     sin t, cos t * cos a , -cos t * sin a, r * sin t;
     0    , sin a         , cos a         , d        ;
     0    , 0             , 0             , 1        ]

end
end Arboris
