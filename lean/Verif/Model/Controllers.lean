import Verif.Model.Step

/-!
# Model of `controllers.py`
-/

namespace Arboris
open Matrix

noncomputable section

/-! ### WeightController (controllers.py:10-66) -/

open Classical in
/-- controllers.py:51 `norm(x.mass>0.)`: the Frobenius norm of the matrix of truth values; the body is kept when it is
not zero. -/
def weightNorm (M : Mat6) : ℝ := Real.sqrt (∑ i, ∑ j, (if 0 < M i j then (1 : ℝ) else 0) ^ 2)

/-- controllers.py:54-55 `_gravity_dtwist` -/
def gravityTwist (gravity : ℝ) (up : Vec3) : Vec6 := tw 0 (gravity • up)

open Classical in
/-- controllers.py:43-66 `WeightController.init` (the filter) and `update`, for the bodies below the ground in iteration
order with their current pose and jacobian.  `Hg.iadjoint` keeps its assertion. -/
def weightUpdateE {n : ℕ} (gravity : ℝ) (up : Vec3) (bs : List (Body × BodyDyn n)) : Except PyErr (CtrlVal n) := do
  let kept := bs.filter fun x => weightNorm x.1.mass ≠ 0
  let g ← kept.foldlM (init := (0 : Fin n → ℝ)) fun acc x => do
    let A ← iadjoint x.2.pose
    return acc + x.2.jacᵀ *ᵥ (x.1.mass *ᵥ (A *ᵥ gravityTwist gravity up))
  return ⟨g, 0⟩

/-! ### ProportionalDerivativeController (controllers.py:69-186) -/

/-- what the controller reads of a linear joint: `dof.start`, `ndof`, `gpos` (`gvel` is read but not used) -/
structure PDJoint where
  start : ℕ
  gpos : List ℝ

/-- `joint.ndof` is the size of `gpos` for a `LinearConfigurationSpaceJoint` -/
def PDJoint.ndof (j : PDJoint) : ℕ := j.gpos.length

/-- the attributes of the controller: the gains are indexed by the controlled dofs `0..cndof-1` -/
structure PDGains where
  kp : ℕ → ℕ → ℝ
  kd : ℕ → ℕ → ℝ
  gposDes : ℕ → ℝ
  gvelDes : ℕ → ℝ

/-- controllers.py:160-167 `_dof_map` -/
def pdDofMap (js : List PDJoint) : List ℕ := js.flatMap fun j => List.range' j.start j.ndof

/-- controllers.py:118-126 `_cndof` -/
def pdCndof (js : List PDJoint) : ℕ := (js.map PDJoint.ndof).sum

/-- controllers.py:174-179 `array(gpos).reshape(cndof)`: a list of arrays of the same length becomes a matrix, read row
by row; of different lengths it is an error (`array` itself in current numpy, `reshape` before). -/
def pdStack (js : List PDJoint) : Except PyErr (List ℝ) :=
  if ∀ j ∈ js, ∀ j' ∈ js, j.ndof = j'.ndof then .ok (js.flatMap PDJoint.gpos) else .error .valueError

/-- `a[map] = v` for an integer index array, on an array of zeros: assignments in order, the last one wins -/
def scatter {n : ℕ} (map : List ℕ) (v : ℕ → ℝ) : Fin n → ℝ := fun d =>
  (List.range map.length).foldl (fun acc i => if map.getD i n = d.val then v i else acc) 0

/-- `A[ix_(map, map)] = V` on a matrix of zeros -/
def scatter2 {n : ℕ} (map : List ℕ) (V : ℕ → ℕ → ℝ) : Matrix (Fin n) (Fin n) ℝ := Matrix.of fun d =>
  fun e => (List.range map.length).foldl (fun acc i =>
    if map.getD i n = d.val then scatter map (V i) e else acc) 0

/-- `dot(K, x)` -/
def pdDot (c : ℕ) (K : ℕ → ℕ → ℝ) (x : ℕ → ℝ) (i : ℕ) : ℝ := ∑ m ∈ Finset.range c, K i m * x m

/-- controllers.py:169-186 `update(dt)`.  An index outside the world raises `IndexError`; so does the index array made of
an empty list (it is an array of floats). -/
def pdUpdate (n : ℕ) (g : PDGains) (js : List PDJoint) (dt : ℝ) : Except PyErr (CtrlVal n) := do
  let gpos ← pdStack js
  let map := pdDofMap js
  let c := pdCndof js
  if map = [] ∨ ∃ d ∈ map, n ≤ d then .error .indexError
  else
    return ⟨scatter map fun i => pdDot c g.kp (fun m => g.gposDes m - gpos.getD m 0) i + pdDot c g.kd g.gvelDes i,
      scatter2 map fun i m => -(dt * g.kp i m + g.kd i m)⟩

end
end Arboris
