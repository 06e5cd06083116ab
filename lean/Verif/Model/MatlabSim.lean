import Verif.Model.Matlab

/-!
# Model of `MatlabSimulationGenerator` (`matlab/convert_py2mat.py:160-233`)

Numbers are reals: the rounding of `arange` (whose last element may then be off by one) is not modelled.
-/

namespace Arboris.Matlab
open Graph Build

noncomputable section

/-- `numpy.arange(start, stop, step)`: `ceil((stop - start)/step)` elements, none if that is negative; a null step is a
`ZeroDivisionError` -/
def arange (start stop step : ℝ) : Except PyErr (List ℝ) :=
  if step = 0 then .error .zeroDivision
  else .ok ((List.range ⌈(stop - start) / step⌉.toNat).map fun i : ℕ => start + i * step)

open Classical in
/-- `(a == b).all()` for two vectors: arrays of different lengths compare to the Boolean `False`, that has no method `all`
(in the versions of numpy for Python 2), unless one has a single element -/
def equalAll (a b : List ℝ) : Except PyErr Bool :=
  if a.length = b.length then .ok (decide (a = b))
  else if a.length = 1 then .ok (decide (∀ x ∈ b, a = [x]))
  else if b.length = 1 then .ok (decide (∀ x ∈ a, b = [x]))
  else .error .attributeError

/-- convert_py2mat.py:179-184: `t_start`, `t_end` and `dt` -/
def readTimeline (timeline : List ℝ) : Except PyErr (ℝ × ℝ × ℝ) :=
  match timeline with
  | t0 :: t1 :: _ =>
    let dt := t1 - t0
    let t_end := timeline.getLastD 0 + dt
    match arange t0 t_end dt with
    | .error e => .error e
    | .ok l =>
      match equalAll l timeline with
      | .error e => .error e
      | .ok false => .error .runtimeError
      | .ok true => .ok (t0, t_end - 1.5 * dt, dt)
  | _ => .error .indexError

open Classical in
/-- convert_py2mat.py:191-199: the loop on the controllers; `weight a` is the gravity of the controller `a` if that is a
`WeightController` -/
def readGravity (weight : ℕ → Option ℝ) : List ℕ → ℝ → Except PyErr ℝ
  | [], g => .ok g
  | a :: l, g =>
    match weight a with
    | none => .error .runtimeError
    | some g' => if g ≠ 0 then .error .runtimeError else readGravity weight l g'

/-- convert_py2mat.py:176-233 `generate_simulation`; `up` is `world.up` -/
def generateSimulation (S : RS) (lim : ℕ) (up : Vec3) (weight : ℕ → Option ℝ) (timeline : List ℝ) (simu_name : String) : Gen Unit := do
  match readTimeline timeline with
  | .error e => throw e
  | .ok (t_start, t_end, dt) =>
    match (S.w.body S.w.ground).children with
    | [root] =>
      if S.w.constraints.length > 0 then throw .runtimeError
      match readGravity weight S.w.controllers 0 with
      | .error e => throw e
      | .ok g =>
        write (.sim t_start t_end dt [g * up 0, g * up 1, g * up 2, 0, 0, 0] simu_name)
        modify fun s => { s with bmap := [], vals := [] }
        makeRobot S lim root "robot"
    | _ => throw .runtimeError

end
end Arboris.Matlab
