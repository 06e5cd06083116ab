import Verif.Model.Simulate

/-! # Specification of a simulation run -/

universe u

namespace Arboris.Spec
open Sim

/-- `Steps E ts w obs w'`: starting from state `w` at time `t`, where `ts = t :: t' :: …`, the steps to `t'`, … lead to
`w'`; `obs` lists, for each step, its start time, its `dt`, and the state shown to the observers. -/
inductive Steps {W : Type u} (E : Engine W) : List ℝ → W → List (ℝ × ℝ × W) → W → Prop
  | done (t : ℝ) (w : W) : Steps E [t] w [] w
  | step {t t' : ℝ} {ts : List ℝ} {w a b c w' w'' : W} {obs : List (ℝ × ℝ × W)}
      (hdyn : E.dynamic w = .ok a) (hctrl : E.controllers (t' - t) a = .ok b)
      (hcons : E.constraints (t' - t) b = .ok c) (hint : E.integrate (t' - t) c = .ok w')
      (hrest : Steps E (t' :: ts) w' obs w'') : Steps E (t :: t' :: ts) w ((t, t' - t, c) :: obs) w''

/-- the calls of one step with `n` observers -/
def stepCalls {W : Type u} (n : ℕ) (o : ℝ × ℝ × W) : List (Ev W) :=
  [.dynamic o.1, .controllers o.2.1, .constraints o.2.1] ++
  (List.range n).map (fun i => .obsUpdate i o.2.1 o.1 o.2.2) ++ [.integrate o.2.1]

/-- all the calls of a run with `n` observers, from the state `w0` after `world.init()` -/
def runCalls {W : Type u} (n : ℕ) (t0 : ℝ) (w0 : W) (timeline : List ℝ) (obs : List (ℝ × ℝ × W)) : List (Ev W) :=
  [.worldInit] ++ (List.range n).map (fun i => .obsInit i t0 w0 timeline) ++ obs.flatMap (stepCalls n) ++
  (List.range n).map fun i => .obsFinish i

end Arboris.Spec
