import Verif.Model.Simulate

/-!
# Model of `PerfMonitor` (observers.py:96-168)

The clock `time.time` is a parameter: `clk k` is its reading during the `k`-th call made by `simulate` (the model does not
assume that it increases).  The text of the summary is represented by the four numbers it shows.
-/

universe u

namespace Arboris.Sim

/-- `_logger is not None`, `_last_time`, `_computation_time`, and the times written by the logger -/
structure Perf where
  log : Bool
  last : Option ℝ
  times : List ℝ
  logged : List ℝ

/-- observers.py:121-134 `__init__` -/
def Perf.new (log : Bool) : Perf := ⟨log, none, [], []⟩

/-- observers.py:136-138 `init`: the list of the computation times is kept -/
def Perf.init (p : Perf) (now : ℝ) : Perf := { p with last := some now }

/-- observers.py:140-146 `update`; `time` is `self._world.current_time` -/
noncomputable def Perf.update (p : Perf) (now time : ℝ) : Except PyErr Perf :=
  match p.last with
  | none => .error .typeError
  | some l => .ok { p with times := p.times ++ [now - l], last := some now, logged := if p.log then p.logged ++ [time] else p.logged }

/-- the effect of the `k`-th call of `simulate` on the monitor in position `i` (observers.py:148-149: `finish` does nothing) -/
noncomputable def Perf.on {W : Type u} (clk : ℕ → ℝ) (i : ℕ) (p : Perf) (ek : Ev W × ℕ) : Except PyErr Perf :=
  match ek.1 with
  | .obsInit j _ _ _ => .ok (if j = i then p.init (clk ek.2) else p)
  | .obsUpdate j _ time _ => if j = i then p.update (clk ek.2) time else .ok p
  | _ => .ok p

/-- Python's `min` and `max` of a non-empty list -/
noncomputable def pyMin (x : ℝ) (l : List ℝ) : ℝ := l.foldl (fun a b => if b < a then b else a) x
noncomputable def pyMax (x : ℝ) (l : List ℝ) : ℝ := l.foldl (fun a b => if a < b then b else a) x

/-- observers.py:159-168 `get_summary`: total, min, mean, max.  `min([])` raises `ValueError`. -/
noncomputable def Perf.summary (p : Perf) : Except PyErr (ℝ × ℝ × ℝ × ℝ) :=
  match p.times with
  | [] => .error .valueError
  | x :: l => .ok (p.times.foldl (· + ·) 0, pyMin x l, p.times.foldl (· + ·) 0 / p.times.length, pyMax x l)

end Arboris.Sim
