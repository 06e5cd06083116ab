import Verif.Model.Simulate

/-!
# `simulate` with observers that have a state and may raise (core.py:1444-1503)

`Model/Simulate.lean` records the calls of the observers; here they are made.  An observer reads the world and `world.current_time`
and changes its own attributes only; an exception of an observer leaves `simulate` at once, the world staying as it is.
-/

universe u v

namespace Arboris.Sim

/-- an `Observer` (core.py:1444-1460): each method returns its new state and the exception it raises, if any -/
structure Obs (W : Type u) (S : Type v) where
  /-- `init(world, timeline)`; the first argument is `world.current_time` -/
  init : ℝ → W → List ℝ → S → S × Option PyErr
  /-- `update(dt)`; arguments `dt`, `world.current_time`, the world -/
  update : ℝ → ℝ → W → S → S × Option PyErr
  /-- `finish()` -/
  finish : S → S × Option PyErr

/-- where in `simulate` an observer raises: core.py:1490, 1498, 1502 -/
inductive Phase
  | init | update | finish

/-- how `simulate` ends.  `done`: it returns; `stopped`: an observer has raised; the world and its time are those a caller that
catches the exception finds, with the states of the observers.  `broken`: a method of the world has raised, or `timeline` is
empty; the world is then not described. -/
inductive Out (W : Type u) (S : Type v)
  | done (w : W) (time : ℝ) (os : List (Obs W S × S))
  | stopped (ph : Phase) (w : W) (time : ℝ) (os : List (Obs W S × S)) (e : PyErr)
  | broken (e : PyErr)

/-- `for obs in observers_list: obs.…(…)`, core.py:1489-1490, 1497-1498, 1501-1502 -/
def eachObs {W : Type u} {S : Type v} (f : Obs W S → S → S × Option PyErr) : List (Obs W S × S) → List (Obs W S × S) × Option PyErr
  | [] => ([], none)
  | (o, s) :: r =>
    match f o s with
    | (s', some e) => ((o, s') :: r, some e)
    | (s', none) => ((o, s') :: (eachObs f r).1, (eachObs f r).2)

noncomputable section

open Classical in
/-- the loop over `timeline[1:]` and what follows it, core.py:1492-1502 -/
def loopO {W : Type u} {S : Type v} (E : Engine W) : List ℝ → W → ℝ → List (Obs W S × S) → Out W S
  | [], w, time, os =>
    match eachObs (fun o s => o.finish s) os with
    | (os', some e) => .stopped .finish w time os' e
    | (os', none) => .done w time os'
  | next :: rest, w, time, os =>
    let dt := next - time
    match E.dynamic w with
    | .error e => .broken e
    | .ok a =>
      match (if 0 < dt then E.controllers dt a else .error .assertion) with
      | .error e => .broken e
      | .ok b =>
        match E.constraints dt b with
        | .error e => .broken e
        | .ok c =>
          match eachObs (fun o s => o.update dt time c s) os with
          | (os', some e) => .stopped .update c time os' e
          | (os', none) =>
            match (if 0 < dt then E.integrate dt c else .error .assertion) with
            | .error e => .broken e
            | .ok w' => loopO E rest w' (time + dt) os'

/-- `simulate(world, timeline, observers)`, core.py:1479-1502 -/
def simulateO {W : Type u} {S : Type v} (E : Engine W) (w : W) (timeline : List ℝ) (os : List (Obs W S × S)) : Out W S :=
  match timeline with
  | [] => .broken .indexError
  | t0 :: rest =>
    match E.init w with
    | .error e => .broken e
    | .ok w0 =>
      match eachObs (fun o s => o.init t0 w0 timeline s) os with
      | (os', some e) => .stopped .init w0 t0 os' e
      | (os', none) => loopO E rest w0 t0 os'

end
end Arboris.Sim
