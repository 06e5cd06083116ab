import Verif.Basic

/-!
# Model of `simulate` (core.py:1463-1503) and of `_Recorder` (observers.py:534-570)

The world's operations are parameters (they are modelled elsewhere); each may raise.  Observers only read: their calls
are recorded in a trace, together with what they can see of the world (its state and `current_time`).
-/

universe u v

namespace Arboris.Sim

/-- the world's methods used by `simulate`.  `controllers dt` is the part of `update_controllers` after `assert dt > 0`. -/
structure Engine (W : Type u) where
  init : W → Except PyErr W
  dynamic : W → Except PyErr W
  controllers : ℝ → W → Except PyErr W
  constraints : ℝ → W → Except PyErr W
  integrate : ℝ → W → Except PyErr W

/-- calls made by `simulate`; observers are numbered by their position, and an observer's `update` sees the world -/
inductive Ev (W : Type u) where
  | worldInit
  | obsInit (i : ℕ) (time : ℝ) (w : W) (timeline : List ℝ)
  | dynamic (time : ℝ)
  | controllers (dt : ℝ)
  | constraints (dt : ℝ)
  | obsUpdate (i : ℕ) (dt : ℝ) (time : ℝ) (w : W)
  | integrate (dt : ℝ)
  | obsFinish (i : ℕ)

/-- the `observers` argument: something that can be iterated again and again (list, tuple, dict), or a one-shot iterator;
only the number of observers matters here -/
inductive Observers where
  | list (n : ℕ)
  | oneShot (n : ℕ)

/-- what the first `for obs in observers_list` sees -/
def Observers.first : Observers → ℕ
  | .list n => n
  | .oneShot n => n

/-- what the following loops see -/
def Observers.later : Observers → ℕ
  | .list n => n
  | .oneShot _ => 0

/-- a call of `f` appended to the trace: the call itself is recorded even if it raises -/
def call {W : Type u} {α : Type v} (tr : List (Ev W)) (e : Ev W) (r : Except PyErr α) (k : List (Ev W) → α → List (Ev W) × Except PyErr (W × ℝ)) :
    List (Ev W) × Except PyErr (W × ℝ) :=
  match r with
  | .error x => (tr ++ [e], .error x)
  | .ok a => k (tr ++ [e]) a

noncomputable section

open Classical in
/-- core.py:1493-1500, the loop over `timeline[1:]`; `time` is `world.current_time`.  The assertion is the first line of
`update_controllers` (core.py:876); `integrate` asserts the same (core.py:1063) and then adds `dt` to the time
(core.py:1070). -/
def loop {W : Type u} (E : Engine W) (obs : ℕ) : List ℝ → List (Ev W) → W → ℝ → List (Ev W) × Except PyErr (W × ℝ)
  | [], tr, w, time => (tr, .ok (w, time))
  | next :: rest, tr, w, time =>
    let dt := next - time
    call tr (.dynamic time) (E.dynamic w) fun tr w =>
    call tr (.controllers dt) (if 0 < dt then E.controllers dt w else .error .assertion) fun tr w =>
    call tr (.constraints dt) (E.constraints dt w) fun tr w =>
    let tr := tr ++ (List.range obs).map fun i => .obsUpdate i dt time w
    call tr (.integrate dt) (if 0 < dt then E.integrate dt w else .error .assertion) fun tr w =>
    loop E obs rest tr w (time + dt)

/-- core.py:1479-1503 -/
def simulate {W : Type u} (E : Engine W) (w : W) (timeline : List ℝ) (obs : Observers) :
    List (Ev W) × Except PyErr (W × ℝ) :=
  match timeline with
  | [] => ([], .error .indexError)
  | t0 :: rest =>
    call [] .worldInit (E.init w) fun tr w =>
    let tr := tr ++ (List.range obs.first).map fun i => .obsInit i t0 w timeline
    match loop E obs.later rest tr w t0 with
    | (tr, .error x) => (tr, .error x)
    | (tr, .ok r) => (tr ++ (List.range obs.later).map fun i => .obsFinish i, .ok r)

end

/-! ### `_Recorder` -/

/-- `_record`, `_index` -/
structure Recorder (α : Type v) where
  record : List (Option α)
  index : ℕ

/-- observers.py:548-550: `[None]*(len(timeline)-1)` (a negative count gives an empty list) -/
def Recorder.init {α : Type v} (timeline : List ℝ) : Recorder α := ⟨List.replicate (timeline.length - 1) none, 0⟩

/-- observers.py:555-558 `save_data` -/
def Recorder.save {α : Type v} (r : Recorder α) (x : α) : Except PyErr (Recorder α) :=
  if r.index < r.record.length then .ok ⟨r.record.set r.index (some x), r.index + 1⟩ else .error .indexError

/-- the effect of a call on the recorder in position `i`, recording `f` of the world -/
def Recorder.on {W : Type u} {α : Type v} (f : W → α) (i : ℕ) (r : Recorder α) : Ev W → Except PyErr (Recorder α)
  | .obsInit j _ _ timeline => .ok (if j = i then Recorder.init timeline else r)
  | .obsUpdate j _ _ w => if j = i then r.save (f w) else .ok r
  | _ => .ok r

end Arboris.Sim
