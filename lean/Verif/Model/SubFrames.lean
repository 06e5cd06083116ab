import Verif.Model.Homogeneous

/-!
# Model of the `bpose` arrays of `SubFrame` and `MovingSubFrame` (core.py:1077-1171)

4×4 arrays live in a heap.  The constructor stores the *reference* it is given (core.py:1113-1114); `bpose` returns a copy
(core.py:1157-1159, 1163-1165); the setter of `MovingSubFrame` writes into the stored array (core.py:1167-1170).
-/

namespace Arboris.SubFrames

noncomputable section

/-- arrays, the next new array, the arrays the program holds a reference to, and for each frame its class
(`true` = `MovingSubFrame`) and `_bpose` reference; the next new frame -/
structure St where
  mem : ℕ → Mat4
  fresh : ℕ
  held : ℕ → Bool
  frame : ℕ → Option (Bool × ℕ)
  nframes : ℕ

/-- a program that has done nothing yet -/
def St.empty : St := ⟨fun _ => 0, 0, fun _ => false, fun _ => none, 0⟩

/-- what a program can do -/
inductive Op where
  /-- `a = array(H)` -/
  | newArray (H : Mat4)
  /-- `a[:] = H` (or any in-place change) -/
  | write (a : ℕ) (H : Mat4)
  /-- `SubFrame(body)` / `MovingSubFrame(body)`: `bpose = eye(4)`, a new array -/
  | makeDefault (moving : Bool)
  /-- `SubFrame(body, a)` / `MovingSubFrame(body, a)` -/
  | make (moving : Bool) (a : ℕ)
  /-- `c = f.bpose`, keeping the returned array -/
  | read (f : ℕ)
  /-- `f.bpose = H` -/
  | assign (f : ℕ) (H : Mat4)

open Classical in
/-- effect of an operation; a program can only write to arrays it holds -/
def Op.run (s : St) : Op → Except PyErr St
  | .newArray H => .ok { s with
      mem := Function.update s.mem s.fresh H, held := Function.update s.held s.fresh true, fresh := s.fresh + 1 }
  | .write a H => if s.held a then .ok { s with mem := Function.update s.mem a H } else .error .runtimeError
  | .makeDefault m => .ok { s with
      mem := Function.update s.mem s.fresh 1, fresh := s.fresh + 1,
      frame := Function.update s.frame s.nframes (some (m, s.fresh)), nframes := s.nframes + 1 }
  | .make m a =>
    if s.held a then
      if ishomogeneousmatrix (s.mem a) then
        .ok { s with frame := Function.update s.frame s.nframes (some (m, a)), nframes := s.nframes + 1 }
      else .error .assertion
    else .error .runtimeError
  | .read f => match s.frame f with
    | none => .error .runtimeError
    | some (_, a) => .ok { s with
      mem := Function.update s.mem s.fresh (s.mem a), held := Function.update s.held s.fresh true, fresh := s.fresh + 1 }
  | .assign f H => match s.frame f with
    | none => .error .runtimeError
    | some (false, _) => .error .attributeError
    | some (true, a) =>
      if ishomogeneousmatrix H then .ok { s with mem := Function.update s.mem a H } else .error .assertion

/-- a program goes on after an exception (it may catch it): the state is then unchanged -/
def runAll (s : St) (l : List Op) : St := l.foldl (fun s op => match op.run s with | .ok s' => s' | .error _ => s) s

/-- `f.bpose` -/
def St.bpose (s : St) (f : ℕ) : Option Mat4 := (s.frame f).map fun x => s.mem x.2

end
end Arboris.SubFrames
