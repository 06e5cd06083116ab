import Verif.Basic

/-!
# Model of the generalized-velocity buffers: `World.init` / `World.integrate` (core.py:684-709, 1063-1070)

numpy arrays live in a heap of buffers; a one-dimensional array object is a *view* `(buffer, start, length)`.  Basic
slicing `a[s:e]` makes a view on the same buffer, `zeros(n)` a new buffer, `a[:] = v` writes through the view, and
`obj.attr = a` only rebinds the attribute.
-/

namespace Arboris.Views

/-- a one-dimensional array object -/
structure View where
  buf : ℕ
  start : ℕ
  len : ℕ
  deriving DecidableEq, Repr

/-- buffers (with the number of the next new buffer), `World._gvel`, and for each joint its `gvel` attribute and the
start of its `dof` slice -/
structure St where
  mem : ℕ → ℕ → ℝ
  fresh : ℕ
  world : View
  gvel : ℕ → View
  start : ℕ → ℕ

/-- element `i` of an array -/
def St.get (s : St) (v : View) (i : ℕ) : ℝ := s.mem v.buf (v.start + i)

/-- `v[:] = x` (lengths equal) -/
def St.fill (s : St) (v : View) (x : ℕ → ℝ) : St :=
  { s with mem := fun b k => if b = v.buf ∧ v.start ≤ k ∧ k < v.start + v.len then x (k - v.start) else s.mem b k }

/-- `v[i] = x` -/
def St.set (s : St) (v : View) (i : ℕ) (x : ℝ) : St :=
  { s with mem := fun b k => if b = v.buf ∧ k = v.start + i then x else s.mem b k }

/-- `zeros(n)` -/
def St.alloc (s : St) (n : ℕ) : View × St :=
  (⟨s.fresh, 0, n⟩, { s with mem := fun b k => if b = s.fresh then 0 else s.mem b k, fresh := s.fresh + 1 })

/-- core.py:701-703: one turn of the loop, the joint's slice starting at `a`:
`self._gvel[j.dof] = j.gvel[:]; j.gvel = self._gvel[j.dof]`.  A `gvel` of the wrong size cannot be broadcast
(`ValueError`), except that size 1 is repeated. -/
def bindStep (ndof : ℕ → ℕ) (s : St) (j a : ℕ) : Except PyErr St :=
  let v : View := ⟨s.world.buf, s.world.start + a, ndof j⟩
  if (s.gvel j).len = ndof j then
    .ok { s.fill v (s.get (s.gvel j)) with gvel := Function.update s.gvel j v, start := Function.update s.start j a }
  else if (s.gvel j).len = 1 then
    .ok { s.fill v (fun _ => s.get (s.gvel j) 0) with
          gvel := Function.update s.gvel j v, start := Function.update s.start j a }
  else .error .valueError

/-- core.py:684-703 over the joints in iteration order, starting at dof `a` -/
def bindAll (ndof : ℕ → ℕ) : St → ℕ → List ℕ → Except PyErr St
  | s, _, [] => .ok s
  | s, a, j :: js => do
    let s ← bindStep ndof s j a
    bindAll ndof s (a + ndof j) js

/-- number of dofs (core.py:686-690) -/
def total (ndof : ℕ → ℕ) (js : List ℕ) : ℕ := (js.map ndof).sum

/-- core.py:684-703 `World.init`: a new `_gvel` of zeros, then the loop -/
def init (ndof : ℕ → ℕ) (js : List ℕ) (s : St) : Except PyErr St :=
  let r := s.alloc (total ndof js)
  bindAll ndof { r.2 with world := r.1 } 0 js

/-- core.py:1068-1069: `for j in self.iterjoints(): j.integrate(self._gvel[j.dof], dt)`; every `integrate`
(core.py:288-290, joints.py:64-66) starts with `self.gvel = gvel`.  (`FixedJoint.integrate`, joints.py:106-107, does
not, but its `gvel` is empty.) -/
def rebindAll (ndof : ℕ → ℕ) (js : List ℕ) (s : St) : St :=
  { s with gvel := fun j => if j ∈ js then ⟨s.world.buf, s.world.start + s.start j, ndof j⟩ else s.gvel j }

/-- core.py:1063-1069 `World.integrate`, the velocity part: `new` is the value computed from the old `_gvel` -/
def integrate (ndof : ℕ → ℕ) (js : List ℕ) (s : St) (new : (ℕ → ℝ) → ℕ → ℝ) : St :=
  rebindAll ndof js (s.fill s.world (new (s.get s.world)))

/-- core.py:735-737 `World.gvel`: a copy (a new buffer) -/
def worldGvel (s : St) : View × St :=
  let r := s.alloc s.world.len
  (r.1, r.2.fill r.1 (s.get s.world))

/-- `joint.gvel = array(x)` : the attribute is rebound to a new array -/
def assign (s : St) (j n : ℕ) (x : ℕ → ℝ) : St :=
  let r := s.alloc n
  { r.2.fill r.1 x with gvel := Function.update s.gvel j r.1 }

end Arboris.Views
