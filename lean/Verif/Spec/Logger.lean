import Verif.Model.Logger

/-! # Specification of the recorded data: the documentation of `SaveLogger` (observers.py:166-211) -/

namespace Arboris.Spec
open Log

/-- the multi-index is inside the shape -/
def InShape (idx shape : List ℕ) : Prop := List.Forall₂ (· < ·) idx shape

/-- the array of a matrix: entry `[i, j]` is that of line `i` and column `j` -/
noncomputable def matArray (H : Mat4) : Nd :=
  ⟨[4, 4], fun idx => match idx with
    | [i, j] => ∑ a : Fin 4, ∑ b : Fin 4, if (a : ℕ) = i ∧ (b : ℕ) = j then H a b else 0
    | _ => 0⟩

/-- The datasets announced by the documentation: `Documented cfg w name key shape q` when, for each step, a row of that
shape holds the values `q`. -/
inductive Documented (cfg : Cfg) (w : LWorld) (name : ℕ → String) : Key → List ℕ → (View → Nd) → Prop
  | timeline : Documented cfg w name (.timeline, "") [] fun v => ofReal v.time
  | gpos (h : cfg.state = true) {j : ℕ} (hj : j ∈ w.joints) :
      Documented cfg w name (.gpositions, name j) (w.gposShape j) fun v => v.gpos j
  | gvel (h : cfg.state = true) {j : ℕ} (hj : j ∈ w.joints) :
      Documented cfg w name (.gvelocities, name j) [w.jndof j] fun v => v.gvel j
  | body (h : cfg.transforms = true) (hf : cfg.flat = true) {b : ℕ} (hb : b ∈ w.bodies) :
      Documented cfg w name (.transforms, name b) [4, 4] fun v => matArray (v.pose b)
  | joint (h : cfg.transforms = true) (hf : cfg.flat = false) {j : ℕ} (hj : j ∈ w.joints) :
      Documented cfg w name (.transforms, name (w.frame1 j)) [4, 4] fun v => matArray (v.pose j)
  | movingFlat (h : cfg.transforms = true) (hf : cfg.flat = true) {f : ℕ} (hb : f ∈ w.moving) :
      Documented cfg w name (.transforms, name f) [4, 4] fun v => matArray (v.pose f)
  | movingRel (h : cfg.transforms = true) (hf : cfg.flat = false) {f : ℕ} (hb : f ∈ w.moving) :
      Documented cfg w name (.transforms, name f) [4, 4] fun v => matArray (v.bpose f)
  | wgvel (h : cfg.model = true) : Documented cfg w name (.model, "gvel") [w.ndof] fun v => v.wgvel
  | mass (h : cfg.model = true) : Documented cfg w name (.model, "mass") [w.ndof, w.ndof] fun v => v.mass
  | admittance (h : cfg.model = true) : Documented cfg w name (.model, "admittance") [w.ndof, w.ndof] fun v => v.admittance
  | nleffects (h : cfg.model = true) : Documented cfg w name (.model, "nleffects") [w.ndof, w.ndof] fun v => v.nleffects
  | gforce (h : cfg.model = true) : Documented cfg w name (.model, "gforce") [w.ndof] fun v => v.gforce

/-- the values seen have the announced shapes -/
structure Shaped (w : LWorld) (v : View) : Prop where
  gpos : ∀ j ∈ w.joints, (v.gpos j).shape = w.gposShape j
  gvel : ∀ j ∈ w.joints, (v.gvel j).shape = [w.jndof j]
  wgvel : v.wgvel.shape = [w.ndof]
  mass : v.mass.shape = [w.ndof, w.ndof]
  admittance : v.admittance.shape = [w.ndof, w.ndof]
  nleffects : v.nleffects.shape = [w.ndof, w.ndof]
  gforce : v.gforce.shape = [w.ndof]

/-- the array `a` stacks the values `q v`, `v` in `views`, of shape `shape` -/
def Stacks (a : Nd) (views : List View) (shape : List ℕ) (q : View → Nd) : Prop :=
  a.shape = views.length :: shape ∧
  ∀ (k : ℕ) (hk : k < views.length) (idx : List ℕ), InShape idx shape → a.val (k :: idx) = (q views[k]).val idx

/-- the objects that give their names to the transforms -/
def transformObjs (cfg : Cfg) (w : LWorld) : List ℕ :=
  (if cfg.flat then w.bodies else w.joints.map w.frame1) ++ w.moving

end Arboris.Spec
