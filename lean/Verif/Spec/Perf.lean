import Verif.Model.Simulate

/-! # Specification of the performance monitor -/

universe u

namespace Arboris.Spec
open Sim

/-- does `simulate` call `init` or `update` of the observer in position `i`? -/
def wakes {W : Type u} (i : ℕ) : Ev W → Bool
  | .obsInit j _ _ _ => j = i
  | .obsUpdate j _ _ _ => j = i
  | _ => false

/-- the readings of the clock when the `init` and `update` of the observer in position `i` are called; `tr` lists the calls made
by `simulate`, the `k`-th being made at the time `clk k` -/
def stamps {W : Type u} (clk : ℕ → ℝ) (i : ℕ) (tr : List (Ev W)) : List ℝ :=
  (tr.zipIdx.filter fun ek => wakes i ek.1).map fun ek => clk ek.2

/-- the durations between successive readings -/
def gaps : List ℝ → List ℝ
  | a :: b :: l => (b - a) :: gaps (b :: l)
  | _ => []

end Arboris.Spec
