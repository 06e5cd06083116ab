import Verif.Model.Pydaenim
import Verif.Spec.Daenim

/-! # Specification of the messages of `pydaenimCom` -/

namespace Arboris.Spec
open Log Visu

/-- the matrix whose first three rows are the twelve numbers -/
noncomputable def matrixOf (l : List ℝ) : Mat4 := Matrix.of fun i j =>
  if i = 3 then (if j = 3 then 1 else 0) else (l[4 * (i : ℕ) + j]?).getD 0

/-- what a viewer reads in the dictionary of a message: names, with matrices -/
noncomputable def readDict (d : PDict String (List ℝ)) : List (String × Mat4) := d.map fun a => (a.1, matrixOf a.2)

/-- the messages sent during a run -/
def runMessages (flat : Bool) (w : LWorld) (names : ℕ → Option String) (c : Pydaenim.Socket) (views : List View) : Pydaenim.Socket :=
  views.foldl (fun c v => (Pydaenim.update flat w names c v).1) c

end Arboris.Spec
