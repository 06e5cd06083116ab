import Verif.Model.Collada
import Verif.Spec.Collada

/-! # Specification of the messages to the viewer: what can be read in the stream of characters -/

namespace Arboris.Spec
open Log Visu

/-- the pieces of a text between the separators `c` -/
def pieces (c : Char) : List Char → List (List Char)
  | [] => [[]]
  | x :: l => if x = c then [] :: pieces c l else
    match pieces c l with
    | [] => [[x]]
    | a :: r => (x :: a) :: r

/-- A line is the name of a node and the first three lines of its matrix, separated by spaces; `rd` reads a number. -/
noncomputable def readLine (rd : List Char → ℝ) (l : List Char) : Option (String × Mat4) :=
  match pieces ' ' l with
  | name :: nums => if nums.length = 12 then some (String.ofList name, Matrix.of fun i j =>
      if i = 3 then (if j = 3 then 1 else 0) else ((nums[4 * (i : ℕ) + j]?).map rd).getD 0) else none
  | [] => none

/-- the matrices given by a text, line by line (other lines are ignored) -/
noncomputable def readText (rd : List Char → ℝ) (s : List Char) : List (String × Mat4) := (pieces '\n' s).filterMap (readLine rd)

/-- the last matrix given to the node `s` -/
def lastOf (told : List (String × Mat4)) (s : String) : Option Mat4 := (told.reverse.find? fun a => a.1 = s).map Prod.snd

/-- the scene once the viewer has been told: the nodes that have been named have the last matrix given to them -/
def obey (told : List (String × Mat4)) (ids : List (Option String)) (nodes : List Node) : List Node :=
  List.zipWith (fun (id : Option String) (n : Node) => { n with pose := (id.bind (lastOf told)).getD n.pose }) ids nodes

/-- what is to be told of the world at a step -/
def truth (flat : Bool) (w : LWorld) (names : ℕ → Option String) (v : View) : List (String × Mat4) :=
  (if flat then w.bodies.map fun b => ((names b).getD "", v.pose b) else w.joints.map fun j => ((names (w.frame1 j)).getD "", v.pose j)) ++
  w.moving.map fun f => ((names f).getD "", if flat then v.pose f else v.bpose f)

end Arboris.Spec
