import Verif.Model.Collada
import Verif.Model.Simulate

/-!
# Model of `SocketCom` and `DaenimCom` (observers.py:403-448, visu/visu_collada.py:160-236)

Binding the socket, starting the viewer and waiting for its connection have one result here: is somebody connected when `init`
returns (`accepted`)?  A connection carries the strings sent; `up` says whether the viewer still listens: a `send` fails
(`socket.error`) otherwise.  A `send` that does not fail sends everything.  `str` of a float is a parameter.
-/

namespace Arboris.Daenim
open Log Visu

/-- the twelve numbers `_H[0:3, :].reshape(12)` -/
def entries (H : Mat4) : List ℝ := (List.finRange 3).flatMap fun i => (List.finRange 4).map fun j => H (i.castLE (by norm_num)) j

/-- visu_collada.py:234-236 `packing_transform` -/
noncomputable def packing (str : ℝ → String) (name : String) (H : Mat4) : String :=
  " ".intercalate (name :: (entries H).map str) ++ "\n"

/-- visu_collada.py:212-227, the message of one `update` (the names have been given by `init`) -/
noncomputable def message (str : ℝ → String) (flat : Bool) (w : LWorld) (names : ℕ → Option String) (v : View) : String :=
  let msg := if flat then w.bodies.foldl (fun msg b => msg ++ packing str (nm names b) (v.pose b)) ""
    else w.joints.foldl (fun msg j => msg ++ packing str (nm names (w.frame1 j)) (v.pose j)) ""
  w.moving.foldl (fun msg f => msg ++ packing str (nm names f) (if flat then v.pose f else v.bpose f)) msg

/-- the accepted connection: what has been sent, and is the other end still there? -/
structure Conn where
  sent : List String
  up : Bool

/-- `self.conn.send(msg)`: `None` has no attribute `send` -/
def send (c : Option Conn) (msg : String) : Except PyErr (Option Conn) :=
  match c with
  | none => .error .attributeError
  | some c => if c.up then .ok (some { c with sent := c.sent ++ [msg] }) else .error .socketError

/-- visu_collada.py:186-210 `init`: the names, and the connection.  visu_collada.py:204-210 gives the same names as
`write_collada_scene`. -/
def init (idStr : ℕ → String) (flat : Bool) (w : LWorld) (names : ℕ → Option String) (accepted : Bool) :
    Except PyErr (Option Conn × (ℕ → Option String)) := do
  let names ← sceneNames idStr flat w names
  return (if accepted then some ⟨[], true⟩ else none, names)

/-- visu_collada.py:212-232 `update`: any exception of `send` is caught, and a line is printed (second component) -/
noncomputable def update (str : ℝ → String) (flat : Bool) (w : LWorld) (names : ℕ → Option String) (c : Option Conn) (v : View) : Option Conn × Bool :=
  match send c (message str flat w names v) with
  | .ok c => (c, false)
  | .error _ => (c, true)

/-- observers.py:443-448 `finish`: only `socket.error` is caught -/
def finish (c : Option Conn) : Except PyErr (Option Conn) :=
  match send c "close_connection" with
  | .ok c => .ok c
  | .error .socketError => .ok c
  | .error e => .error e

end Arboris.Daenim
