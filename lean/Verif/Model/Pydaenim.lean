import Verif.Model.Daenim

/-!
# Model of `pydaenimCom` (visu/__init__.py:21-68)

A message is the value given to `json.dumps`: the command, the time, and the dictionary; its text is not modelled, except that
`json.dumps` writes the key `None` as `"null"`.  The constructor (viewer, socket) is not modelled.
-/

namespace Arboris.Pydaenim
open Log Visu Daenim

/-- the value of a message: `["update_transforms", time, {name: [12 numbers]}]` -/
structure Msg where
  command : String
  time : ℝ
  frames : PDict String (List ℝ)

/-- the key of an object: its name; `json.dumps` writes the key `None` as `"null"` -/
def key (names : ℕ → Option String) (i : ℕ) : String := (names i).getD "null"

/-- visu/__init__.py:44-57 -/
def message (flat : Bool) (w : LWorld) (names : ℕ → Option String) (v : View) : Msg :=
  let d := if flat then w.bodies.foldl (fun d b => PDict.set d (key names b) (entries (v.pose b))) []
    else w.joints.foldl (fun d j => PDict.set d (key names (w.frame1 j)) (entries (v.pose j))) []
  ⟨"update_transforms", v.time, w.moving.foldl (fun d f => PDict.set d (key names f) (entries (if flat then v.pose f else v.bpose f))) d⟩

/-- the messages sent, and is the viewer there? -/
structure Socket where
  sent : List Msg
  up : Bool

/-- visu/__init__.py:41-63 `update`: any exception of `send_message` is caught, and a line is printed (second component) -/
def update (flat : Bool) (w : LWorld) (names : ℕ → Option String) (c : Socket) (v : View) : Socket × Bool :=
  if c.up then ({ c with sent := c.sent ++ [message flat w names v] }, false) else (c, true)

/-- visu/__init__.py:35-38 `init`: nothing is sent, and nothing gets a name -/
def init (names : ℕ → Option String) : ℕ → Option String := names

/-- visu/__init__.py:66-67 `finish` -/
def finish (c : Socket) : Except PyErr Socket := .ok c

end Arboris.Pydaenim
