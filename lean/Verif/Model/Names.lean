import Verif.Basic

/-!
# Model of `NamedObjectsList`, `DuplicateNameError`, `name_all_elements` (core.py:59-154)

Objects are numbered (their identity).  `Name` is `NamedObject.name`: `None` or a string.
-/

namespace Arboris.Names

/-- an element of a `NamedObjectsList`: a `NamedObject` with its name, or anything else -/
inductive Item where
  | named (id : ℕ) (name : Option String)
  | other (id : ℕ)
  deriving DecidableEq, Repr

/-- `isinstance(obj, NamedObject) and obj.name == name` -/
def Item.hasName (name : Option String) : Item → Bool
  | .named _ n => n == name
  | .other _ => false

/-- core.py:96-101 `find` -/
def find (l : List Item) (name : Option String) : List Item := l.foldl (fun r o => if o.hasName name then r ++ [o] else r) []

/-- core.py:106-109: the loop of `__getitem__` for a string -/
def getName : List Item → String → Except PyErr Item
  | [], _ => .error .keyError
  | o :: l, name => if o.hasName (some name) then .ok o else getName l name

/-- an index given to `__getitem__`: a string or an integer (slices: `getSlice`) -/
inductive Index where
  | str (s : String)
  | int (i : ℤ)

/-- Python's `list.__getitem__` for an integer -/
def getInt (l : List Item) (i : ℤ) : Except PyErr Item :=
  let k := if i < 0 then i + l.length else i
  if k < 0 then .error .indexError
  else match l[k.toNat]? with
    | some o => .ok o
    | none => .error .indexError

/-- core.py:103-111 `__getitem__` -/
def getItem (l : List Item) : Index → Except PyErr Item
  | .str s => getName l s
  | .int i => getInt l i

/-- Python's `slice.indices` (core.py:111 gives slices to `list`): the start, stop and step for a list of `n` elements -/
def sliceIndices (n : ℕ) (start stop step : Option ℤ) : Except PyErr (ℤ × ℤ × ℤ) :=
  let k := step.getD 1
  if k = 0 then .error .valueError
  else
    let lower : ℤ := if k < 0 then -1 else 0
    let upper : ℤ := if k < 0 then n - 1 else n
    let clip : ℤ → ℤ := fun i => if i < 0 then max (i + n) lower else min i upper
    .ok ((start.map clip).getD (if k < 0 then upper else lower), (stop.map clip).getD (if k < 0 then lower else upper), k)

/-- the number of elements of a slice (`PySlice_GetIndicesEx`) -/
def sliceLength (a b k : ℤ) : ℕ :=
  if k < 0 then if b < a then ((a - b - 1) / (-k) + 1).toNat else 0
  else if a < b then ((b - a - 1) / k + 1).toNat else 0

/-- core.py:111: `list.__getitem__` for a slice (for `l[i:j]`, Python 2 calls `list.__getslice__`, which does the same).  The result is a
plain `list`, not a `NamedObjectsList`. -/
def getSlice (l : List Item) (start stop step : Option ℤ) : Except PyErr (List Item) :=
  match sliceIndices l.length start stop step with
  | .error e => .error e
  | .ok (a, b, k) => .ok ((List.range (sliceLength a b k)).filterMap fun p : ℕ => l[(a + p * k).toNat]?)

/-- `list.__getitem__` of a plain list: strings are refused -/
def rawGetItem (l : List Item) : Index → Except PyErr Item
  | .str _ => .error .typeError
  | .int i => getInt l i

/-- a dictionary: pairs in insertion order -/
abbrev Dict := List (String × Item)

/-- dictionary lookup -/
def Dict.get? (d : Dict) (s : String) : Option Item := (d.find? fun p => p.1 == s).map Prod.snd

/-- core.py:121-128: one turn of the loop of `as_dict`.  `DuplicateNameError()` is called without the argument its
constructor requires (core.py:132-135): the exception raised is `TypeError`. -/
def asDictStep (d : Dict) : Item → Except PyErr Dict
  | .named id (some n) => if (Dict.get? d n).isNone then .ok (d ++ [(n, .named id (some n))]) else .error .typeError
  | _ => .ok d

/-- core.py:113-129 `as_dict` -/
def asDict (l : List Item) : Except PyErr Dict := l.foldlM asDictStep []

/-! ### name_all_elements -/

/-- the argument `nlist`: can be iterated again, or only once -/
inductive Seq where
  | list (l : List ℕ)
  | oneShot (l : List ℕ)

/-- what the first loop sees -/
def Seq.first : Seq → List ℕ
  | .list l => l
  | .oneShot l => l

/-- what the second loop sees -/
def Seq.second : Seq → List ℕ
  | .list l => l
  | .oneShot _ => []

/-- core.py:143-145: `if elem.name is None: elem.name = str(id(elem))`, `idStr` being `str(id(·))` -/
def nameLoop (idStr : ℕ → String) (names : ℕ → Option String) (l : List ℕ) : ℕ → Option String :=
  l.foldl (fun names e => if names e = none then Function.update names e (some (idStr e)) else names) names

/-- core.py:147-154: the duplicate check on the list of names: `none` if all names differ, otherwise the list in the
message (one occurrence of each name removed; the order in which the set is run through does not matter). -/
def dupCheck (l : List String) : Option (List String) :=
  if l.length ≠ l.dedup.length then some (l.dedup.foldl List.erase l) else none

/-- core.py:141-154 `name_all_elements`: the names after the call, and the raised `DuplicateNameError`'s list -/
def nameAll (idStr : ℕ → String) (names : ℕ → Option String) (nlist : Seq) (check : Bool) :
    (ℕ → Option String) × Option (List String) :=
  let names' := nameLoop idStr names nlist.first
  (names', if check then dupCheck (nlist.second.map fun e => (names' e).getD "") else none)

end Arboris.Names
