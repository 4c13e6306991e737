import Mathlib.Data.Int.Basic
import Mathlib.Data.List.Basic

/-! # The drop-down and the file input of the demonstration

Model of gui_tools/demonstrator/QtShortCuts.py:250-282 (`QInputChoice`) and 329-387 (`QInputFilename`), on top of `QInput`
(QtShortCuts.py:70-140).  Of Qt it is assumed that a combo box shows its first entry once entries are added, that
`setCurrentIndex` of a number that is not the index of an entry shows no entry (`currentIndex()` is then -1), and that
`currentIndexChanged` is sent when the index has changed. -/

namespace QChoice

/-- A value, as a Python object: one of the `values` (or names) of the drop-down, or an index. -/
inductive Val (V : Type) where
  | obj (v : V)
  | idx (i : ℤ)
  deriving DecidableEq

/-- The arguments of the constructor that are kept (QtShortCuts.py:256-258); `names` is `values` if no names are given. -/
structure Cfg (V : Type) where
  byIndex : Bool
  values : List V
  names : List V

/-- The index the combo box shows, `last_emited_value`, and the values sent with `valueChanged`, the last one first. -/
structure St (V : Type) where
  index : ℤ
  last : Option (Val V)
  sent : List (Val V)

inductive Err where
  | value
  | index
  deriving DecidableEq

variable {V : Type} [DecidableEq V]

/-- `QComboBox.setCurrentIndex` of a combo box with `n` entries. -/
def clip (n : ℕ) (i : ℤ) : ℤ := if 0 ≤ i ∧ i < n then i else -1

/-- Python's `l[i]`. -/
def item (l : List V) (i : ℤ) : Except Err V :=
  match l[(if i < 0 then i + l.length else i).toNat]? with
  | some v => if i < 0 ∧ i + l.length < 0 then .error .index else .ok v
  | none => .error .index

/-- Python's `l.index(v)`. -/
def find (l : List V) (v : V) : Except Err ℕ := if v ∈ l then .ok (l.idxOf v) else .error .value

/-- QtShortCuts.py:278-282 `value`. -/
def value (c : Cfg V) (s : St V) : Except Err (Val V) :=
  if c.byIndex then .ok (.idx s.index)
  else (item c.values s.index).map .obj

/-- QtShortCuts.py:269-276 `_doSetValue` by `setValue` (QtShortCuts.py:127-132, no signals are handled meanwhile), without
`reference_by_index` for a value `v`. -/
def setObj (c : Cfg V) (s : St V) (v : V) : Except Err (St V) :=
  match find c.values v with
  | .ok i => .ok { s with index := clip c.names.length i }
  | .error _ => (find c.names v).map fun i => { s with index := clip c.names.length i }

/-- `setValue` with `reference_by_index` for a number. -/
def setIdx (c : Cfg V) (s : St V) (i : ℤ) : St V := { s with index := clip c.names.length i }

/-- `setValue` of a value that fits the kind of reference (any other one raises a TypeError or ValueError). -/
def setValue (c : Cfg V) (s : St V) : Val V → Except Err (St V)
  | .obj v => if c.byIndex then .error .value else setObj c s v
  | .idx i => if c.byIndex then .ok (setIdx c s i) else .error .value

/-- QtShortCuts.py:116-119 `_emitSignal`. -/
def emit (c : Cfg V) (s : St V) : Except Err (St V) :=
  (value c s).map fun v => if some v = s.last then s else { s with last := some v, sent := v :: s.sent }

/-- The user chooses the entry `i` of the list: `currentIndexChanged` calls `_valueChangedEvent(self.value())`
(QtShortCuts.py:263, 121-125). -/
def pick (c : Cfg V) (s : St V) (i : ℕ) : Except Err (St V) :=
  if (i : ℤ) = s.index then .ok s
  else do
    let s1 := { s with index := (i : ℤ) }
    let v ← value c s1
    let s2 ← setValue c s1 v
    emit c s2

/-- What happens to a drop-down: the user chooses an entry, or the program calls `setValue`. -/
inductive Act (V : Type) where
  | pick (i : ℕ)
  | program (v : Val V)

/-- A call that raises leaves the drop-down as it is. -/
def act (c : Cfg V) (s : St V) : Act V → St V
  | .pick i => match pick c s i with
    | .ok s' => s'
    | .error _ => s
  | .program v => match setValue c s v with
    | .ok s' => s'
    | .error _ => s

/-- QtShortCuts.py:252-267: a new drop-down; `addItems` shows the first entry, if there is one. -/
def new (c : Cfg V) (v : Option (Val V)) : Except Err (St V) :=
  let s : St V := ⟨if c.names = [] then -1 else 0, none, []⟩
  match v with
  | none => .ok s
  | some v => setValue c s v

end QChoice

namespace QFile

/-- The file name shown, the folder the dialog starts in, `last_emited_value` and the file names sent, the last one first. -/
structure St where
  line : List Char
  folder : List Char
  last : Option (List Char)
  sent : List (List Char)

/-- `os.path.dirname` (posixpath): the part up to the last slash, without slashes at its end unless it consists of slashes. -/
def dirname (p : List Char) : List Char :=
  let head := (p.reverse.dropWhile (· ≠ '/')).reverse
  if head.all (· = '/') then head else (head.reverse.dropWhile (· = '/')).reverse

/-- QtShortCuts.py:381-383 `_doSetValue`. -/
def St.setValue (s : St) (v : List Char) : St := { s with line := v, folder := dirname v }

/-- QtShortCuts.py:116-119 `_emitSignal`. -/
def St.emit (s : St) : St := if some s.line = s.last then s else { s with last := some s.line, sent := s.line :: s.sent }

/-- QtShortCuts.py:332-356: a new input, `value` being `none` for None.  `os.path.dirname(None)` raises a TypeError, before the
lines 355-356 that treat None are reached. -/
def new (value : Option (List Char)) : Except Unit St :=
  match value with
  | none => .error ()
  | some v => .ok (St.setValue ⟨[], [], none, []⟩ v)

/-- QtShortCuts.py:358-379 `_openDialog` with the answer of the dialog (the empty string if it was left) and the checker. -/
def St.openDialog (s : St) (checker : Option (List Char → List Char)) (answer : List Char) : St :=
  let f := match checker with
    | some g => if answer = [] then answer else g answer
    | none => answer
  if f = [] then s else (s.setValue f).emit

end QFile
