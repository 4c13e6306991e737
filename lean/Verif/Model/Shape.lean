import Mathlib.Data.List.Basic
import Mathlib.Data.List.Forall2
import Mathlib.Tactic.ApplyFun

/-! # Shapes of arrays (utils.py)

A text is the list of its characters.  `np.asarray` (utils.py:18, 23) does not change an array; of the arguments that are
no arrays (nested lists) only the shape of the array made from them matters. -/

namespace Shape

/-- An entry of a format: a number, or a name. -/
inductive Dim
  | num (n : ℕ)
  | name (a : List Char)
deriving DecidableEq

/-- The errors: ValueError, AssertionError, IndexError. -/
inductive Err | value | assertion | index
deriving DecidableEq

/-- The text "...". -/
def dots : List Char := ['.', '.', '.']

/-- `int(part)` of utils.py:7-11.  Simplified: only texts that consist of the digits 0 to 9 count as numbers; `int` also accepts a sign,
surrounding spaces, underscores between digits and the digits of other scripts. -/
def dim (part : List Char) : Dim :=
  if part ≠ [] ∧ part.all Char.isDigit = true then .num (Nat.ofDigitChars 10 part 0) else .name part

/-- utils.py:3-12 `string_to_shape`. -/
def stringToShape (s : List Char) : List Dim := (s.splitOn 'x').map dim

/-- The loop utils.py:27-35, which runs through the format and the shape from behind; `env` is `number_lookup`. -/
def check : List Dim → List ℕ → List (List Char × ℕ) → Except Err Unit
  | [], _, _ => .ok ()
  | .name a :: t, sh, env =>
    if a = dots then .ok ()
    else match sh with
      | [] => .error .index
      | n :: sh => match env.lookup a with
        | some m => if m = n then check t sh ((a, n) :: env) else .error .assertion
        | none => check t sh ((a, n) :: env)
  | .num k :: t, sh, env => match sh with
    | [] => .error .index
    | n :: sh => if n = k then check t sh env else .error .assertion

/-- utils.py:24-36: one array. -/
def ensureOne (sh : List ℕ) (shape : List Dim) : Except Err Unit :=
  if shape.head? ≠ some (.name dots) ∧ sh.length ≠ shape.length then .error .value
  else check shape.reverse sh.reverse []

/-- An array: its shape and its entries. -/
structure Arr (α : Type) where
  shape : List ℕ
  data : α

/-- The checks of utils.py:20, one array after the other. -/
def ensureEach {α : Type} (shape : List Dim) : List (Arr α) → Except Err (List (Arr α))
  | [] => .ok []
  | a :: t => do
    ensureOne a.shape shape
    let t ← ensureEach shape t
    .ok (a :: t)

/-- utils.py:14-36 `ensure_array_format` with a format given as text. -/
def ensure {α : Type} (p : Arr α) (format : List Char) (more : List (Arr α)) : Except Err (List (Arr α)) :=
  if more ≠ [] ∧ ¬ ∀ a ∈ p :: more, a.shape = p.shape then .error .assertion
  else ensureEach (stringToShape format) (p :: more)

end Shape
