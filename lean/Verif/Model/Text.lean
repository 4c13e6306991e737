import Mathlib.Data.List.Basic

/-! # Python's string functions used by the package, on lists of characters -/

namespace Py

/-- A python string. -/
abbrev Text := List Char

/-- `\d` and the digits `float` reads.  Python also accepts the decimal digits of other scripts; these are not
modelled. -/
def isDigit (c : Char) : Bool := '0' ≤ c && c ≤ '9'

/-- `\s` for text patterns: the characters for which `str.isspace` holds. -/
def isSpace (c : Char) : Bool :=
  (9 ≤ c.toNat && c.toNat ≤ 13) || (28 ≤ c.toNat && c.toNat ≤ 32) || c.toNat == 0x85 || c.toNat == 0xa0 ||
  c.toNat == 0x1680 || (0x2000 ≤ c.toNat && c.toNat ≤ 0x200a) || c.toNat == 0x2028 || c.toNat == 0x2029 ||
  c.toNat == 0x202f || c.toNat == 0x205f || c.toNat == 0x3000

/-- `s.startswith(t)`. -/
def startsWith (s t : Text) : Bool := t.isPrefixOf s

/-- `s.split(c)` for a single character. -/
def split (c : Char) : Text → List Text
  | [] => [[]]
  | x :: s =>
    match split c s with
    | [] => [[x]]
    | w :: ws => if x = c then [] :: w :: ws else (x :: w) :: ws

/-- `s.replace(a, b, 1)` for single characters. -/
def replaceFirst (a b : Char) : Text → Text
  | [] => []
  | x :: s => if x = a then b :: s else x :: replaceFirst a b s

/-- `fp.readlines()`: the lines with their line ends (`'\n'`; the translation of other line ends when reading is
not modelled). -/
def readlines : Text → List Text
  | [] => []
  | x :: s =>
    if x = '\n' then [x] :: readlines s
    else match readlines s with
      | [] => [[x]]
      | l :: ls => (x :: l) :: ls

end Py
