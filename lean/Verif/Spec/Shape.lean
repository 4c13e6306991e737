import Verif.Model.Shape

/-! # What a format means -/

namespace Shape

/-- A size fits an entry of a format, the names having the given sizes. -/
def Fits (size : List Char → ℕ) (d : Dim) (n : ℕ) : Prop := match d with
  | .num k => n = k
  | .name a => n = size a

/-- The entries fit in order, after the "..." if there is one at the beginning. -/
def HasWith (size : List Char → ℕ) : List Dim → List ℕ → Prop
  | .name ['.', '.', '.'] :: t, sh => ∃ before last, sh = before ++ last ∧ List.Forall₂ (Fits size) t last
  | shape, sh => List.Forall₂ (Fits size) shape sh

/-- The shape has the format, for some sizes of the names. -/
def Has (shape : List Dim) (sh : List ℕ) : Prop := ∃ size, HasWith size shape sh

/-- Well-formed: "..." at most at the beginning. -/
def Wf (shape : List Dim) : Prop := ∀ d ∈ shape.tail, d ≠ .name ['.', '.', '.']

/-- The text of an entry of a format. -/
def Dim.text : Dim → List Char
  | .num n => Nat.toDigits 10 n
  | .name a => a

/-- The text of a format. -/
def text (shape : List Dim) : List Char := ['x'].intercalate (shape.map Dim.text)

/-- A name contains no "x" and something other than digits. -/
def Proper (d : Dim) : Prop := ∀ a, d = .name a → 'x' ∉ a ∧ ∃ c ∈ a, c.isDigit = false

end Shape
