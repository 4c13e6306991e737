import Verif.Model.Chess

/-! # What a batch is, and when a cache is transparent -/

namespace Chess

variable {D : Type}

/-- Names that differ only in their numbers. -/
inductive SameButNumbers (dig : Char → Bool) : List Char → List Char → Prop
  | nil : SameButNumbers dig [] []
  | char (c : Char) {f g : List Char} : dig c = false → SameButNumbers dig f g → SameButNumbers dig (c :: f) (c :: g)
  | number {d e f g : List Char} : d ≠ [] → e ≠ [] → (∀ c ∈ d, dig c = true) → (∀ c ∈ e, dig c = true) →
      (∀ c ∈ f.head?, dig c = false) → (∀ c ∈ g.head?, dig c = false) → SameButNumbers dig f g → SameButNumbers dig (d ++ f) (e ++ g)

/-- A call of `processImage`: file and size. -/
structure Call where
  fn : List Char
  size : Option (ℕ × ℕ)

/-- The results of a sequence of calls with the same output directory. -/
def results (files : List Char → Option (Pic D)) (rows : D → ℕ) (n : ℕ) (dir : List Char) : Cache D → List Call → List (Res D)
  | _, [] => []
  | c, k :: ks => (processImage files rows n c k.fn k.size (some dir)).1 ::
      results files rows n dir (processImage files rows n c k.fn k.size (some dir)).2 ks

/-- The result for an image by itself. -/
def direct (files : List Char → Option (Pic D)) (k : Call) : Res D :=
  match look (files k.fn) k.size with
  | none => .nothing
  | some d => .corners d

end Chess
