import Verif.Model.Exif

/-! # Specification of the sensor database -/

namespace Exif

open Py

/-- A row of the database: maker, model and at least four more columns; no column contains the separator or a
line end. -/
structure Entry where
  make : Text
  model : Text
  third : Text
  width : Text
  height : Text
  fifth : Text
  more : List Text

/-- The columns. -/
def Entry.columns (e : Entry) : List Text := e.make :: e.model :: e.third :: e.width :: e.height :: e.fifth :: e.more

/-- A text without separator and line end. -/
def Plain (t : Text) : Prop := ∀ c ∈ t, c ≠ ';' ∧ c ≠ '\n'

/-- The database file with the given rows. -/
def csv (rows : List Entry) : Text := rows.flatMap fun e => List.intercalate [';'] e.columns ++ ['\n']

/-- The pixels of the sensor, `n`, divided by the resolution in pixels per millimetre: the extent in mm.  The unit
is 2 for inch and 3 for cm. -/
def TrueExtent (n : ℤ) (r : Ratio) (unit : ℕ) (mm : ℝ) : Prop :=
  (unit = 2 → mm * (r.num / r.den) = n * 25.4) ∧ (unit = 3 → mm * (r.num / r.den) = n * 10)

end Exif
