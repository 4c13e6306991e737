import Verif.Spec.GpsText
import Verif.Spec.Attributes

/-! # Specification of printed descriptions -/

open Py

namespace Print

/-- `t` shows the number `x` rounded to `p` decimals. -/
def Shows (p : ℕ) (x : ℝ) (t : Text) : Prop :=
  ∃ (u : Text) (n : ℕ), t = (if x < 0 then ['-'] else []) ++ u ∧ GpsText.Reads u (n / 10 ^ p) ∧ |(n : ℝ) / 10 ^ p - (|x|)| ≤ 1 / 2 / 10 ^ p

/-- `t` shows the number `x` without its decimals. -/
def ShowsInt (x : ℝ) (t : Text) : Prop :=
  ∃ (u : Text) (n : ℕ), t = (if x ≤ -1 then ['-'] else []) ++ u ∧ GpsText.Reads u n ∧ (n : ℝ) ≤ |x| ∧ |x| < n + 1

/-- `l` is one of the lines of the text. -/
def HasLine (t l : Text) : Prop :=
  '\n' ∉ l ∧ ∃ a b, t = a ++ (l ++ '\n' :: b) ∧ (a = [] ∨ ∃ a', a = a' ++ ['\n'])

/-- A number in the description: the text in front of it, the attribute, the number of decimals, and the unit. -/
structure Entry where
  label : String
  name : String
  prec : ℕ
  unit : String

/-- The numbers that stand alone on a line. -/
def entries : Sys.OKind → List Entry
  | .thr => [⟨"    f:\t\t", "focallength_x_px", 1, " px"⟩, ⟨"    x:\t", "pos_x_m", 6, " m"⟩, ⟨"    y:\t", "pos_y_m", 6, " m"⟩,
      ⟨"    h:\t", "elevation_m", 6, " m"⟩, ⟨"    tilt:\t\t", "tilt_deg", 6, "°"⟩, ⟨"    roll:\t\t", "roll_deg", 6, "°"⟩,
      ⟨"    heading:\t", "heading_deg", 6, "°"⟩]
  | .ypr => [⟨"    f:\t\t", "focallength_x_px", 1, " px"⟩, ⟨"    x:\t", "pos_x_m", 6, " m"⟩, ⟨"    y:\t", "pos_y_m", 6, " m"⟩,
      ⟨"    h:\t", "elevation_m", 6, " m"⟩, ⟨"    yaw:\t\t", "yaw_deg", 6, "°"⟩, ⟨"    pitch:\t\t", "pitch_deg", 6, "°"⟩,
      ⟨"    roll:\t", "roll_deg", 6, "°"⟩]

/-- The attributes that are shown again with a distorting lens. -/
def lensExtra : List String :=
  ["image_width_px", "image_height_px", "focallength_x_px", "focallength_y_px", "center_x_px", "center_y_px"]

/-- The names of the classes. -/
def projClass : Projection.Kind → String
  | .rectilinear => "RectilinearProjection"
  | .cylindrical => "CylindricalProjection"
  | .equirectangular => "EquirectangularProjection"

/-- The names of the classes. -/
def lensClass : Sys.LKind → String
  | .none => "NoDistortion"
  | .brown => "BrownLensDistortion"
  | .abc => "ABCDistortion"

/-- The text has a line with the number `x`. -/
def HasNumber (t : Text) (label : String) (p : ℕ) (x : ℝ) (unit : String) : Prop :=
  ∃ u, Shows p x u ∧ HasLine t (label.toList ++ (u ++ unit.toList))

end Print
