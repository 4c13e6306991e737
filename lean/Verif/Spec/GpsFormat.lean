import Verif.Spec.GpsText

/-! # The formats of the documentation of `formatGPS` -/

namespace GpsText

open Py

/-- `%{w1}d° %{w2}d' %{w3}.{p}f" %s`. -/
def dmsFormat (w1 w2 w3 : Width) (p : ℕ) : List Tok :=
  [.d w1, .lit '°', .lit ' ', .d w2, .lit '\'', .lit ' ', .f w3 p, .lit '"', .lit ' ', .s]

/-- `%{w1}d° %{w2}.{p}f' %s`, or without the minute mark. -/
def dmFormat (w1 w2 : Width) (p : ℕ) (mark : Bool) : List Tok :=
  [.d w1, .lit '°', .lit ' ', .f w2 p] ++ (if mark then [.lit '\''] else []) ++ [.lit ' ', .s]

/-- `%{w}.{p}f°`. -/
def degFormat (w : Width) (p : ℕ) : List Tok := [.f w p, .lit '°']

/-- Reading what was written gives both coordinates up to `err`. -/
def ReadsBack (t : List Tok) (lat lon err : ℝ) : Prop :=
  ∃ la lo a b, formatGPS t lat lon = .ok (la, lo) ∧
    gpsFromString (.text (la ++ ' ' :: lo)) none = .ok (.arr [.num a, .num b]) ∧ |a - lat| ≤ err ∧ |b - lon| ≤ err

/-- A text of digits, possibly none, with its value. -/
def Count (t : Text) (n : ℕ) : Prop := (∀ c ∈ t, '0' ≤ c ∧ c ≤ '9') ∧ n = Nat.ofDigitChars 10 t 0

/-- The text between `%` and the letter or point: zeros in front of the number are the flag for padding with zeros. -/
def WidthText (t : Text) (w : Width) : Prop := Count t w.width ∧ (w.zero = true ↔ ∃ t', t = '0' :: t')

/-- The formats that are modelled. -/
inductive FormatText : Text → List Tok → Prop
  | nil : FormatText [] []
  | lit (c : Char) (hc : c ≠ '%') {t : Text} {l : List Tok} : FormatText t l → FormatText (c :: t) (.lit c :: l)
  | letter {t : Text} {l : List Tok} : FormatText t l → FormatText ('%' :: 's' :: t) (.s :: l)
  | int {u : Text} {w : Width} (hw : WidthText u w) {t : Text} {l : List Tok} :
      FormatText t l → FormatText ('%' :: (u ++ 'd' :: t)) (.d w :: l)
  | float {u : Text} {w : Width} (hw : WidthText u w) {t : Text} {l : List Tok} :
      FormatText t l → FormatText ('%' :: (u ++ 'f' :: t)) (.f w 6 :: l)
  | prec {u v : Text} {w : Width} {p : ℕ} (hw : WidthText u w) (hp : Count v p) {t : Text} {l : List Tok} :
      FormatText t l → FormatText ('%' :: ((u ++ '.' :: v) ++ 'f' :: t)) (.f w p :: l)

/-- The text in front of the first number. -/
def litText : List Tok → Text
  | .lit c :: t => c :: litText t
  | _ => []

end GpsText
