import Verif.Model.GpsText

/-! # Specification of the notations for coordinates -/

namespace GpsText

open Py

/-- A text of one or more digits. -/
def Digits (t : Text) : Prop := t ≠ [] ∧ ∀ c ∈ t, '0' ≤ c ∧ c ≤ '9'

/-- A text of one or more digits and points. -/
def Decimals (t : Text) : Prop := t ≠ [] ∧ ∀ c ∈ t, '0' ≤ c ∧ c ≤ '9' ∨ c = '.'

/-- A text of one or more digits and signs. -/
def Signed (t : Text) : Prop := t ≠ [] ∧ ∀ c ∈ t, '0' ≤ c ∧ c ≤ '9' ∨ c = '+' ∨ c = '-'

/-- A text of one or more digits, points and signs. -/
def SignedDecimals (t : Text) : Prop := t ≠ [] ∧ ∀ c ∈ t, '0' ≤ c ∧ c ≤ '9' ∨ c = '.' ∨ c = '+' ∨ c = '-'

/-- The white space of Unicode (category Zs, or bidirectional class WS, B or S), by code points. -/
def White (c : Char) : Prop :=
  c.toNat ∈ [0x9, 0xa, 0xb, 0xc, 0xd, 0x1c, 0x1d, 0x1e, 0x1f, 0x20, 0x85, 0xa0, 0x1680, 0x2000, 0x2001, 0x2002, 0x2003, 0x2004,
    0x2005, 0x2006, 0x2007, 0x2008, 0x2009, 0x200a, 0x2028, 0x2029, 0x202f, 0x205f, 0x3000]

/-- White space. -/
def Blank (t : Text) : Prop := ∀ c ∈ t, White c

/-- The marks behind the minutes. -/
def MinuteMark (t : Text) : Prop := t = ['\''] ∨ t = ['′'] ∨ t = ['´']

/-- The marks behind the seconds. -/
def SecondMark (t : Text) : Prop := t = ['\'', '\''] ∨ t = ['"'] ∨ t = [' '] ∨ t = ['´', '´'] ∨ t = ['″']

/-- `Coord f t deg min sec`: the text `t` is a coordinate without letter in the notation `f`. -/
inductive Coord : Fmt → Text → Text → Option Text → Option Text → Prop
  | dms (deg b min m b' sec m' b'' : Text) (h1 : Signed deg) (h2 : Blank b) (h3 : Digits min) (h4 : MinuteMark m)
      (h5 : Blank b') (h6 : Decimals sec) (h7 : SecondMark m') (h8 : Blank b'') :
      Coord .dms (deg ++ '°' :: (b ++ (min ++ (m ++ (b' ++ (sec ++ (m' ++ b''))))))) deg (some min) (some sec)
  | dm (deg b min m b' : Text) (h1 : Signed deg) (h2 : Blank b) (h3 : Decimals min) (h4 : m = [] ∨ MinuteMark m)
      (h5 : Blank b') : Coord .dm (deg ++ '°' :: (b ++ (min ++ (m ++ b')))) deg (some min) none
  | d (deg b : Text) (h1 : SignedDecimals deg) (h2 : Blank b) : Coord .d (deg ++ '°' :: b) deg none none

/-- The text of an optional letter. -/
def letterText (sign : Option Text) : Text := sign.getD []

/-- The beginning of `s` is a coordinate in the notation `f`. -/
def IsSingle (f : Fmt) (s : Text) (g : Groups) : Prop :=
  ∃ b t b' rest, Blank b ∧ Coord f t g.deg g.min g.sec ∧
    (g.sign = none ∨ g.sign = some ['N'] ∨ g.sign = some ['S'] ∨ g.sign = some ['W'] ∨ g.sign = some ['E']) ∧
    Blank b' ∧ s = b ++ (t ++ (letterText g.sign ++ (b' ++ rest)))

/-- The beginning of `s` is a latitude and a longitude, both in the notation `f`. -/
def IsPair (f : Fmt) (s : Text) (g : Groups × Groups) : Prop :=
  ∃ b t b' comma b'' t' b''' rest, Blank b ∧ Coord f t g.1.deg g.1.min g.1.sec ∧
    (g.1.sign = none ∨ g.1.sign = some ['N'] ∨ g.1.sign = some ['S']) ∧ Blank b' ∧ (comma = [] ∨ comma = [',']) ∧
    Blank b'' ∧ Coord f t' g.2.deg g.2.min g.2.sec ∧
    (g.2.sign = none ∨ g.2.sign = some ['W'] ∨ g.2.sign = some ['E']) ∧ Blank b''' ∧
    s = b ++ (t ++ (letterText g.1.sign ++ (b' ++ (comma ++ (b'' ++ (t' ++ (letterText g.2.sign ++ (b''' ++ rest))))))))

/-- `0 <= x` is the number a text of digits with at most one point stands for. -/
inductive Reads : Text → ℝ → Prop
  | int (t : Text) (h : Digits t) : Reads t (Nat.ofDigitChars 10 t 0)
  | dec (a b : Text) (ha : a = [] ∨ Digits a) (hb : b = [] ∨ Digits b) (h : a ≠ [] ∨ b ≠ []) :
      Reads (a ++ '.' :: b) (Nat.ofDigitChars 10 a 0 + Nat.ofDigitChars 10 b 0 / 10 ^ b.length)

/-- The value of degrees, minutes and seconds. -/
noncomputable def dmsValue (deg min sec : ℝ) : ℝ := deg + min / 60 + sec / 3600

end GpsText

namespace GpsText

open Py

/-- The degree text: an optional sign and a number without sign. -/
inductive DegText : Text → Bool → ℝ → Prop
  | plain (t : Text) (x : ℝ) (h : Reads t x) : DegText t false x
  | plus (t : Text) (x : ℝ) (h : Reads t x) : DegText ('+' :: t) false x
  | minus (t : Text) (x : ℝ) (h : Reads t x) : DegText ('-' :: t) true x

/-- An optional number, which counts as 0 if it is missing. -/
inductive OptReads : Option Text → ℝ → Prop
  | none : OptReads none 0
  | some (t : Text) (x : ℝ) (h : Reads t x) : OptReads (some t) x

/-- The coordinate the groups stand for: negative for a degree text with a minus and for the letters S and W. -/
def Value (g : Groups) (x : ℝ) : Prop :=
  ∃ neg d m s, DegText g.deg neg d ∧ OptReads g.min m ∧ OptReads g.sec s ∧
    (neg = true ∨ g.sign = some ['S'] ∨ g.sign = some ['W'] → x = -dmsValue d m s) ∧
    (neg = false ∧ (g.sign = none ∨ g.sign = some ['N'] ∨ g.sign = some ['E']) → x = dmsValue d m s)

/-- The letters that occur. -/
def Letter (g : Groups) : Prop :=
  g.sign = none ∨ g.sign = some ['N'] ∨ g.sign = some ['S'] ∨ g.sign = some ['W'] ∨ g.sign = some ['E']

/-- The notations in the order in which they are tried. -/
def Fmt.rank : Fmt → ℕ
  | .dms => 0
  | .dm => 1
  | .d => 2

/-- Latitude, longitude and the height if there is one. -/
def point (a b : ℝ) (height : Option ℝ) : Out := .arr ([.num a, .num b] ++ (height.toList.map .num))

end GpsText
