import Verif.Model.Text
import Mathlib.Algebra.Order.Floor.Ring
import Mathlib.Algebra.Order.Floor.Semiring
import Mathlib.Algebra.Order.Archimedean.Real.Basic

/-! # Model of the text functions of `cameratransform/gps.py`

Numbers are exact reals.  The patterns are modelled with python's backtracking: every repetition is tried with
as many characters as possible first, alternatives are tried from left to right. -/

open Classical

namespace GpsText

open Py

/-! ### patterns -/

/-- The repetition of length `n`, `n - 1`, ..., `min` for which the rest of the pattern matches. -/
def tryDown {β : Type} (k : Text → Text → Option β) (s : Text) (min : ℕ) : ℕ → Option β
  | 0 => if min = 0 then k [] s else none
  | n + 1 =>
    if min ≤ n + 1 then
      match k (s.take (n + 1)) (s.drop (n + 1)) with
      | some r => some r
      | none => tryDown k s min n
    else none

/-- `[...]*` (`min = 0`) or `[...]+` (`min = 1`) followed by the rest `k` of the pattern, which gets the matched
text and the text behind it. -/
def greedy {β : Type} (p : Char → Bool) (min : ℕ) (k : Text → Text → Option β) (s : Text) : Option β :=
  tryDown k s min (s.takeWhile p).length

/-- `(t1|t2|...)` followed by `k`. -/
def alts {β : Type} (ts : List Text) (k : Text → Option β) (s : Text) : Option β :=
  ts.findSome? fun t => if t.isPrefixOf s then k (s.drop t.length) else none

/-- `(t1|t2|...)?` followed by `k`, which gets the matched alternative. -/
def optional {β : Type} (ts : List Text) (k : Option Text → Text → Option β) (s : Text) : Option β :=
  match ts.findSome? fun t => if t.isPrefixOf s then k (some t) (s.drop t.length) else none with
  | some r => some r
  | none => k none s

/-- The three patterns of the list in gps.py:255-257. -/
inductive Fmt where
  | dms
  | dm
  | d

/-- The named groups of one coordinate; `none` for a name that is not in the pattern (`min`, `sec`) or did not
match (`sign`). -/
structure Groups where
  deg : Text
  min : Option Text
  sec : Option Text
  sign : Option Text
deriving DecidableEq

/-- `[\d+-]`. -/
def isDegChar (c : Char) : Bool := isDigit c || c == '+' || c == '-'

/-- `[\d.]`. -/
def isDecChar (c : Char) : Bool := isDigit c || c == '.'

/-- `[\d.+-]`. -/
def isDegDecChar (c : Char) : Bool := isDigit c || c == '.' || c == '+' || c == '-'

/-- `('|′|´|′)`. -/
def minuteMarks : List Text := [['\''], ['′'], ['´'], ['′']]

/-- `(''|\"| |´´|″)`. -/
def secondMarks : List Text := [['\'', '\''], ['"'], [' '], ['´', '´'], ['″']]

/-- gps.py:255-257: the pattern of one coordinate without its sign, followed by `k`. -/
def part {β : Type} (f : Fmt) (k : Text → Option Text → Option Text → Text → Option β) (s : Text) : Option β :=
  match f with
  | .dms =>
    greedy isDegChar 1 (fun deg s => alts [['°']] (greedy isSpace 0 fun _ s =>
      greedy isDigit 1 (fun min s => alts minuteMarks (greedy isSpace 0 fun _ s =>
        greedy isDecChar 1 (fun sec s => alts secondMarks (greedy isSpace 0 fun _ s =>
          k deg (some min) (some sec) s) s) s) s) s) s) s
  | .dm =>
    greedy isDegChar 1 (fun deg s => alts [['°']] (greedy isSpace 0 fun _ s =>
      greedy isDecChar 1 (fun min s => optional minuteMarks (fun _ => greedy isSpace 0 fun _ s =>
        k deg (some min) none s) s) s) s) s
  | .d =>
    greedy isDegDecChar 1 (fun deg s => alts [['°']] (greedy isSpace 0 fun _ s => k deg none none s) s) s

/-- gps.py:259-262: the pattern of two coordinates. -/
def matchPair (f : Fmt) (s : Text) : Option (Groups × Groups) :=
  greedy isSpace 0 (fun _ => part f fun deg min sec => optional [['N'], ['S']] fun sign =>
    greedy isSpace 0 fun _ => optional [[',']] fun _ => greedy isSpace 0 fun _ =>
      part f fun deg' min' sec' => optional [['W'], ['E']] fun sign' => greedy isSpace 0 fun _ _ =>
        some (⟨deg, min, sec, sign⟩, ⟨deg', min', sec', sign'⟩)) s

/-- gps.py:273-276: the pattern of a single coordinate. -/
def matchSingle (f : Fmt) (s : Text) : Option Groups :=
  greedy isSpace 0 (fun _ => part f fun deg min sec => optional [['N'], ['S'], ['W'], ['E']] fun sign =>
    greedy isSpace 0 fun _ _ => some ⟨deg, min, sec, sign⟩) s

/-! ### numbers -/

/-- What the modelled functions raise. -/
inductive Err where
  | value
  | index
  | type
deriving DecidableEq

/-- The number written by digits. -/
def digitsVal (t : Text) : ℕ := t.foldl (fun n c => 10 * n + (c.toNat - '0'.toNat)) 0

/-- `float` of a text without sign. -/
noncomputable def unsignedFloat (t : Text) : Option ℝ :=
  let a := t.takeWhile isDigit
  match t.dropWhile isDigit with
  | [] => if a = [] then none else some (digitsVal a)
  | '.' :: b =>
    if b.all isDigit ∧ (a ≠ [] ∨ b ≠ []) then some (digitsVal a + digitsVal b / 10 ^ b.length) else none
  | _ => none

/-- `float` for texts of digits, points and signs, which are the only ones the groups contain. -/
noncomputable def float (t : Text) : Except Err ℝ :=
  match (match t with
    | '-' :: t => (unsignedFloat t).map fun x => -x
    | '+' :: t => unsignedFloat t
    | t => unsignedFloat t) with
  | none => .error .value
  | some x => .ok x

/-- `float` of an optional entry, which counts as 0 if it is missing. -/
noncomputable def floatOr0 : Option Text → Except Err ℝ
  | none => .ok 0
  | some t => float t

/-- gps.py:160-194 `processDegree`.  `sign in "SW"` is a substring test. -/
noncomputable def processDegree (g : Groups) : Except Err ℝ := do
  let deg ← float g.deg
  let value := 0 + |deg|
  let sign ← match g.deg with
    | [] => .error .index
    | c :: _ => if c = '-' then .ok (some ['S']) else .ok g.sign
  let value := value + (← floatOr0 g.min) / 60
  let value := value + (← floatOr0 g.sec) / 3600
  match sign with
  | none => return value
  | some t => if t <:+: ['S', 'W'] then return value * -1 else return value

/-! ### gpsFromString -/

/-- What `gpsFromString` gets: a text, a number or a list. -/
inductive Input where
  | text (s : Text)
  | num (x : ℝ)
  | list (l : List Input)

/-- What `gpsFromString` returns: None, a number or an array, given as nested lists (that numpy needs rows of
the same length is not modelled). -/
inductive Out where
  | none
  | num (x : ℝ)
  | arr (l : List Out)

/-- gps.py:258-270: two coordinates. -/
noncomputable def pairValues (g : Groups × Groups) (height : Option ℝ) : Except Err Out := do
  let lat ← processDegree g.1
  let lon ← processDegree g.2
  match height with
  | none => return .arr [.num lat, .num lon]
  | some h => return .arr [.num lat, .num lon, .num h]

/-- gps.py:255-278: `gpsFromString` of a text. -/
noncomputable def fromText (s : Text) (height : Option ℝ) : Except Err Out :=
  match [Fmt.dms, .dm, .d].findSome? fun f => matchPair f s with
  | some g => pairValues g height
  | none =>
    match [Fmt.dms, .dm, .d].findSome? fun f => matchSingle f s with
    | some g => (processDegree g).map .num
    | none => .ok .none

/-- `np.hstack((data, [height]))`: for a one-dimensional array the height is appended, a two-dimensional one
raises ValueError. -/
def hstack (l : List Out) (h : ℝ) : Except Err Out :=
  if l.all (fun o => match o with | .arr _ => false | _ => true) then .ok (.arr (l ++ [.num h])) else .error .value

mutual
/-- gps.py:197-278 `gpsFromString`. -/
noncomputable def gpsFromString (i : Input) (height : Option ℝ) : Except Err Out :=
  match i with
  | .text s => fromText s height
  | .num x => .ok (.num x)
  | .list [.text s, .num x] => fromText s (some x)
  | .list l => do
    let data ← fromList l
    match height with
    | none => return .arr data
    | some h => hstack data h
/-- The list comprehension of line 249. -/
noncomputable def fromList (l : List Input) : Except Err (List Out) :=
  match l with
  | [] => .ok []
  | i :: l => do
    let a ← gpsFromString i none
    let b ← fromList l
    return a :: b
end

/-! ### formatGPS -/

/-- The width of a number; `zero` is the flag for padding with zeros. -/
structure Width where
  zero : Bool
  width : ℕ
deriving DecidableEq

/-- The parts of a format. -/
inductive Tok where
  /-- a character that is not part of a place holder -/
  | lit (c : Char)
  /-- `%s` -/
  | s
  /-- `%wd` -/
  | d (width : Width)
  /-- `%w.pf` -/
  | f (width : Width) (prec : ℕ)
deriving DecidableEq

/-- The flag and the number in front of a format, 0 if there is none. -/
def widthOf (t : Text) : Option Width :=
  if t.all isDigit then some ⟨t.head? = some '0', digitsVal t⟩ else none

/-- One place holder from the text between `%` and the letter. -/
def placeholder (spec : Text) (c : Char) : Option Tok :=
  if c = 's' then (if spec = [] then some .s else none)
  else if c = 'd' then (widthOf spec).map .d
  else if c = 'f' then
    match split '.' spec with
    | [w] => (widthOf w).map fun w => .f w 6
    | [w, p] => do
      let w ← widthOf w
      if p.all isDigit then return .f w (digitsVal p) else none
    | _ => none
  else none

/-- The format string as a list of parts, `none` for a format that is not modelled: place holders other than
`%s`, `%d`, `%f` with width (with or without zero padding) and precision, `%%`, a width of `%s`, and a precision of `%d` or `%s`. -/
def parseFormat (t : Text) : Option (List Tok) :=
  match t with
  | [] => some []
  | c :: t =>
    if c = '%' then
      let spec := t.takeWhile isDecChar
      match _h : t.dropWhile isDecChar with
      | [] => none
      | x :: rest => do
        let p ← placeholder spec x
        let l ← parseFormat rest
        return p :: l
    else do
      let l ← parseFormat t
      return .lit c :: l
termination_by t.length
decreasing_by
  · have h1 : (t.dropWhile isDecChar).length ≤ t.length := by
      have := congrArg List.length (List.takeWhile_append_dropWhile (p := isDecChar) (l := t))
      simp only [List.length_append] at this
      omega
    rw [_h] at h1
    simp only [List.length_cons] at h1 ⊢
    omega
  · simp

/-- The digits `t` with their sign, up to the width with spaces on the left or zeros behind the sign. -/
def pad (w : Width) (neg : Bool) (t : Text) : Text :=
  let sign := if neg then ['-'] else []
  let n := w.width - (sign ++ t).length
  if w.zero then sign ++ (List.replicate n '0' ++ t) else List.replicate n ' ' ++ (sign ++ t)

/-- The decimal digits of a natural number. -/
def digits (n : ℕ) : Text := Nat.toDigits 10 n

/-- Exactly `p` digits, with zeros on the left. -/
def digitsPad : ℕ → ℕ → Text
  | 0, _ => []
  | p + 1, n => digitsPad p (n / 10) ++ [Nat.digitChar (n % 10)]

/-- Rounding to the nearest integer, ties to even, of a number that is not negative. -/
noncomputable def roundEven (x : ℝ) : ℕ :=
  let n := ⌊x⌋₊
  if x - n < 1 / 2 then n else if 1 / 2 < x - n then n + 1 else if n % 2 = 0 then n else n + 1

/-- `"%wd" % x`: the number is truncated. -/
noncomputable def formatD (w : Width) (x : ℝ) : Text :=
  if x ≤ -1 then pad w true (digits ⌊-x⌋₊) else pad w false (digits ⌊x⌋₊)

/-- `"%w.pf" % x`: the number is rounded to `p` decimals; a negative number keeps its sign. -/
noncomputable def formatF (w : Width) (p : ℕ) (x : ℝ) : Text :=
  let n := roundEven (|x| * 10 ^ p)
  let t := digits (n / 10 ^ p) ++ if p = 0 then [] else '.' :: digitsPad p (n % 10 ^ p)
  pad w (x < 0) t

/-- A number with a number place holder. -/
noncomputable def formatNum : Tok → ℝ → Text
  | .d w, x => formatD w x
  | .f w p, x => formatF w p x
  | _, _ => []

/-- python's `x % y` for positive `y`. -/
noncomputable def pymod (x y : ℝ) : ℝ := x - y * ⌊x / y⌋

/-- Is it a number place holder? -/
def Tok.isNum : Tok → Bool
  | .d _ => true
  | .f _ _ => true
  | _ => false

/-- gps.py:89, 99-110: the number place holders. -/
def numbers (t : List Tok) : List Tok := t.filter Tok.isNum

/-- gps.py:120-131: minutes and seconds, with the carry. -/
noncomputable def splitAngle (mins? secs? : Option Tok) (degs : ℝ) : List ℝ :=
  let mins := pymod (degs * 60) 60
  let secs := pymod (mins * 60) 60
  let (mins, secs) := match secs? with
    | some t => if formatNum t secs = formatNum t 60 then (mins + 1, 0) else (mins, secs)
    | none => (mins, secs)
  let (degs, mins) := match mins? with
    | some t => if formatNum t mins = formatNum t 60 then (degs + 1, 0) else (degs, mins)
    | none => (degs, mins)
  [degs, mins, secs]

/-- gps.py:139-149: the place holders are filled from left to right. -/
noncomputable def fill (letter : Char) : List Tok → List ℝ → Text
  | [], _ => []
  | .lit c :: t, v => c :: fill letter t v
  | .s :: t, v => letter :: fill letter t v
  | k :: t, x :: v => formatNum k x ++ fill letter t v
  | _ :: _, [] => []

/-- gps.py:115-154 for one of the two numbers. -/
noncomputable def formatOne (t : List Tok) (letters : Char × Char) (degs : ℝ) : Text :=
  let neg := degs < 0
  let v := splitAngle (numbers t)[1]? (numbers t)[2]? |degs|
  let v := match v with
    | d :: v => (if (Tok.s ∉ t) ∧ neg then -d else d) :: v
    | [] => []
  fill (if neg then letters.2 else letters.1) t v

/-- gps.py:26-157 `formatGPS`.  `asLatex` replaces the degree sign by itself (line 152). -/
noncomputable def formatGPS (t : List Tok) (lat lon : ℝ) : Except Err (Text × Text) :=
  if t.filter (fun k => match k with | .lit _ => false | _ => true) = [] then .error .value
  else if 3 < (numbers t).length then .error .value
  else .ok (formatOne t ('N', 'S') lat, formatOne t ('E', 'W') lon)

end GpsText
