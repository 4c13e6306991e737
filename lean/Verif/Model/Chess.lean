import Mathlib.Data.List.Basic
import Mathlib.Logic.Function.Basic
import Mathlib.Data.List.TakeWhile

/-! # Looking for the chess board: `processImage` and its cache of corners, and the files of a batch

Model of gui_tools/calibrate/calibrate.py:43-101 and of gui_tools/calibrate/gui_calibrate.py:421-431.  Paths and names are lists of
characters. -/

namespace Chess

/-- `os.path.split(path)[1]`: what follows the last slash. -/
def tail (p : List Char) : List Char := (p.reverse.takeWhile (· ≠ '/')).reverse

/-- `os.path.splitext(name)[0]` for a name without slashes: the name up to its last dot, unless only dots are in front of it. -/
def root (n : List Char) : List Char :=
  if '.' ∈ n then
    let head := (n.reverse.dropWhile (· ≠ '.')).tail.reverse
    if head.all (· = '.') then n else head
  else n

/-- calibrate.py:45: the name of an image in the output directory. -/
def stem (fn : List Char) : List Char := root (tail fn)

/-- What an image file holds for `processImage`: its width and height and what is found in it (`findChessboardCorners` and
`cornerSubPix`, calibrate.py:77-88), upright and transposed. -/
structure Pic (D : Type) where
  w : ℕ
  h : ℕ
  found : Option D
  foundT : Option D

/-- The outcome of `processImage`: the corners, None, or a TypeError. -/
inductive Res (D : Type) where
  | corners (d : D)
  | nothing
  | typeError

/-- The stored corners: for an output directory and a name. -/
abbrev Cache (D : Type) := List Char × List Char → Option D

variable {D : Type}

/-- calibrate.py:62-88: reading the image and looking for the corners; `size` is (w, h) or None. -/
def look (pic : Option (Pic D)) (size : Option (ℕ × ℕ)) : Option D :=
  match pic with
  | none => none
  | some p =>
    match size with
    | none => p.found
    | some (w, h) =>
      if p.w = h ∧ p.h = w then (if w = p.h ∧ h = p.w then p.foundT else none)
      else if w = p.w ∧ h = p.h then p.found else none

/-- calibrate.py:43-101: `processImage`.  `files` are the image files, `n` is the number of pattern points (given by both callers) and
`rows` counts the stored corners.  Simplified: the corners survive `savetxt` and `loadtxt` (float32 numbers are written with 18 digits);
a file is either an image or cannot be read; printing and the image with the drawn corners are left out. -/
def processImage (files : List Char → Option (Pic D)) (rows : D → ℕ) (n : ℕ) (cache : Cache D) (fn : List Char) (size : Option (ℕ × ℕ))
    (out : Option (List Char)) : Res D × Cache D :=
  match out with
  | none => (.typeError, cache)
  | some dir =>
    let key := (dir, stem fn)
    match (if dir = [] then none else cache key) with
    | some d => (if rows d ≠ n then .nothing else .corners d, cache)
    | none =>
      match look (files fn) size with
      | none => (.nothing, cache)
      | some d => (.corners d, if dir = [] then cache else Function.update cache key (some d))

/-- `re.sub("\\d+", "*", name)` (gui_calibrate.py:426); `dig` are the digits. -/
def stars (dig : Char → Bool) : List Char → List Char
  | [] => []
  | c :: cs => if dig c then '*' :: stars dig (cs.dropWhile dig) else c :: stars dig cs
termination_by l => l.length
decreasing_by
  · have := (List.dropWhile_sublist dig (l := cs)).length_le
    simp only [List.length_cons]
    omega
  · simp

/-- A set of characters in a pattern of `fnmatch`, without the brackets: single characters and ranges.  Simplified: a negated set and
the special rules for hyphens at its ends follow the plain reading. -/
def inSet : List Char → Char → Bool
  | a :: '-' :: b :: rest, c => (a ≤ c && c ≤ b) || inSet rest c
  | a :: rest, c => a = c || inSet rest c
  | [], _ => false

/-- The set that begins behind an opening bracket, and what follows its closing bracket (fnmatch.translate): a "!" and a "]" at the
beginning belong to the set; without closing bracket there is no set. -/
def splitSet (p : List Char) : Option (Bool × List Char × List Char) :=
  let (neg, q) := match p with
    | '!' :: q => (true, q)
    | q => (false, q)
  let (first, q) := match q with
    | ']' :: q => ([']'], q)
    | q => ([], q)
  if ']' ∈ q then some (neg, first ++ q.takeWhile (· ≠ ']'), (q.dropWhile (· ≠ ']')).tail) else none

/-- `fnmatch` of a name with a pattern: a star is any text, a question mark any character, a set one of its characters. -/
inductive Fits : List Char → List Char → Prop
  | nil : Fits [] []
  | star (x : List Char) {p s : List Char} : Fits p s → Fits ('*' :: p) (x ++ s)
  | any (c : Char) {p s : List Char} : Fits p s → Fits ('?' :: p) (c :: s)
  | set {p : List Char} {neg : Bool} {set rest : List Char} (c : Char) {s : List Char} : splitSet p = some (neg, set, rest) →
      (inSet set c != neg) = true → Fits rest s → Fits ('[' :: p) (c :: s)
  | bracket {p s : List Char} : splitSet p = none → Fits p s → Fits ('[' :: p) ('[' :: s)
  | lit (c : Char) {p s : List Char} : c ≠ '*' → c ≠ '?' → c ≠ '[' → Fits p s → Fits (c :: p) (c :: s)

/-- Hidden names are only found by patterns that begin with a dot (glob.glob). -/
def hidden : List Char → Bool
  | '.' :: _ => true
  | _ => false

/-- gui_calibrate.py:426-431: the files of a directory that are loaded when a file is chosen (`directory` has no special characters;
a pattern without special characters only finds the file of this name, which is what `Fits` says of it, too). -/
def Loaded (dig : Char → Bool) (dir : List (List Char)) (chosen g : List Char) : Prop :=
  g ∈ dir ∧ Fits (stars dig chosen) g ∧ (hidden g = true → hidden (stars dig chosen) = true)

end Chess
