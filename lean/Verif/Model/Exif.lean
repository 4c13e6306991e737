import Verif.Model.Text
import Mathlib.Data.Real.Basic

/-! # Model of the exif functions of `cameratransform/camera.py`

The file system is the one file `sensor_database_detailed.csv` in the working directory.  The conversion
`float` of python is a parameter. -/

namespace Exif

open Py

/-- What the modelled functions raise. -/
inductive Err where
  | network
  | value
  | index
  | key
  | zeroDivision
  | unboundLocal
  | type
deriving DecidableEq

/-- What a download does. -/
inductive Net where
  /-- `requests.get` raises. -/
  | fails
  /-- `requests.get` returns a text and `fp.write` raises after having written `t`. -/
  | cut (t : Text)
  /-- The text `t` is received and written. -/
  | text (t : Text)

/-- The content of the database file, `none` if there is no such file. -/
abbrev Disk := Option Text

/-- camera.py:74-78: the database is downloaded if the file does not exist; the file is created by `open` before
the download, and closed (not removed) when an exception leaves the `with` block. -/
def fetch (net : Net) (d : Disk) : Disk × Except Err Unit :=
  match d with
  | some t => (some t, .ok ())
  | none =>
    match net with
    | .fails => (some [], .error .network)
    | .cut t => (some t, .error .network)
    | .text t => (some t, .ok ())

/-- camera.py:90-92: the sensor size of a line; missing columns raise IndexError, other texts ValueError. -/
def size (float : Text → Option ℝ) (line : Text) : Except Err (ℝ × ℝ) :=
  let l := split ';' line
  match l[3]? with
  | none => .error .index
  | some w =>
    match float w with
    | none => .error .value
    | some w =>
      match l[4]? with
      | none => .error .index
      | some h =>
        match float h with
        | none => .error .value
        | some h => .ok (w, h)

/-- camera.py:83-94: the search. -/
def search (float : Text → Option ℝ) (model : Text) (data : List Text) : Except Err (Option (ℝ × ℝ)) :=
  let name := replaceFirst ' ' ';' model ++ [';']
  match data.find? fun line => startsWith line name with
  | none => .ok none
  | some line => (size float line).map some

/-- camera.py:54-94 `_getSensorFromDatabase`. -/
def getSensor (float : Text → Option ℝ) (net : Net) (model : Text) (d : Disk) :
    Disk × Except Err (Option (ℝ × ℝ)) :=
  match fetch net d with
  | (d, .error e) => (d, .error e)
  | (d, .ok ()) => (d, search float model (readlines (d.getD [])))

/-- A rational number of the exif data: a pair of integers (the format of the Pillow versions the code was
written for; newer ones return a number object without indices, for which the code raises TypeError). -/
structure Ratio where
  num : ℤ
  den : ℤ

/-- `r[0] / r[1]`. -/
noncomputable def Ratio.div (r : Ratio) : Except Err ℝ := if r.den = 0 then .error .zeroDivision else .ok (r.num / r.den)

/-- The exif entries the function reads, and the unit of the resolution, which it does not read. -/
structure Data where
  focalLength : Option Ratio
  model : Option Text
  width : Option ℤ
  height : Option ℤ
  xRes : Option Ratio
  yRes : Option Ratio
  /-- `FocalPlaneResolutionUnit`: 2 inch, 3 cm -/
  unit : Option ℕ

/-- `exif[key]`. -/
def get {α : Type} : Option α → Except Err α
  | none => .error .key
  | some a => .ok a

/-- `n / r * 25.4` of lines 161-162. -/
noncomputable def extent (n : ℤ) (r : Ratio) : Except Err ℝ := do
  let q ← r.div
  if q = 0 then .error .zeroDivision else return n / q * 25.4

/-- camera.py:160-162. -/
noncomputable def sizeFromExif (x : Data) : Except Err (ℝ × ℝ) := do
  let w ← get x.width
  let rx ← get x.xRes
  let a ← extent w rx
  let h ← get x.height
  let ry ← get x.yRes
  let b ← extent h ry
  return (a, b)

/-- What `getCameraParametersFromExif` returns. -/
structure Result where
  focal : ℝ
  sensor : ℝ × ℝ
  image : ℤ × ℤ

/-- camera.py:97-171 `getCameraParametersFromExif`; `sensor_size` is bound in line 157 only.  A tuple is never
false, so that line 159 tests for None. -/
noncomputable def parameters (float : Text → Option ℝ) (net : Net) (x : Data) (fromDatabase : Bool) (d : Disk) :
    Disk × Except Err Result :=
  match (do let r ← get x.focalLength; r.div : Except Err ℝ) with
  | .error e => (d, .error e)
  | .ok f =>
    let (d, bound) : Disk × Except Err (Option (ℝ × ℝ)) :=
      if fromDatabase then
        match get x.model with
        | .error e => (d, .error e)
        | .ok m => getSensor float net m d
      else (d, .error .unboundLocal)
    (d, do
      let sensor ← match ← bound with
        | some s => pure s
        | none => sizeFromExif x
      let w ← get x.width
      let h ← get x.height
      return ⟨f, sensor, (w, h)⟩)

/-- The results of a sequence of lookups. -/
def lookups (float : Text → Option ℝ) : List (Net × Text) → Disk → List (Except Err (Option (ℝ × ℝ)))
  | [], _ => []
  | (n, m) :: l, d => (getSensor float n m d).2 :: lookups float l (getSensor float n m d).1

end Exif
