import Verif.Model.System

/-! # Model of saving and loading (camera.py:1521-1606, and the `save`/`load` of the parts), and of `setGPSpos`

Numbers survive `json.dumps`/`json.loads` exactly (the shortest decimal representation is read back to the same
float).  A 0-dimensional numpy array (`boxed`) is not JSON serialisable. -/

set_option linter.constructorNameAsVariable false

open Classical

namespace Persist

open Sys

abbrev Err := Camera.PyErr

/-- The dictionary that is written by `Camera.save`: the parameters by name, and the numbers of the classes. -/
structure File where
  values : List (String × ℝ)
  projection : Option ℕ := none
  lens : Option ℕ := none

/-- The content of a file. -/
inductive Content
  | json (f : File)
  | text (t : String)

/-- The files by name. -/
abbrev Disk := String → Option Content

/-- camera.py:46-48. -/
def projCode : Projection.Kind → ℕ
  | .rectilinear => 0
  | .cylindrical => 1
  | .equirectangular => 2

/-- camera.py:50-52. -/
def lensCode : LKind → ℕ
  | .none => 0
  | .abc => 1
  | .brown => 2

/-- Is the value that is read (parameter_set.py:104-109) something `json.dumps` accepts? -/
def Serialisable (q : Param) : Prop := q.value = none ∨ q.boxed = false

/-- The entries of the dictionary of an object (camera.py:1530-1531, projection.py:211-212); the name `skip` is left out. -/
noncomputable def exports (s : St) (v : View) (skip : Option String) : List (String × Pid) :=
  (s.dict v).filter fun kv => some kv.1 ≠ skip

/-- `open(filename, "w")` followed by `fp.write(json.dumps(…))`: the file is emptied first, then the dictionary is
converted, which raises a TypeError for 0-dimensional arrays. -/
noncomputable def writeJson (disk : Disk) (name : String) (ok : Prop) (f : File) : Disk × Except Err Unit :=
  let disk := Function.update disk name (some (.text ""))
  if ok then (Function.update disk name (some (.json f)), .ok ()) else (disk, .error .typeError)

/-- camera.py:1521-1550 `Camera.save`. -/
noncomputable def save (s : St) (c : ℕ) (disk : Disk) (name : String) : Disk × Except Err Unit :=
  let keys := exports s (.cam c) (some "focallength_px")
  let f : File :=
    { values := keys.map fun kv => (kv.1, s.rd kv.2)
      projection := (s.cams c).bind fun C => (s.projs C.proj).map fun P => projCode P.kind
      lens := (s.cams c).bind fun C => (s.lenses C.lens).map fun L => lensCode L.kind }
  writeJson disk name (∀ kv ∈ keys, Serialisable (s.par kv.2)) f

/-- `fp.read()` and `json.loads`: a missing file raises FileNotFoundError, an unreadable text a ValueError
(both `valueError` here). -/
def readJson (disk : Disk) (name : String) : Except Err File :=
  match disk name with
  | some (.json f) => .ok f
  | _ => .error .valueError

/-- The values the constructor computes for `image=(100, 50), focallength_px=100` (projection.py:89-190). -/
noncomputable def initArgs : PField → Option ℝ
  | .fx | .fy => some 100
  | .cx => some 50
  | .cy => some 25
  | .iw => some 100
  | .ih => some 50
  | _ => none

/-- camera.py:1564-1572; an unknown number leaves the variable unbound. -/
def projOf : Option ℕ → Except Err Projection.Kind
  | none => .ok .rectilinear
  | some 0 => .ok .rectilinear
  | some 1 => .ok .cylindrical
  | some 2 => .ok .equirectangular
  | some _ => .error .unboundLocal

/-- camera.py:1574-1583. -/
def lensOfCode : Option ℕ → Except Err LKind
  | none => .ok .none
  | some 0 => .ok .none
  | some 1 => .ok .abc
  | some 2 => .ok .brown
  | some _ => .error .unboundLocal

/-- `for key in variables: setattr(self, key, variables[key])` (camera.py:1585-1586 and the `load` of the parts). -/
noncomputable def assignAll (s : St) (v : View) (vals : List (String × ℝ)) : St :=
  vals.foldl (fun s nx => s.step (.set v nx.1 (some nx.2) false)) s

/-- camera.py:1552-1586 `Camera.load` of the camera `c`; `p`, `l`, `o` are the new objects. -/
noncomputable def load (s : St) (c p l o : ℕ) (disk : Disk) (name : String) : Except Err St := do
  let f ← readJson disk name
  let kp ← projOf f.projection
  let kl ← lensOfCode f.lens
  let s := s.step (.newProj p kp initArgs false)
  let s := s.step (.newLens l kl fun _ => none)
  let s := s.step (.newOrient o .thr fun _ => none)
  let s := s.step (.newCam c p o l)
  pure (assignAll s (.cam c) f.values)

/-- camera.py:1590-1606 `load_camera`; `p0`, `o0`, `l0` are the objects of the camera that is made first. -/
noncomputable def loadCamera (s : St) (c p0 o0 l0 p l o : ℕ) (disk : Disk) (name : String) : Except Err St :=
  let s := s.step (.newProj p0 .rectilinear initArgs false)
  let s := s.step (.newOrient o0 .thr fun _ => none)
  let s := s.step (.newLens l0 .none fun _ => none)
  load (s.step (.newCam c p0 o0 l0)) c p l o disk name

/-- What `getattr(self, key)` gives in the `save` of a part (an instance attribute wins over the parameter). -/
noncomputable def attrOf (s : St) (v : View) (n : String) : ℝ := ((s.getattr v n).bind id).getD 0

/-- The name that is left out (projection.py:212; the others leave out nothing). -/
def skipOf : View → Option String
  | .proj _ => some "focallength_px"
  | _ => none

/-- `save` of a projection (projection.py:210-214), orientation (spatial.py:205-209) or lens (lens_distortion.py:64-68).
Instance attributes are numbers. -/
noncomputable def savePart (s : St) (v : View) (disk : Disk) (name : String) : Disk × Except Err Unit :=
  let keys := exports s v (skipOf v)
  writeJson disk name (∀ kv ∈ keys, Serialisable (s.par kv.2)) { values := keys.map fun kv => (kv.1, attrOf s v kv.1) }

/-- `load` of a part (projection.py:216-220, spatial.py:211-215, lens_distortion.py:70-74). -/
noncomputable def loadPart (s : St) (v : View) (disk : Disk) (name : String) : Except Err St := do
  let f ← readJson disk name
  pure (assignAll s v f.values)

/-- The first argument of `setGPSpos`: a number, a sequence with two or three numbers, or a string. -/
inductive GpsArg
  | num (x : ℝ)
  | tuple (lat lon : ℝ) (h : Option ℝ)
  | str (t : String)

/-- camera.py:510-513: the assignments. -/
noncomputable def storeGPS (s : St) (c : ℕ) (lat lon elev : Option (ℝ × Bool)) : St :=
  let set (s : St) (n : String) : Option (ℝ × Bool) → St
    | some (x, b) => s.step (.set (.cam c) n (some x) b)
    | none => s.step (.set (.cam c) n none false)
  let s := set (set s "gps_lat" lat) "gps_lon" lon
  match elev with
  | some e => set s "elevation_m" (some e)
  | none => s

/-- camera.py:469-513 `setGPSpos`.  `parse t height` is `gps.gpsFromString`: the two or three numbers, or an error (TypeError
if a single coordinate or nothing is found, because that cannot be unpacked).  A sequence goes through `splitGPS` (gps.py:327-339),
which gives 0-dimensional arrays, and replaces the elevation, by None if there is no third number. -/
noncomputable def setGPSpos (parse : String → Option ℝ → Except Err (ℝ × ℝ × Option ℝ)) (s : St) (c : ℕ) (lat : GpsArg) (lon elevation : Option ℝ) :
    Except Err St :=
  match lat with
  | .str t => do
    let (la, lo, el) ← parse t elevation
    pure (storeGPS s c (some (la, false)) (some (lo, false)) (el.map fun e => (e, false)))
  | .tuple la lo h => .ok (storeGPS s c (some (la, true)) (some (lo, true)) (h.map fun e => (e, true)))
  | .num la => .ok (storeGPS s c (some (la, false)) (lon.map fun x => (x, false)) (elevation.map fun e => (e, false)))

end Persist
