import Verif.Model.Camera

/-! # Model of the numeric functions of `cameratransform/gps.py` -/

open Classical

namespace Gps

open Num (fin)

/-- A row with latitude, longitude (degrees) and, for rows with three columns, a height. -/
structure Pt where
  lat : Num
  lon : Num
  h : Option Num := none

/-- gps.py:327-339 `splitGPS` (with `keep_deg=False`): angles in radians; `h1 = None` if there is no third
column (the IndexError of line 337). -/
noncomputable def splitGPS (p : Pt) : Num × Num × Option Num :=
  (Num.deg2rad p.lat, Num.deg2rad p.lon, p.h)

/-- gps.py:281-325 `getBearing`. -/
noncomputable def getBearing (p1 p2 : Pt) : Num :=
  let (lat1, lon1, _) := splitGPS p1
  let (lat2, lon2, _) := splitGPS p2
  let dL := lon2 - lon1
  let X := Num.cos lat2 * Num.sin dL
  let Y := Num.cos lat1 * Num.sin lat2 - Num.sin lat1 * Num.cos lat2 * Num.cos dL
  let beta := Num.arctan2 X Y
  Num.rad2deg beta

/-- gps.py:341-395 `getDistance`. -/
noncomputable def getDistance (p1 p2 : Pt) : Num :=
  let (lat1, lon1, h1) := splitGPS p1
  let (lat2, lon2, h2) := splitGPS p2
  let dlon := lon2 - lon1
  let dlat := lat2 - lat1
  let a := (Num.sin (dlat / fin 2)).npow 2 + Num.cos lat1 * Num.cos lat2 * (Num.sin (dlon / fin 2)).npow 2
  let c := fin 2 * Num.arcsin (Num.sqrt a)
  let distance := fin 6371000 * c
  match h1, h2 with
  | some h1, some h2 =>
    let dH := Num.abs (h1 - h2)
    Num.sqrt (distance.npow 2 + dH.npow 2)
  | _, _ => distance

/-- gps.py:397-458 `moveDistance`; the radius includes the height of the start point (line 449-450), and the
height is copied to the target (line 457). -/
noncomputable def moveDistance (start : Pt) (distance bearing : Num) : Pt :=
  let bearing := Num.deg2rad bearing
  let (lat1, lon1, h1) := splitGPS start
  let R := match h1 with
    | some h => fin 6371000 + h
    | none => fin 6371000
  let lat2 := Num.arcsin (Num.sin lat1 * Num.cos (distance / R) +
    Num.cos lat1 * Num.sin (distance / R) * Num.cos bearing)
  let lon2 := lon1 + Num.arctan2 (Num.sin bearing * Num.sin (distance / R) * Num.cos lat1)
    (Num.cos (distance / R) - Num.sin lat1 * Num.sin lat2)
  ⟨Num.rad2deg lat2, Num.rad2deg lon2, h1⟩

/-- An array of gps points: a single row (1-D) or N rows (2-D). -/
inductive Arr where
  | one (p : Pt)
  | many (rows : List Pt)

/-- `len(gps[..., :])`, gps.py:462: the number of *columns* of a single row, but the number of *rows* of a
2-D array. -/
def Arr.len : Arr → ℕ
  | .one p => if p.h.isSome then 3 else 2
  | .many rows => rows.length

/-- The rows of an array. -/
def Arr.rows : Arr → List Pt
  | .one p => [p]
  | .many rows => rows

/-- `gps[..., 2]` of one row (gps.py:465): IndexError for rows with two columns.  (For an array with no rows
numpy raises too; the list version does not.) -/
def Pt.col2 (p : Pt) : Except Camera.PyErr Num :=
  match p.h with
  | some h => .ok h
  | none => .error .indexError

/-- gps.py:462-465: the heights. -/
def heights (gps : Arr) : Except Camera.PyErr (List Num) :=
  if gps.len = 2 then .ok (gps.rows.map fun _ => fin 0)
  else gps.rows.mapM Pt.col2

/-- gps.py:466-468, for one row with its height. -/
noncomputable def spaceRow (gps0 p : Pt) (height : Num) : V3 Num :=
  let distance := getDistance gps0 p
  let bearing_rad := Num.deg2rad (getBearing gps0 p)
  ⟨distance * Num.sin bearing_rad, distance * Num.cos bearing_rad, height⟩

/-- gps.py:461-468 `spaceFromGPS`, as the list of the rows of the result. -/
noncomputable def spaceFromGPS (gps : Arr) (gps0 : Pt) : Except Camera.PyErr (List (V3 Num)) := do
  let hs ← heights gps
  return (gps.rows.zip hs).map fun q => spaceRow gps0 q.1 q.2

/-- `np.linalg.norm(space[..., :2], axis=-1)`. -/
noncomputable def norm2 (x y : Num) : Num := Num.sqrt (x * x + y * y)

/-- gps.py:471-477 `gpsFromSpace`, for one row with three columns. -/
noncomputable def gpsFromSpace (s : V3 Num) (gps0 : Pt) : Pt :=
  let bearing := Num.rad2deg (Num.arctan2 s.x s.y)
  let distance := norm2 s.x s.y
  let target := moveDistance gps0 distance bearing
  ⟨target.lat, target.lon, some s.z⟩

/-- camera.py:1159-1173 `Camera.gpsFromSpace`: the reference point has the elevation as height. -/
noncomputable def cameraGpsFromSpace (gps_lat gps_lon elevation : ℝ) (s : V3 Num) : Pt :=
  gpsFromSpace s ⟨fin gps_lat, fin gps_lon, some (fin elevation)⟩

/-- camera.py:1175-1189 `Camera.spaceFromGPS`: the reference point has no height. -/
noncomputable def cameraSpaceFromGPS (gps_lat gps_lon : ℝ) (gps : Arr) : Except Camera.PyErr (List (V3 Num)) :=
  spaceFromGPS gps ⟨fin gps_lat, fin gps_lon, none⟩

end Gps
