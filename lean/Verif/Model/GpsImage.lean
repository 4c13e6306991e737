import Verif.Model.Camera
import Verif.Model.Gps

/-! # Model: from the image to gps coordinates and back (camera.py:1191-1222) -/

open Classical Camera

namespace GpsImage

/-- camera.py:1191-1206 `gpsFromImage` for one image point.  The attribute `elevation_m` of the camera is the z coordinate
of its position. -/
noncomputable def gpsFromImage (c : Cam) (gps_lat gps_lon : ℝ) (p : V2 Num) (k : Constraint) : Except PyErr Gps.Pt := do
  let s ← spaceFromImage c p k
  return Gps.cameraGpsFromSpace gps_lat gps_lon c.orient.pos.z s

/-- camera.py:1208-1222 `imageFromGPS`, as the list of the rows of the result. -/
noncomputable def imageFromGPS (c : Cam) (gps_lat gps_lon : ℝ) (gps : Gps.Arr) : Except PyErr (List (V2 Num)) := do
  let s ← Gps.cameraSpaceFromGPS gps_lat gps_lon gps
  return s.map fun P => imageFromSpace c P

end GpsImage
