import Verif.Model.RoundedTest
import Verif.Model.RoundedGps

/-! # Pixels of gps positions and gps positions of pixels with rounding errors (camera.py:1189-1222)

As in `Rounded`, every operation has a relative error of at most `u`; overflow and underflow are not modelled. -/

namespace Rounded

open Projection

/-- camera.py:1222 `imageFromGPS` of one point with a height, without lens distortion.  The reference is only the latitude and longitude of the camera
(camera.py:1189), and the height is taken over as it is (gps.py:465). -/
def ImageFromGPS (u : ℝ) (k : Kind) (I : Intr) (t : V3 ℝ) (R : M3) (lat0 lon0 lat lon h : ℝ) (out : V2 Num) : Prop :=
  ∃ X Y, SpaceFromGPS u lat0 lon0 none lat lon (some h) X Y ∧ ImageNum u k I t R ⟨X, Y, .fin h⟩ out

/-- camera.py:1206 `gpsFromImage` of one pixel without lens distortion, when the coordinate `i` is given.  The reference has the elevation of the camera
(camera.py:1173), which becomes a part of the radius.  A point with a nan coordinate is left open. -/
def GpsFromImage (u : ℝ) (k : Kind) (I : Intr) (t : V3 ℝ) (Rinv : M3) (lat0 lon0 : ℝ) (p : V2 ℝ) (i : Fin 3) (v : ℝ) (outLat outLon outZ : Num) : Prop :=
  ∃ g R, SpaceFromImageAny u k I t Rinv p i v g ∧ Radius u (some t.z) R ∧
    ((∃ q : V3 ℝ, g.Is q ∧ GpsFromSpace u lat0 lon0 R q.x q.y outLat outLon ∧ Num.Is outZ q.z) ∨ ∃ j, g.get j = .nan)

end Rounded
