import Verif.Model.Gps

/-! # What the property tests of gps coordinates use besides `Gps` (tests/test_gps.py) -/

namespace DrawnGps

open Gps

/-- gps.py:471-477 `gpsFromSpace`, for one row with two columns (tests/test_gps.py:90). -/
noncomputable def gpsFromSpace2 (x y : Num) (gps0 : Pt) : Pt :=
  let bearing := Num.rad2deg (Num.arctan2 x y)
  let distance := norm2 x y
  moveDistance gps0 distance bearing

/-- tests/test_gps.py:83: the ranges of `test_gpsSpaceBackForth`. -/
structure Ok (lat lon distance bearing : ℝ) : Prop where
  lat : -89 ≤ lat ∧ lat ≤ 89
  lon : -89 ≤ lon ∧ lon ≤ 89
  distance : 1 ≤ distance ∧ distance ≤ 1000
  bearing : -180 ≤ bearing ∧ bearing ≤ 180

/-- tests/test_gps.py:97-100: the loops that bring the difference of two bearings into [-180, 180]; a body is executed as often as the loop
needs it. -/
inductive Loop : ℝ → ℝ → Prop
  | done (x : ℝ) (h : -180 ≤ x ∧ x ≤ 180) : Loop x x
  | down (x y : ℝ) (h : 180 < x) : Loop (x - 360) y → Loop x y
  | up (x y : ℝ) (h : x < -180) : Loop (x + 360) y → Loop x y

end DrawnGps
