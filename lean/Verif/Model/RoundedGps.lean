import Verif.Model.Rounded

/-! # Distances, bearings and positions from gps coordinates with rounding errors

The relations say which results the functions of `gps.py` can have if every operation and every function of numpy has a relative error of at most `u`
(see `Verif.Model.Rounded`). The computations of the same angles in `getDistance` and `getBearing` may err differently. -/

open Classical

namespace Rounded

/-- gps.py:383-386: the sum under the root, of angles in radians. A division by two is an operation like every other. -/
def Haversine (u φ1 o1 φ2 o2 a : ℝ) : Prop :=
  ∃ dlon dlat x y s1 q1 c1 c2 p s2 q2 r, Rd u (o2 - o1) dlon ∧ Rd u (φ2 - φ1) dlat ∧ Rd u (dlat / 2) x ∧ Rd u (dlon / 2) y ∧
    Rd u (Real.sin x) s1 ∧ Rd u (s1 ^ 2) q1 ∧ Rd u (Real.cos φ1) c1 ∧ Rd u (Real.cos φ2) c2 ∧ Rd u (c1 * c2) p ∧ Rd u (Real.sin y) s2 ∧
    Rd u (s2 ^ 2) q2 ∧ Rd u (p * q2) r ∧ Rd u (q1 + r) a

/-- gps.py:380-389, 395 `getDistance` of two points without heights, in degrees. The root of a negative number and the arcsine of a number above 1 are nan. -/
def Distance (u lat1 lon1 lat2 lon2 : ℝ) (out : Num) : Prop :=
  ∃ φ1 o1 φ2 o2 a, Deg2rad u lat1 φ1 ∧ Deg2rad u lon1 o1 ∧ Deg2rad u lat2 φ2 ∧ Deg2rad u lon2 o2 ∧ Haversine u φ1 o1 φ2 o2 a ∧
    if a < 0 then out = .nan else ∃ t, Rd u (Real.sqrt a) t ∧
      if 1 < t then out = .nan else ∃ w c d, Rd u (Real.arcsin t) w ∧ Rd u (2 * w) c ∧ Rd u (6371000 * c) d ∧ Num.Is out d

/-- gps.py:380-395 `getDistance` of two points with heights: lines 391-393 follow. -/
def DistanceHeights (u lat1 lon1 h1 lat2 lon2 h2 : ℝ) (out : Num) : Prop :=
  ∃ d, Distance u lat1 lon1 lat2 lon2 d ∧
    ((d = .nan ∧ out = .nan) ∨ ∃ r k n, Num.Is d r ∧ Rd u (h1 - h2) k ∧ Hyp u r |k| n ∧ Num.Is out n)

/-- `np.arctan2(y, x)` for finite numbers. The signs of zeros are left open. -/
def Arctan2Any (u y x out : ℝ) : Prop := Rd u (Complex.arg ⟨x, y⟩) out ∨ y = 0 ∧ x ≤ 0 ∧ (Rd u Real.pi out ∨ Rd u (-Real.pi) out)

/-- `np.rad2deg`: the multiplication with the constant `180 / pi`. -/
def Rad2deg (u r d : ℝ) : Prop := ∃ k c, Rd u Real.pi k ∧ Rd u (180 / k) c ∧ Rd u (r * c) d

/-- gps.py:319-325 `getBearing`. -/
def Bearing (u lat1 lon1 lat2 lon2 out : ℝ) : Prop :=
  ∃ φ1 o1 φ2 o2 dL c2 sL x c1 s2 p s1 q cL r y b, Deg2rad u lat1 φ1 ∧ Deg2rad u lon1 o1 ∧ Deg2rad u lat2 φ2 ∧ Deg2rad u lon2 o2 ∧
    Rd u (o2 - o1) dL ∧ Rd u (Real.cos φ2) c2 ∧ Rd u (Real.sin dL) sL ∧ Rd u (c2 * sL) x ∧
    Rd u (Real.cos φ1) c1 ∧ Rd u (Real.sin φ2) s2 ∧ Rd u (c1 * s2) p ∧ Rd u (Real.sin φ1) s1 ∧ Rd u (s1 * c2) q ∧ Rd u (Real.cos dL) cL ∧
    Rd u (q * cL) r ∧ Rd u (p - r) y ∧ Arctan2Any u x y b ∧ Rad2deg u b out

/-- gps.py:380-395 `getDistance` of two points with or without heights. -/
def DistanceOf (u lat1 lon1 : ℝ) (h1 : Option ℝ) (lat2 lon2 : ℝ) (h2 : Option ℝ) (out : Num) : Prop :=
  match h1, h2 with
  | some h1, some h2 => DistanceHeights u lat1 lon1 h1 lat2 lon2 h2 out
  | _, _ => Distance u lat1 lon1 lat2 lon2 out

/-- gps.py:466-468 `spaceFromGPS`: the two horizontal coordinates of the second point, seen from the first. -/
def SpaceFromGPS (u lat1 lon1 : ℝ) (h1 : Option ℝ) (lat2 lon2 : ℝ) (h2 : Option ℝ) (x y : Num) : Prop :=
  ∃ d β b, DistanceOf u lat1 lon1 h1 lat2 lon2 h2 d ∧ Bearing u lat1 lon1 lat2 lon2 β ∧ Deg2rad u β b ∧
    ((d = .nan ∧ x = .nan ∧ y = .nan) ∨ ∃ r s c vx vy, Num.Is d r ∧ Rd u (Real.sin b) s ∧ Rd u (Real.cos b) c ∧ Rd u (r * s) vx ∧
      Rd u (r * c) vy ∧ Num.Is x vx ∧ Num.Is y vy)

/-- gps.py:444-458 `moveDistance`, with the radius `R` of line 448-450 (see `Radius`). The sines and cosines that occur twice are the same numbers.
The arcsine of a number beyond 1 is nan, and so is the longitude then. -/
def MoveDistance (u lat lon R d bearing : ℝ) (outLat outLon : Num) : Prop :=
  ∃ φ o b a s1 ca c1 sa cb p q r z, Deg2rad u lat φ ∧ Deg2rad u lon o ∧ Deg2rad u bearing b ∧ Rd u (d / R) a ∧ Rd u (Real.sin φ) s1 ∧
    Rd u (Real.cos a) ca ∧ Rd u (Real.cos φ) c1 ∧ Rd u (Real.sin a) sa ∧ Rd u (Real.cos b) cb ∧ Rd u (s1 * ca) p ∧ Rd u (c1 * sa) q ∧
    Rd u (q * cb) r ∧ Rd u (p + r) z ∧
    if 1 < |z| then outLat = .nan ∧ outLon = .nan else
      ∃ w sb m1 m2 sw n x ψ l la lo, Rd u (Real.arcsin z) w ∧ Rd u (Real.sin b) sb ∧ Rd u (sb * sa) m1 ∧ Rd u (m1 * c1) m2 ∧ Rd u (Real.sin w) sw ∧
        Rd u (s1 * sw) n ∧ Rd u (ca - n) x ∧ Arctan2Any u m2 x ψ ∧ Rd u (o + ψ) l ∧ Rad2deg u w la ∧ Rad2deg u l lo ∧
        Num.Is outLat la ∧ Num.Is outLon lo

/-- gps.py:448-450: the radius, of a start point without and with a height. -/
def Radius (u : ℝ) (h : Option ℝ) (R : ℝ) : Prop :=
  match h with
  | none => R = 6371000
  | some h => Rd u (6371000 + h) R

/-- gps.py:471-477 `gpsFromSpace`: latitude and longitude, of a reference point with the radius `R`. -/
def GpsFromSpace (u lat lon R x y : ℝ) (outLat outLon : Num) : Prop :=
  ∃ ψ β n, Arctan2Any u x y ψ ∧ Rad2deg u ψ β ∧ Hyp u x y n ∧ MoveDistance u lat lon R n β outLat outLon

/-- tests/test_gps.py:97-100: the loops that bring the difference of two bearings into [-180, 180], with a rounding error in every step. -/
inductive TurnLoop (u : ℝ) : ℝ → ℝ → Prop
  | done (x : ℝ) (h : -180 ≤ x ∧ x ≤ 180) : TurnLoop u x x
  | down (x y z : ℝ) (h : 180 < x) : Rd u (x - 360) y → TurnLoop u y z → TurnLoop u x z
  | up (x y z : ℝ) (h : x < -180) : Rd u (x + 360) y → TurnLoop u y z → TurnLoop u x z

end Rounded
