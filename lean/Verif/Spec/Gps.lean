import Verif.Model.Gps

/-! # The sphere -/

open Classical

namespace Geo

/-- Degrees to radians. -/
noncomputable def rad (d : ℝ) : ℝ := d * (Real.pi / 180)

/-- Radius of the earth in metres. -/
def earth : ℝ := 6371000

/-- The direction of a place on the sphere, seen from the centre (latitude and longitude in degrees). -/
noncomputable def place (lat lon : ℝ) : V3 ℝ :=
  ⟨Real.cos (rad lat) * Real.cos (rad lon), Real.cos (rad lat) * Real.sin (rad lon), Real.sin (rad lat)⟩

/-- The direction towards north at a place. -/
noncomputable def north (lat lon : ℝ) : V3 ℝ :=
  ⟨-Real.sin (rad lat) * Real.cos (rad lon), -Real.sin (rad lat) * Real.sin (rad lon), Real.cos (rad lat)⟩

/-- The direction towards east at a place. -/
noncomputable def east (_lat lon : ℝ) : V3 ℝ := ⟨-Real.sin (rad lon), Real.cos (rad lon), 0⟩

/-- `t` is the central angle between two places. -/
def IsAngle (u v : V3 ℝ) (t : ℝ) : Prop := 0 ≤ t ∧ t ≤ Real.pi ∧ Real.cos t = u.dot v

/-- The direction one is in after going the angle `t` from `(lat, lon)` in the direction `b` (radians,
clockwise from north) along a great circle. -/
noncomputable def walk (lat lon t b : ℝ) : V3 ℝ :=
  (place lat lon).mulS (Real.cos t) +
    ((north lat lon).mulS (Real.cos b) + (east lat lon).mulS (Real.sin b)).mulS (Real.sin t)

end Geo

namespace Gps
/-- The row holds the given latitude and longitude. -/
def Pt.Is (p : Pt) (lat lon : ℝ) : Prop := Num.Is p.lat lat ∧ Num.Is p.lon lon
/-- A place without height as argument. -/
def pt (lat lon : ℝ) : Pt := ⟨.fin lat, .fin lon, none⟩
/-- A place with height as argument. -/
def ptH (lat lon h : ℝ) : Pt := ⟨.fin lat, .fin lon, some (.fin h)⟩
end Gps
