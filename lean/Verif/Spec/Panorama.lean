import Verif.Spec.Turned

/-! # What a level panorama shows: bearing and elevation -/

open Camera Projection

namespace Panorama

/-- The direction in which the camera looks, in degrees from the y axis of space, clockwise. -/
def heading : Orient → ℝ
  | .thr p => p.heading_deg
  | .ypr p => p.yaw_deg

/-- The horizontal distance. -/
noncomputable def ground (D : V3 ℝ) : ℝ := Real.sqrt (D.x ^ 2 + D.y ^ 2)

/-- `D` points into the direction `b` (in radians from the y axis, clockwise). -/
def Bearing (D : V3 ℝ) (b : ℝ) : Prop := D.x = ground D * Real.sin b ∧ D.y = ground D * Real.cos b

/-- `D` points up by the angle `a`. -/
def Elevation (D : V3 ℝ) (a : ℝ) : Prop := |a| < Real.pi / 2 ∧ D.z = ground D * Real.tan a

/-- The height of `D` in a panorama: the slope in cylindrical ones, the angle in equirectangular ones. -/
def Height (k : Kind) (D : V3 ℝ) (y : ℝ) : Prop :=
  match k with
  | .equirectangular => Elevation D y
  | _ => D.z = ground D * y

end Panorama
