import Verif.Model.Camera

/-! # Sizes for the bounds of rounding errors -/

namespace Rounded

/-- The entries of two matrices differ by at most `e`. -/
def Near (e : ℝ) (A B : M3) : Prop :=
  |A.r0.x - B.r0.x| ≤ e ∧ |A.r0.y - B.r0.y| ≤ e ∧ |A.r0.z - B.r0.z| ≤ e ∧
  |A.r1.x - B.r1.x| ≤ e ∧ |A.r1.y - B.r1.y| ≤ e ∧ |A.r1.z - B.r1.z| ≤ e ∧
  |A.r2.x - B.r2.x| ≤ e ∧ |A.r2.y - B.r2.y| ≤ e ∧ |A.r2.z - B.r2.z| ≤ e

/-- The sum of the coordinates of a vector, without their signs. -/
def size (d : V3 ℝ) : ℝ := |d.x| + |d.y| + |d.z|

/-- Angles of at most one turn. -/
def Turn : Camera.Orient → Prop
  | .thr p => |p.tilt_deg| ≤ 360 ∧ |p.roll_deg| ≤ 360 ∧ |p.heading_deg| ≤ 360
  | .ypr p => |p.pitch_deg| ≤ 360 ∧ |p.roll_deg| ≤ 360 ∧ |p.yaw_deg| ≤ 360

open Projection in
/-- How sensitive the ray of a pixel of a panorama is: the angle of the pixel to the left or right, and its height; for the equirectangular
projection with the growth of the tangent towards the poles. -/
noncomputable def panSize (k : Kind) (I : Intr) (p : V2 ℝ) : ℝ :=
  2 + |(p.x - I.cx) / I.fx| +
    match k with
    | .equirectangular => |Real.tan ((p.y - I.cy) / I.fy)| + |(p.y - I.cy) / I.fy| * (1 + Real.tan ((p.y - I.cy) / I.fy) ^ 2)
    | _ => |(p.y - I.cy) / I.fy|

end Rounded
