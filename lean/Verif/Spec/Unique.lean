import Verif.Spec.Same
import Verif.Spec.Stereo

/-! # Different cameras take different pictures (C165) -/

namespace Camera

/-- Both cameras show everything that is far enough away at the same pixels. -/
def Alike (a b : Cam) (hide : Bool) : Prop :=
  ∃ N : ℝ, ∀ P : V3 ℝ, N ≤ P.norm → V2.SameN (imageFromSpace a P.num hide) (imageFromSpace b P.num hide)

/-- Equal parameters, up to full turns of the angles; the angles of orientations of different classes are not compared. -/
def SameParameters : Orient → Orient → Prop
  | .thr p, .thr q => p.elevation_m = q.elevation_m ∧ p.pos_x_m = q.pos_x_m ∧ p.pos_y_m = q.pos_y_m ∧ p.tilt_deg = q.tilt_deg ∧
      SameAngle p.heading_deg q.heading_deg ∧ SameAngle p.roll_deg q.roll_deg
  | .ypr p, .ypr q => p.elevation_m = q.elevation_m ∧ p.pos_x_m = q.pos_x_m ∧ p.pos_y_m = q.pos_y_m ∧ p.pitch_deg = q.pitch_deg ∧
      SameAngle p.yaw_deg q.yaw_deg ∧ SameAngle p.roll_deg q.roll_deg
  | .thr p, .ypr q => p.elevation_m = q.elevation_m ∧ p.pos_x_m = q.pos_x_m ∧ p.pos_y_m = q.pos_y_m ∧ p.tilt_deg = 90 + q.pitch_deg ∧
      SameAngle p.heading_deg q.yaw_deg ∧ SameAngle p.roll_deg (-q.roll_deg)
  | .ypr p, .thr q => p.elevation_m = q.elevation_m ∧ p.pos_x_m = q.pos_x_m ∧ p.pos_y_m = q.pos_y_m ∧ 90 + p.pitch_deg = q.tilt_deg ∧
      SameAngle p.yaw_deg q.heading_deg ∧ SameAngle (-p.roll_deg) q.roll_deg

/-- The camera looks neither straight down nor straight up. -/
def Orient.Inclined : Orient → Prop
  | .thr p => 0 < p.tilt_deg ∧ p.tilt_deg < 180
  | .ypr p => -90 < p.pitch_deg ∧ p.pitch_deg < 90

end Camera
