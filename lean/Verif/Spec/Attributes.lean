import Verif.Spec.System

/-! # The public attributes of a camera -/

namespace Sys

/-- The attributes of the two classes of orientations, as the documentation names them. -/
def orientNames : OKind → List String
  | .thr => ["elevation_m", "tilt_deg", "roll_deg", "heading_deg", "pos_x_m", "pos_y_m"]
  | .ypr => ["elevation_m", "yaw_deg", "pitch_deg", "roll_deg", "pos_x_m", "pos_y_m"]

/-- The attributes of the lenses. -/
def lensNames : LKind → List String
  | .none => []
  | .brown => ["k1", "k2", "k3"]
  | .abc => ["a", "b", "c"]

/-- The attributes of a projection. -/
def projNames : List String :=
  ["focallength_x_px", "focallength_y_px", "focallength_px", "center_x_px", "center_y_px", "image_width_px", "image_height_px",
    "sensor_width_mm", "sensor_height_mm"]

/-- The camera with the attributes `a`. -/
noncomputable def attributeCamera (spline : LensModel.Spline) (k : Projection.Kind) (ko : OKind) (kl : LKind) (a : String → ℝ) : Camera.Cam :=
  let I : Projection.Intr :=
    { fx := a "focallength_x_px", fy := a "focallength_y_px", cx := a "center_x_px", cy := a "center_y_px", w := a "image_width_px", h := a "image_height_px" }
  { kind := k
    intr := I
    orient := match ko with
      | .thr => .thr { elevation_m := a "elevation_m", tilt_deg := a "tilt_deg", roll_deg := a "roll_deg", heading_deg := a "heading_deg",
                       pos_x_m := a "pos_x_m", pos_y_m := a "pos_y_m" }
      | .ypr => .ypr { elevation_m := a "elevation_m", yaw_deg := a "yaw_deg", pitch_deg := a "pitch_deg", roll_deg := a "roll_deg",
                       pos_x_m := a "pos_x_m", pos_y_m := a "pos_y_m" }
    lens := match kl with
      | .none => Camera.noDistortion
      | .brown => (LensModel.brown spline I (a "k1") (a "k2") (a "k3")).lens
      | .abc => (LensModel.abc spline I (a "a") (a "b") (a "c")).lens }

end Sys
