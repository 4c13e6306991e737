import Verif.Model.Demo

/-! # What the demonstration is to show -/

namespace Demo.Spec

open Camera

/-- The camera that a set of sliders describes, with the angles of one of the two conventions: both focal lengths are the slider's, the
optical centre is the middle of the image. -/
noncomputable def camera (v : Slider → ℝ) (l : Label) : Cam where
  kind := .rectilinear
  intr := ⟨v .focallength_px, v .focallength_px, v .image_width_px / 2, v .image_height_px / 2, v .image_width_px, v .image_height_px⟩
  orient := match l with
    | .tiltHeadingRoll => .thr ⟨v .elevation_m, v .tilt_deg, v .roll_deg, v .heading_deg, v .pos_x_m, v .pos_y_m⟩
    | .yawPitchRoll => .ypr ⟨v .elevation_m, v .yaw_deg, v .pitch_deg, v .roll_deg_ypr, v .pos_x_m, v .pos_y_m⟩
  lens := noDistortion

/-- Two cameras that have the same picture of every scene: every point in space gets the same pixel (with and without hiding of the
points behind the camera), and every pixel the same ray. -/
def SameView (c d : Cam) : Prop :=
  (∀ p hide, imageFromSpace c p hide = imageFromSpace d p hide) ∧ (∀ p normed, Camera.getRay c p normed = Camera.getRay d p normed) ∧
  c.intr = d.intr

end Demo.Spec
