import Verif.Model.DemoQt

/-! # What the Qt demonstration is to show -/

namespace DemoQt.Spec

open Camera

/-- The camera of a set of slider values: with a locked aspect ratio both focal lengths are the first one, with a centred image the
optical centre is the middle of the image. -/
noncomputable def camera (v : Slider → ℝ) (lock centre : Bool) (k : Projection.Kind) : Cam where
  kind := k
  intr :=
    { fx := v .focallength_x_px
      fy := if lock then v .focallength_x_px else v .focallength_y_px
      cx := if centre then v .image_width_px / 2 else v .center_x_px
      cy := if centre then v .image_height_px / 2 else v .center_y_px
      w := v .image_width_px
      h := v .image_height_px }
  orient := .thr ⟨v .elevation_m, v .tilt_deg, v .roll_deg, v .heading_deg, v .pos_x_m, v .pos_y_m⟩
  lens := noDistortion

end DemoQt.Spec
