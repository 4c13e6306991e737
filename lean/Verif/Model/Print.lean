import Verif.Model.System
import Verif.Model.GpsText

/-! # Model of the printed descriptions: `__str__` of cameras and their parts

The format strings are written line by line.  A number that is None would raise a TypeError (`none`); it does not occur. -/

set_option linter.constructorNameAsVariable false

open Classical Sys Py

namespace Print

/-- `"%.pf" % x`. -/
noncomputable def num (p : ℕ) (x : ℝ) : Text := GpsText.formatF ⟨false, 0⟩ p x

/-- `"%d" % x`. -/
noncomputable def int (x : ℝ) : Text := GpsText.formatD ⟨false, 0⟩ x

/-- A line with a number. -/
def line (label : String) (t : Text) (unit : String) : Text := label.toList ++ (t ++ (unit.toList ++ ['\n']))

/-- `self.parameters.<name>` (parameter_set.py:104-110): the parameter, not an instance attribute. -/
def param (s : St) (v : View) (name : String) : Option ℝ := ((s.dict v).lookup name).bind fun q => (s.par q).read

/-- `type(self).__name__` of a projection. -/
def projName : Projection.Kind → String
  | .rectilinear => "RectilinearProjection"
  | .cylindrical => "CylindricalProjection"
  | .equirectangular => "EquirectangularProjection"

/-- `type(self).__name__` of a lens. -/
def lensName : LKind → String
  | .none => "NoDistortion"
  | .brown => "BrownLensDistortion"
  | .abc => "ABCDistortion"

/-- projection.py:199-208 `__str__`. -/
noncomputable def proj (s : St) (p : ℕ) : Option Text := do
  let P ← s.projs p
  let f ← param s (.proj p) "focallength_x_px"
  let sw ← param s (.proj p) "sensor_width_mm"
  let sh ← param s (.proj p) "sensor_height_mm"
  let w ← param s (.proj p) "image_width_px"
  let h ← param s (.proj p) "image_height_px"
  pure (line "  intrinsic (" (projName P.kind).toList "):" ++
    (line "    f:\t\t" (num 1 f) " px" ++ (line "    sensor:\t" (num 2 sw ++ ('×' :: num 2 sh)) " mm" ++
      line "    image:\t" (int w ++ ('×' :: int h)) " px")))

/-- spatial.py:99-105, 248-254 `__str__`. -/
noncomputable def orient (s : St) (o : ℕ) : Option Text := do
  let O ← s.orients o
  let x ← param s (.orient o) "pos_x_m"
  let y ← param s (.orient o) "pos_y_m"
  let h ← param s (.orient o) "elevation_m"
  let position := line "  position:" [] "" ++ (line "    x:\t" (num 6 x) " m" ++ (line "    y:\t" (num 6 y) " m" ++ line "    h:\t" (num 6 h) " m"))
  match O.kind with
  | .thr =>
    let a ← param s (.orient o) "tilt_deg"
    let b ← param s (.orient o) "roll_deg"
    let c ← param s (.orient o) "heading_deg"
    pure (position ++ (line "  orientation:" [] "" ++
      (line "    tilt:\t\t" (num 6 a) "°" ++ (line "    roll:\t\t" (num 6 b) "°" ++ line "    heading:\t" (num 6 c) "°"))))
  | .ypr =>
    let a ← param s (.orient o) "yaw_deg"
    let b ← param s (.orient o) "pitch_deg"
    let c ← param s (.orient o) "roll_deg"
    pure (position ++ (line "  orientation:" [] "" ++
      (line "    yaw:\t\t" (num 6 a) "°" ++ (line "    pitch:\t\t" (num 6 b) "°" ++ line "    roll:\t" (num 6 c) "°"))))

/-- The loop of lens_distortion.py:57-58. -/
noncomputable def lensLines (s : St) (l : ℕ) : List String → Option Text
  | [] => some []
  | n :: t => do
    let x ← (s.getattr (.lens l) n).bind id
    let r ← lensLines s l t
    pure (line ("    " ++ n ++ ":\t\t") (num 3 x) "" ++ r)

/-- lens_distortion.py:54-59 `__str__`. -/
noncomputable def lens (s : St) (l : ℕ) : Option Text := do
  let L ← s.lenses l
  let r ← lensLines s l ((s.dict (.lens l)).map Prod.fst)
  pure (line "  lens (" (lensName L.kind).toList "):" ++ r)

/-- camera.py:461-467 `__str__`. -/
noncomputable def cam (s : St) (c : ℕ) : Option Text := do
  let C ← s.cams c
  let l ← lens s C.lens
  let p ← proj s C.proj
  let o ← orient s C.orient
  pure (line "CameraTransform(" [] "" ++ (l ++ (p ++ (o ++ [')']))))

end Print
