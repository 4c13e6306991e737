import Verif.Model.QInput
import Verif.Model.Camera
import Mathlib.Logic.Function.Basic

/-! # The window of the Qt demonstration

Model of gui_tools/demonstrator/demo_qt.py:33-134 (`Window`) as started by `startDemonstratorGUI` (lines 138-145).  Simplified: the
choice of the scene is left out (it does not concern the camera); drawing is recorded as the camera the scene is drawn with; a drag of a
slider is one action; the values are ideal numbers.  `updatePlot` does not set the input whose signal it handles (that input is enabled,
and it sets only disabled ones), so it is run after the input has finished its handler. -/

namespace DemoQt

open Camera

/-- The number inputs, in the order of the list `parameters` (demo_qt.py:67-87). -/
inductive Slider where
  | focallength_x_px | focallength_y_px | center_x_px | center_y_px | image_width_px | image_height_px
  | heading_deg | tilt_deg | roll_deg | pos_x_m | pos_y_m | elevation_m
deriving DecidableEq

/-- demo_qt.py:68-69, 72-73, 76-77, 79-81, 83-85, 99: ranges, and decimals of those created with a float. -/
noncomputable def cfg : Slider → QNumber.Cfg
  | .focallength_x_px | .focallength_y_px | .image_width_px | .image_height_px => ⟨0, 5000, 0⟩
  | .center_x_px | .center_y_px => ⟨0, 5000, 2⟩
  | .heading_deg | .tilt_deg | .roll_deg => ⟨-180, 180, 2⟩
  | .pos_x_m | .pos_y_m | .elevation_m => ⟨-10, 10, 2⟩

/-- The values the inputs are created with (demo_qt.py:68-85, 139). -/
noncomputable def init : Slider → ℝ
  | .focallength_x_px | .focallength_y_px => 3860
  | .center_x_px => 2304
  | .center_y_px => 1296
  | .image_width_px => 4608
  | .image_height_px => 2592
  | .elevation_m => 5
  | _ => 0

/-- The inputs, which of them are disabled, and the camera that was drawn last. -/
structure St where
  num : Slider → QInput.St ℝ
  focalloc : QInput.St Bool
  center_image : QInput.St Bool
  select_transformation : QInput.St Projection.Kind
  disabled : Slider → Bool
  drawn : Option Cam

/-- `self.sliders[x].setValue(v)`. -/
noncomputable def St.setValue (s : St) (x : Slider) (v : ℝ) : St :=
  { s with num := Function.update s.num x ((s.num x).setValue ((cfg x).stored v)) }

/-- demo_qt.py:126-128: the class that was chosen, and the values of all sliders as parameters of the camera. -/
def St.camera (s : St) : Cam where
  kind := s.select_transformation.value
  intr := ⟨(s.num .focallength_x_px).value, (s.num .focallength_y_px).value, (s.num .center_x_px).value, (s.num .center_y_px).value,
    (s.num .image_width_px).value, (s.num .image_height_px).value⟩
  orient := .thr ⟨(s.num .elevation_m).value, (s.num .tilt_deg).value, (s.num .roll_deg).value, (s.num .heading_deg).value,
    (s.num .pos_x_m).value, (s.num .pos_y_m).value⟩
  lens := noDistortion

/-- demo_qt.py:109-134 `updatePlot`. -/
noncomputable def St.updatePlot (s : St) : St :=
  let s := if s.focalloc.value = true then
      { s with disabled := Function.update s.disabled .focallength_y_px true }.setValue .focallength_y_px (s.num .focallength_x_px).value
    else { s with disabled := Function.update s.disabled .focallength_y_px false }
  let s := { s with disabled := Function.update (Function.update s.disabled .center_x_px s.center_image.value) .center_y_px s.center_image.value }
  let s := if s.center_image.value = true then
      let s := s.setValue .center_x_px ((s.num .image_width_px).value / 2)
      s.setValue .center_y_px ((s.num .image_height_px).value / 2)
    else s
  { s with drawn := some s.camera }

/-- What the user does: type into a spin box, drag a slider, click a check box, choose a projection. -/
inductive Act where
  | change (x : Slider) (v : ℝ)
  | drag (x : Slider) (path : List ℝ)
  | focalloc (b : Bool)
  | center_image (b : Bool)
  | select_transformation (k : Projection.Kind)

/-- demo_qt.py:94, 97, 100, 104: `updatePlot` is connected to `valueChanged`; it runs when the input has sent something. -/
noncomputable def St.told {V : Type} (s : St) (before after : QInput.St V) : St :=
  if after.sent.length = before.sent.length then s else s.updatePlot

noncomputable def St.act (s : St) : Act → St
  | .change x v =>
    if s.disabled x = true then s else
      let i := (s.num x).act (.change ((cfg x).stored v))
      { s with num := Function.update s.num x i }.told (s.num x) i
  | .drag x path =>
    if s.disabled x = true then s else
      let i := (s.num x).act (.drag (path.map (cfg x).stored))
      { s with num := Function.update s.num x i }.told (s.num x) i
  | .focalloc b =>
    let i := s.focalloc.act (.change b)
    { s with focalloc := i }.told s.focalloc i
  | .center_image b =>
    let i := s.center_image.act (.change b)
    { s with center_image := i }.told s.center_image i
  | .select_transformation k =>
    let i := s.select_transformation.act (.change k)
    { s with select_transformation := i }.told s.select_transformation i

/-- demo_qt.py:34-107: the window is created, the last line of the constructor is `self.updatePlot()`. -/
noncomputable def start : St :=
  St.updatePlot ⟨fun x => QInput.St.new (init x), QInput.St.new true, QInput.St.new true, QInput.St.new .rectilinear, fun _ => false, none⟩

/-- The window after a history. -/
noncomputable def after (as : List Act) : St := as.foldl St.act start

end DemoQt
