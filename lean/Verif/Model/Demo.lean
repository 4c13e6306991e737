import Verif.Model.Camera
import Mathlib.Logic.Function.Basic

/-! # The demonstration with sliders

Model of gui_tools/demonstrator/demo_matplotlib.py:8-143 (`open_demo`): twelve sliders, two cameras of which one is shown, radio buttons
that choose the convention of the angles, a reset button.  Simplified: the sliders are real numbers; drawing the scene (lines 40-41) is
recorded as the camera it is drawn with and does not raise; of matplotlib it is assumed that `Slider.set_val` stores the value and calls
`update` (also for an unchanged value), that `Slider.reset` calls `set_val` when the value is not the initial one, and that a click on a
radio button calls `change_spatial` also when the button is the active one.  The wrap-around of an angle beyond 360 degrees, which a
camera stores back, is part of the matrix (`Camera.Orient.mat`), not of the stored parameter. -/

namespace Demo

open Camera

/-- The sliders in the order of creation (demo_matplotlib.py:71-73, 120-130). -/
inductive Slider where
  | image_width_px | image_height_px | focallength_px
  | heading_deg | tilt_deg | roll_deg
  | yaw_deg | pitch_deg | roll_deg_ypr
  | elevation_m | pos_x_m | pos_y_m
deriving DecidableEq

/-- The list `sliders` (demo_matplotlib.py:47, 64). -/
def sliders : List Slider :=
  [.image_width_px, .image_height_px, .focallength_px, .heading_deg, .tilt_deg, .roll_deg, .yaw_deg, .pitch_deg, .roll_deg_ypr,
    .elevation_m, .pos_x_m, .pos_y_m]

/-- The argument `valinit` of the sliders (demo_matplotlib.py:71-73, 120-130). -/
noncomputable def valinit : Slider → ℝ
  | .image_width_px => 4608
  | .image_height_px => 2592
  | .focallength_px => 3860
  | .heading_deg => 0
  | .tilt_deg => 30
  | .roll_deg => 0
  | .yaw_deg => 0
  | .pitch_deg => -60
  | .roll_deg_ypr => 0
  | .elevation_m => 10
  | .pos_x_m => 0
  | .pos_y_m => -5.5

/-- demo_matplotlib.py:29 `setattr(cam, slider.label._text, slider.val)`: the parameter with this name gets the value
(parameter_set.py:176-179, 112-122); `focallength_px` sets both focal lengths (projection.py:176-190); a name that is no parameter of
the camera becomes an attribute without effect. -/
def setattr (c : Cam) : Slider → ℝ → Cam
  | .image_width_px, v => { c with intr := { c.intr with w := v } }
  | .image_height_px, v => { c with intr := { c.intr with h := v } }
  | .focallength_px, v => { c with intr := { c.intr with fx := v, fy := v } }
  | .heading_deg, v => match c.orient with
    | .thr p => { c with orient := .thr { p with heading_deg := v } }
    | .ypr _ => c
  | .tilt_deg, v => match c.orient with
    | .thr p => { c with orient := .thr { p with tilt_deg := v } }
    | .ypr _ => c
  | .roll_deg, v => match c.orient with
    | .thr p => { c with orient := .thr { p with roll_deg := v } }
    | .ypr p => { c with orient := .ypr { p with roll_deg := v } }
  | .yaw_deg, v => match c.orient with
    | .thr _ => c
    | .ypr p => { c with orient := .ypr { p with yaw_deg := v } }
  | .pitch_deg, v => match c.orient with
    | .thr _ => c
    | .ypr p => { c with orient := .ypr { p with pitch_deg := v } }
  | .roll_deg_ypr, v => match c.orient with
    | .thr p => { c with orient := .thr { p with roll_deg := v } }
    | .ypr p => { c with orient := .ypr { p with roll_deg := v } }
  | .elevation_m, v => match c.orient with
    | .thr p => { c with orient := .thr { p with elevation_m := v } }
    | .ypr p => { c with orient := .ypr { p with elevation_m := v } }
  | .pos_x_m, v => match c.orient with
    | .thr p => { c with orient := .thr { p with pos_x_m := v } }
    | .ypr p => { c with orient := .ypr { p with pos_x_m := v } }
  | .pos_y_m, v => match c.orient with
    | .thr p => { c with orient := .thr { p with pos_y_m := v } }
    | .ypr p => { c with orient := .ypr { p with pos_y_m := v } }

/-- The radio buttons (demo_matplotlib.py:79). -/
inductive Label where
  | tiltHeadingRoll
  | yawPitchRoll
deriving DecidableEq

/-- The variables of `open_demo`: the values of the sliders, the visibility of their axes, the two cameras, which of them is `cam`, and
the camera the scene was last drawn with. -/
structure St where
  val : Slider → ℝ
  visible : Slider → Bool
  cam1 : Cam
  cam2 : Cam
  cam : Label
  drawn : Cam

/-- The camera the variable `cam` stands for. -/
def St.current (s : St) : Cam :=
  match s.cam with
  | .tiltHeadingRoll => s.cam1
  | .yawPitchRoll => s.cam2

/-- The object `cam` stands for is changed. -/
def St.write (s : St) (c : Cam) : St :=
  match s.cam with
  | .tiltHeadingRoll => { s with cam1 := c }
  | .yawPitchRoll => { s with cam2 := c }

/-- demo_matplotlib.py:22-41 `update`. -/
noncomputable def St.update (s : St) : St :=
  let c := (sliders.filter s.visible).foldl (fun c x => setattr c x (s.val x)) s.current
  let c := { c with intr := { c.intr with cx := c.intr.w / 2, cy := c.intr.h / 2 } }
  { s.write c with drawn := c }

/-- `slider.set_val(v)` with the callback of demo_matplotlib.py:61. -/
noncomputable def St.set_val (s : St) (x : Slider) (v : ℝ) : St :=
  { s with val := Function.update s.val x v }.update

/-- demo_matplotlib.py:89-95, 104-110: `set_visible` of the six axes of the angles. -/
def show_ (l : Label) (visible : Slider → Bool) : Slider → Bool
  | .heading_deg | .tilt_deg | .roll_deg => l = .tiltHeadingRoll
  | .yaw_deg | .pitch_deg | .roll_deg_ypr => l = .yawPitchRoll
  | x => visible x

/-- demo_matplotlib.py:82-117 `change_spatial`. -/
noncomputable def St.change_spatial (s : St) : Label → St
  | .tiltHeadingRoll =>
    let s := { s with visible := show_ .tiltHeadingRoll s.visible }
    let s := s.set_val .heading_deg (s.val .yaw_deg)
    let s := s.set_val .tilt_deg (s.val .pitch_deg + 90)
    let s := s.set_val .roll_deg (-s.val .roll_deg_ypr)
    { s with cam := .tiltHeadingRoll }.update
  | .yawPitchRoll =>
    let s := { s with visible := show_ .yawPitchRoll s.visible }
    let s := s.set_val .yaw_deg (s.val .heading_deg)
    let s := s.set_val .pitch_deg (s.val .tilt_deg - 90)
    let s := s.set_val .roll_deg_ypr (-s.val .roll_deg)
    { s with cam := .yawPitchRoll }.update

open Classical in
/-- demo_matplotlib.py:136-138 `reset`. -/
noncomputable def St.reset (s : St) : St :=
  sliders.foldl (fun s x => if s.val x = valinit x then s else s.set_val x (valinit x)) s

/-- The cameras as they are created (demo_matplotlib.py:13-14); the orientations are whatever the constructors set. -/
noncomputable def created (o : Orient) : Cam :=
  ⟨.rectilinear, ⟨3860, 3860, 4608 / 2, 2592 / 2, 4608, 2592⟩, o, noDistortion⟩

/-- Before the first `change_spatial` (demo_matplotlib.py:13-130): all sliders are visible and have their initial values. -/
noncomputable def St.start (p : Spatial.Params) (q : Spatial.ParamsYPR) : St where
  val := valinit
  visible := fun _ => true
  cam1 := created (.thr p)
  cam2 := created (.ypr q)
  cam := .tiltHeadingRoll
  drawn := created (.thr p)

/-- What the user does: move a slider, click a radio button, click Reset. -/
inductive Act where
  | drag (x : Slider) (v : ℝ)
  | radio (l : Label)
  | reset

noncomputable def St.act (s : St) : Act → St
  | .drag x v => s.set_val x v
  | .radio l => s.change_spatial l
  | .reset => s.reset

/-- The demonstration after a history of actions (demo_matplotlib.py:141, then the actions). -/
noncomputable def after (p : Spatial.Params) (q : Spatial.ParamsYPR) (as : List Act) : St :=
  as.foldl St.act ((St.start p q).change_spatial .tiltHeadingRoll)

end Demo
