import Verif.Model.Construct
import Verif.Model.View

/-! # The inputs that the property tests draw (tests/strategies.py)

The numbers are exact reals: `st.floats(a, b)` draws some of the numbers from a to b. A theorem about all of them covers every draw. -/

open Classical

namespace Drawn

/-- tests/strategies.py:28-91 `sensor_sizes`. -/
noncomputable def sensorSizes : List (ℝ × ℝ) :=
  [(32/25, 24/25), (8/5, 6/5), (12/5, 9/5), (18/5, 27/10), (4, 3), (227/50, 171/50), (24/5, 7/2), (24/5, 18/5), (537/100, 101/25), (579/100, 
   401/100), (144/25, 429/100), (617/100, 91/20), (63/10, 118/25), (32/5, 24/5), (359/50, 133/25), (38/5, 57/10), (202/25, 601/100), (44/5, 
   33/5), (513/50, 749/100), (1067/100, 8), (312/25, 351/50), (313/25, 741/100), (66/5, 44/5), (64/5, 48/5), (1581/100, 222/25), (173/10, 13), 
   (528/25, 297/25), (187/10, 14), (439/20, 187/20), (207/10, 69/5), (23, 54/5), (2489/100, 187/20), (223/10, 149/10), (22, 16), (1267/50, 
   57/4), (118/5, 78/5), (2489/100, 693/50), (128/5, 27/2), (2489/100, 933/50), (279/10, 93/5), (299/10, 1577/100), (307/10, 79/5), (179/5, 
   239/10), (367/10, 1277/50), (1024/25, 108/5), (45, 30), (44, 33), (1312/25, 2301/100), (1353/25, 1279/50), (49, 184/5), (56, 36), (537/10, 
   201/5), (539/10, 202/5), (42, 56), (56, 56), (70, 56), (7041/100, 5263/100), (84, 56), (121, 97), (178, 127), (254, 203)]

/-- What tests/strategies.py:99-107 `projection` draws: the field of view, the width of the image, the size of the sensor and the class. -/
structure Draw where
  kind : Projection.Kind
  view : ℝ
  width : ℕ
  sensor : ℝ × ℝ

/-- tests/strategies.py:100-105: the ranges. -/
structure Draw.Ok (d : Draw) : Prop where
  view : 1 ≤ d.view ∧ d.view ≤ 80
  width : 10 ≤ d.width ∧ d.width ≤ 1000
  sensor : d.sensor ∈ sensorSizes

/-- tests/strategies.py:105 `int(width / sensor_width * sensor_height)`, without the rounding of the two operations. -/
noncomputable def Draw.height (d : Draw) : ℕ := ⌊d.width / d.sensor.1 * d.sensor.2⌋₊

/-- tests/strategies.py:107: the arguments of the constructor. -/
noncomputable def Draw.args (d : Draw) : Construct.Args where
  image := none
  ih := some d.height
  iw := some d.width
  sh := some d.sensor.2
  sw := some d.sensor.1
  vx := some d.view

/-- The projection that the constructor makes of a draw has these parameters. -/
def Draw.Makes (d : Draw) (I : Projection.Intr) : Prop := ∃ r X Y, Construct.construct d.kind d.args = .ok r ∧ r.fx = .num X ∧ r.fy = .num Y ∧
  Num.Is X I.fx ∧ Num.Is Y I.fy ∧ r.cx = I.cx ∧ r.cy = I.cy ∧ r.w = I.w ∧ r.h = I.h

/-- tests/strategies.py:110-114 `orientation`: the ranges. -/
structure IsOrientation (o : Spatial.Params) : Prop where
  elevation : 0 ≤ o.elevation_m ∧ o.elevation_m ≤ 1000
  tilt : 0 ≤ o.tilt_deg ∧ o.tilt_deg ≤ 90
  roll : -180 ≤ o.roll_deg ∧ o.roll_deg ≤ 180
  heading : -360 ≤ o.heading_deg ∧ o.heading_deg ≤ 360
  x : -100 ≤ o.pos_x_m ∧ o.pos_x_m ≤ 100
  y : -100 ≤ o.pos_y_m ∧ o.pos_y_m ≤ 100

/-- tests/strategies.py:126-128 `camera`. -/
def IsCamera (c : Camera.Cam) : Prop := (∃ d : Draw, d.Ok ∧ d.kind = c.kind ∧ d.Makes c.intr) ∧ (∃ o, IsOrientation o ∧ c.orient = .thr o) ∧
  c.lens = Camera.noDistortion

/-- tests/strategies.py:131-146 `camera_image_points`: one of the points. A single point is drawn with the two sides exchanged (line 138). -/
def IsPixel (c : Camera.Cam) (p : V2 ℝ) : Prop :=
  (0 ≤ p.x ∧ p.x ≤ c.intr.w ∧ 0 ≤ p.y ∧ p.y ≤ c.intr.h) ∨ (0 ≤ p.x ∧ p.x ≤ c.intr.h ∧ 0 ≤ p.y ∧ p.y ≤ c.intr.w)

/-- tests/strategies.py:148-158 `camera_down_with_world_points` and tests/test_transforms.py:302-306: a camera that looks down from the default
position (spatial.py:83-94), and one of the points. -/
def IsDown (c : Camera.Cam) (P : V3 ℝ) : Prop := (∃ d : Draw, d.Ok ∧ d.kind = c.kind ∧ d.Makes c.intr) ∧ c.orient = .thr ⟨30, 0, 0, 0, 0, 0⟩ ∧
  c.lens = Camera.noDistortion ∧ |P.x| ≤ 100 ∧ |P.y| ≤ 100 ∧ |P.z| ≤ 100

/-- The numbers tests/test_transforms.py:77-84 draws for `test_initProjection`. -/
structure Choice where
  image : Fin 7
  center : Fin 4
  focal : Fin 4
  mm : Fin 2
  sensor : Fin 5
  view : Fin 5

/-- tests/test_transforms.py:85-199: the arguments of the constructor. `I` are the parameters of the drawn projection, `s` is the size of its sensor and `v`
its field of view. -/
noncomputable def Choice.args (u : Choice) (I : Projection.Intr) (w h : ℕ) (s v : ℝ × ℝ) : Construct.Args where
  image := match u.image with
    | 1 => some (.tuple w h)
    | 2 | 6 => some (.array h w)
    | _ => none
  iw := match u.image with
    | 3 | 4 | 6 => some w
    | _ => none
  ih := match u.image with
    | 3 | 5 | 6 => some h
    | _ => none
  center := match u.center with
    | 1 | 3 => some (I.cx, I.cy)
    | _ => none
  cx := match u.center with
    | 2 | 3 => some I.cx
    | _ => none
  cy := match u.center with
    | 2 | 3 => some I.cy
    | _ => none
  f := match u.focal with
    | 1 | 3 => some (Construct.real I.fx)
    | _ => none
  fx := match u.focal with
    | 2 | 3 => some I.fx
    | _ => none
  fy := match u.focal with
    | 2 | 3 => some I.fy
    | _ => none
  sensor := match u.sensor with
    | 1 => some s
    | _ => none
  sw := match u.sensor with
    | 2 | 3 => some s.1
    | _ => none
  sh := match u.sensor with
    | 2 | 4 => some s.2
    | _ => none
  fmm := match u.mm with
    | 1 => some 14
    | _ => none
  vx := match u.view with
    | 1 | 3 | 4 => some v.1
    | _ => none
  vy := match u.view with
    | 2 | 3 => some v.2
    | 4 => some v.1
    | _ => none

/-- tests/test_transforms.py:85-205: the test expects a ValueError (the text of the message is not modelled). -/
def Choice.Error (u : Choice) : Prop :=
  u.image = 0 ∨ u.image = 4 ∨ u.image = 5 ∨ u.image = 6 ∨ u.center = 3 ∨ u.focal = 3 ∨ (u.mm = 1 ∧ u.focal ≠ 0) ∨ (u.mm = 1 ∧ u.sensor = 0) ∨
  (u.view ≠ 0 ∧ (u.mm ≠ 0 ∨ u.focal ≠ 0)) ∨ (u.mm = 0 ∧ u.focal = 0 ∧ u.view = 0)

end Drawn
