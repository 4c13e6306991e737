import Verif.Model.Projection
import Verif.Model.System

/-! # The constructor of the projections (projection.py:89-197)

The numbers given are Python numbers with exact real values (a division by 0 raises ZeroDivisionError; with numpy scalars it
would give inf or nan).  `center` and `sensor` are tuples of two numbers, `image` is a tuple of two numbers or an array, `focallength_px`
is a number or, as documented in projection.py:69-71, a tuple of two numbers.  Not modelled: other types (e.g. `center` as an array,
whose truth value raises), lines 192-197, which only do something if `focallength_mm` and `sensor_height_mm` are 0 and then replace the
sensor height 0 by `0 / focallength_y_px * image_height_px`. -/

set_option linter.constructorNameAsVariable false

open Classical

namespace Construct

/-- The errors: ValueError, ZeroDivisionError, TypeError. -/
inductive Err | value | zeroDivision | type
deriving DecidableEq

/-- The parameter `image`: a tuple (width, height) or an array of so many rows and columns (projection.py:101-105). -/
inductive Image
  | tuple (w h : ℝ)
  | array (rows cols : ℕ)

/-- projection.py:102-105: `image_height_px, image_width_px = image.shape[:2]` or `image_width_px, image_height_px = image`. -/
def Image.size : Image → ℝ × ℝ
  | .tuple w h => (w, h)
  | .array r c => (c, r)

/-- A focal length: a number, or a tuple. -/
inductive FVal
  | num (x : Num)
  | pair (a b : ℝ)

/-- The arguments (projection.py:89-92); `none` is `None`. -/
structure Args where
  f : Option FVal := none
  fx : Option ℝ := none
  fy : Option ℝ := none
  cx : Option ℝ := none
  cy : Option ℝ := none
  center : Option (ℝ × ℝ) := none
  fmm : Option ℝ := none
  iw : Option ℝ := none
  ih : Option ℝ := none
  sw : Option ℝ := none
  sh : Option ℝ := none
  image : Option Image := none
  sensor : Option (ℝ × ℝ) := none
  vx : Option ℝ := none
  vy : Option ℝ := none

/-- The truth value of an optional number. -/
def truthy (x : Option ℝ) : Prop := ∃ r, x = some r ∧ r ≠ 0

/-- The truth value of an optional focal length: a tuple is true, a number if it is not 0. -/
def truthyF : Option FVal → Prop
  | none => False
  | some (.num x) => x ≠ .fin 0 ∧ x ≠ .nzero
  | some (.pair _ _) => True

/-- The division of Python numbers. -/
noncomputable def div (a b : ℝ) : Except Err ℝ := if b = 0 then .error .zeroDivision else .ok (a / b)

/-- projection.py:95-105: the size of the image. -/
noncomputable def dims (a : Args) : Except Err (ℝ × ℝ) :=
  if a.image.isSome ∧ (truthy a.iw ∨ truthy a.ih) then .error .value
  else match a.image, a.iw, a.ih with
    | some im, _, _ => .ok im.size
    | none, some w, some h => .ok (w, h)
    | none, _, _ => .error .value

/-- projection.py:109-116: the centre. -/
noncomputable def centre (a : Args) (w h : ℝ) : Except Err (ℝ × ℝ) :=
  if a.center.isSome ∧ (truthy a.cx ∨ truthy a.cy) then .error .value
  else match a.center with
    | some c => .ok c
    | none => .ok (a.cx.getD (w / 2), a.cy.getD (h / 2))

/-- A number as a focal length. -/
def real (x : ℝ) : FVal := .num (.fin x)

/-- projection.py:120-128: the focal lengths in pixels. -/
noncomputable def focal (a : Args) : Except Err (Option FVal × Option FVal) :=
  if truthyF a.f ∨ truthy a.fx ∨ truthy a.fy then
    if truthyF a.f ∧ (truthy a.fx ∨ truthy a.fy) then .error .value
    else if a.fmm.isSome then .error .value
    else if truthyF a.f then .ok (a.f, a.f)
    else .ok (a.fx.map real, a.fy.map real)
  else .ok (a.fx.map real, a.fy.map real)

/-- projection.py:130-137: the size of the sensor. -/
noncomputable def sensors (a : Args) (w h : ℝ) : Except Err (Option ℝ × Option ℝ) :=
  if a.sensor.isSome ∧ (truthy a.sw ∨ truthy a.sh) then .error .value
  else
    let s := match a.sensor with
      | some (x, y) => (some x, some y)
      | none => (a.sw, a.sh)
    match s with
    | (some x, none) => if x ≠ 0 then do let y ← div x w; .ok (some x, some (y * h)) else .ok s
    | (none, some y) => if y ≠ 0 then do let x ← div y h; .ok (some (x * w), some y) else .ok s
    | _ => .ok s

/-- projection.py:139-143: the focal length in mm. -/
noncomputable def millimetres (a : Args) (w h : ℝ) (s : Option ℝ × Option ℝ) (f : Option FVal × Option FVal) :
    Except Err (Option FVal × Option FVal) :=
  match a.fmm with
  | none => .ok f
  | some m =>
    if m ≠ 0 then
      match s with
      | (some sw, some sh) => do
        let x ← div m sw
        let y ← div m sh
        .ok (some (real (x * w)), some (real (y * h)))
      | _ => .error .value
    else .ok f

/-- `self.focallengthFromFOV(view_x=…)`, `self.focallengthFromFOV(view_y=…)` with the image size of lines 146-147. -/
noncomputable def fov (k : Projection.Kind) (w h : ℝ) (vx vy : Option Num) : Except Err FVal :=
  match Projection.focallengthFromFOV k w h vx vy with
  | some x => .ok (.num x)
  | none => .error .type

/-- projection.py:148-153. -/
noncomputable def viewX (k : Projection.Kind) (a : Args) (w h : ℝ) (f : Option FVal × Option FVal) : Except Err (Option FVal × Option FVal) :=
  if truthy a.vx then
    if f.1.isSome then .error .value
    else do
      let x ← fov k w h (a.vx.map .fin) none
      .ok (some x, if truthy a.vy then f.2 else some x)
  else .ok f

/-- projection.py:154-159. -/
noncomputable def viewY (k : Projection.Kind) (a : Args) (w h : ℝ) (f : Option FVal × Option FVal) : Except Err (Option FVal × Option FVal) :=
  if truthy a.vy then
    if truthyF f.2 then .error .value
    else do
      let y ← fov k w h none (a.vy.map .fin)
      .ok (if truthy a.vx then f.1 else some y, some y)
  else .ok f

/-- The values of the parameters of the new projection (projection.py:164-179), and whether lines 146-147 have set the attributes
`image_width_px` and `image_height_px`; an absent sensor size has the default value (projection.py:172-173). -/
structure Result where
  fx : FVal
  fy : FVal
  f : FVal
  cx : ℝ
  cy : ℝ
  w : ℝ
  h : ℝ
  sw : Option ℝ
  sh : Option ℝ
  attr : Prop

/-- projection.py:161-179. -/
def finish (a : Args) (d c : ℝ × ℝ) (s : Option ℝ × Option ℝ) : Option FVal × Option FVal → Except Err Result
  | (some fx, some fy) => .ok ⟨fx, fy, fx, c.1, c.2, d.1, d.2, s.1, s.2, truthy a.vx ∨ truthy a.vy⟩
  | _ => .error .value

/-- projection.py:89-190 `CameraProjection.__init__`. -/
noncomputable def construct (k : Projection.Kind) (a : Args) : Except Err Result := do
  let d ← dims a
  let c ← centre a d.1 d.2
  let f ← focal a
  let s ← sensors a d.1 d.2
  let f ← millimetres a d.1 d.2 s f
  let f ← viewX k a d.1 d.2 f
  let f ← viewY k a d.1 d.2 f
  finish a d c s f

/-- The values for `St.newProj` (Verif/Model/System.lean), if the focal lengths are finite numbers. -/
noncomputable def Result.args (r : Result) : Option (Sys.PField → Option ℝ) := match r.fx, r.fy with
  | .num (.fin x), .num (.fin y) => some fun
    | .fx => some x
    | .fy => some y
    | .f => some x
    | .cx => some r.cx
    | .cy => some r.cy
    | .iw => some r.w
    | .ih => some r.h
    | .sw => r.sw
    | .sh => r.sh
  | _, _ => none

end Construct
