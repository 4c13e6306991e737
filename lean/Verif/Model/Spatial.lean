import Verif.Vec

/-! # Model of `cameratransform/spatial.py` -/

open Classical

namespace Spatial

/-- The values of the six parameters of `SpatialOrientation` (spatial.py:83-94), as finite numbers. -/
@[ext] structure Params where
  elevation_m : ℝ
  tilt_deg : ℝ
  roll_deg : ℝ
  heading_deg : ℝ
  pos_x_m : ℝ
  pos_y_m : ℝ

/-- The values of the six parameters of `SpatialOrientationYawPitchRoll` (spatial.py:232-243). -/
@[ext] structure ParamsYPR where
  elevation_m : ℝ
  yaw_deg : ℝ
  pitch_deg : ℝ
  roll_deg : ℝ
  pos_x_m : ℝ
  pos_y_m : ℝ

/-- What `_initCameraMatrix` stores in the object: `t`, `R`, `R_inv` (spatial.py:116, 129, 130). -/
@[ext] structure CamMatrix where
  t : V3 ℝ
  R : M3
  Rinv : M3

/-- Python's `x % y` on floats, `y > 0` (the result has the sign of the divisor). -/
noncomputable def pymod (x y : ℝ) : ℝ := x - y * (⌊x / y⌋ : ℝ)

/-- `np.deg2rad` of a finite number. -/
noncomputable def rad (d : ℝ) : ℝ := d * (Real.pi / 180)

/-- spatial.py:119-121 -/
noncomputable def R_roll (roll : ℝ) : M3 :=
  ⟨⟨Real.cos roll, Real.sin roll, 0⟩, ⟨-Real.sin roll, Real.cos roll, 0⟩, ⟨0, 0, 1⟩⟩

/-- spatial.py:122-124 -/
noncomputable def R_tilt (tilt : ℝ) : M3 :=
  ⟨⟨1, 0, 0⟩, ⟨0, Real.cos tilt, Real.sin tilt⟩, ⟨0, -Real.sin tilt, Real.cos tilt⟩⟩

/-- spatial.py:125-127 -/
noncomputable def R_head (heading : ℝ) : M3 :=
  ⟨⟨Real.cos heading, -Real.sin heading, 0⟩, ⟨Real.sin heading, Real.cos heading, 0⟩, ⟨0, 0, 1⟩⟩

/-- spatial.py:129 -/
noncomputable def rotation (roll tilt heading : ℝ) : M3 :=
  M3.mul (M3.mul (R_roll roll) (R_tilt tilt)) (R_head heading)

/-- spatial.py:107-109: the heading that is stored after the wrap-around check. -/
noncomputable def wrap360 (h : ℝ) : ℝ := if h < -360 ∨ h > 360 then pymod h 360 else h

/-- spatial.py:111-130: the matrices for the given parameter values (after the wrap-around). -/
noncomputable def matrices (p : Params) : CamMatrix :=
  let R := rotation (rad p.roll_deg) (rad p.tilt_deg) (rad p.heading_deg)
  ⟨⟨p.pos_x_m, p.pos_y_m, p.elevation_m⟩, R, R.inv⟩

/-- spatial.py:107-130 `SpatialOrientation._initCameraMatrix`: wraps the heading (and stores it back
into the parameter), then computes the matrices. -/
noncomputable def initCameraMatrix (p : Params) : Params × CamMatrix :=
  let p' := { p with heading_deg := wrap360 p.heading_deg }
  (p', matrices p')

/-- spatial.py:260-279: the matrices of `SpatialOrientationYawPitchRoll`. -/
noncomputable def matricesYPR (p : ParamsYPR) : CamMatrix :=
  let R := rotation (-(rad p.roll_deg)) (Real.pi / 2 + rad p.pitch_deg) (rad p.yaw_deg)
  ⟨⟨p.pos_x_m, p.pos_y_m, p.elevation_m⟩, R, R.inv⟩

/-- spatial.py:256-279 `SpatialOrientationYawPitchRoll._initCameraMatrix`: here the pitch is wrapped. -/
noncomputable def initCameraMatrixYPR (p : ParamsYPR) : ParamsYPR × CamMatrix :=
  let p' := { p with pitch_deg := wrap360 p.pitch_deg }
  (p', matricesYPR p')

/-- spatial.py:163-164 `cameraFromSpace`, for one row. -/
noncomputable def cameraFromSpace (m : CamMatrix) (p : V3 Num) : V3 Num := m.R.apply (p - m.t.num)

/-- spatial.py:199-203 `spaceFromCamera`, for one row. -/
noncomputable def spaceFromCamera (m : CamMatrix) (p : V3 Num) (direction : Bool := false) : V3 Num :=
  if direction then m.Rinv.apply p else m.Rinv.apply p + m.t.num

end Spatial
