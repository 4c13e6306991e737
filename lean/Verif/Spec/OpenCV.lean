import Verif.Vec

/-! # The camera model of OpenCV, with which the calibration tool fits -/

namespace OpenCV

/-- The result of `cv2.calibrateCamera` without tangential distortion. -/
structure Calib where
  w : ℝ
  h : ℝ
  fx : ℝ
  fy : ℝ
  cx : ℝ
  cy : ℝ
  k1 : ℝ
  k2 : ℝ
  k3 : ℝ
  rms : ℝ

/-- The factor of the radial distortion at `(x', y')` (documentation of OpenCV, "Camera Calibration and 3D Reconstruction"). -/
def Calib.factor (k : Calib) (x y : ℝ) : ℝ :=
  let r2 := x ^ 2 + y ^ 2
  1 + k.k1 * r2 + k.k2 * r2 ^ 2 + k.k3 * r2 ^ 3

/-- The distorted pixel of the direction `(x', y', 1)`. -/
def Calib.distort (k : Calib) (x y : ℝ) : V2 ℝ := ⟨k.fx * (x * k.factor x y) + k.cx, k.fy * (y * k.factor x y) + k.cy⟩

/-- The pixel of a point in the coordinates of OpenCV: x to the right, y down, z forward. -/
noncomputable def Calib.pixel (k : Calib) (q : V3 ℝ) : V2 ℝ := k.distort (q.x / q.z) (q.y / q.z)

end OpenCV
