import Verif.Model.Stereo

/-! # Model: the camera parameters from point correspondences (camera.py:298-325)

The results of cv2 are arguments: `recoverPose` gives a rotation and a translation of length one. -/

open Classical

namespace Pose

/-- The parameters set for the second camera. -/
structure Second where
  roll : Num
  tilt : Num
  heading : Num
  pos : V3 ℝ

/-- camera.py:307-325 `setCameraParametersByPointCorrespondence` after the calls of cv2, for two cameras with a
`SpatialOrientation`: the parameters of the first camera and those set for the second one. -/
noncomputable def setCameras (cam1 : Spatial.Params) (rot : M3) (t : V3 ℝ) (baseline : ℝ) : Spatial.Params × Second :=
  let e := Stereo.rotationToEuler rot
  ({ cam1 with heading_deg := 0, tilt_deg := 0, roll_deg := 0 },
   ⟨e.x, e.y, e.z,
     ⟨cam1.pos_x_m + t.x * baseline, cam1.pos_y_m + t.y * baseline, cam1.elevation_m + t.z * baseline⟩⟩)

end Pose
