import Verif.Model.Pose

/-! # Specification of the relative pose of two cameras -/

namespace Pose

/-- From the coordinates of a camera of cameratransform (x right, y up, the camera looks along -z) to those of cv2 (x right,
y down, the camera looks along z), and back. -/
def flip (v : V3 ℝ) : V3 ℝ := ⟨v.x, -v.y, -v.z⟩

/-- What the documentation of cv2 says about the result of `recoverPose`, for two cameras with the rotations `R1`, `R2` and
the positions `p1`, `p2` whose distance is `baseline`: it converts the coordinates of any point in the first camera to those
in the second camera. -/
def Recovered (R1 R2 : M3) (p1 p2 : V3 ℝ) (rot : M3) (t : V3 ℝ) (baseline : ℝ) : Prop :=
  ∀ P : V3 ℝ, flip (R2.applyR (P - p2)) = rot.applyR (flip (R1.applyR (P - p1))) + t.mulS baseline

end Pose
