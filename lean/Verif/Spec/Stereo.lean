import Verif.Spec.Camera
import Verif.Spec.Ray

/-! # Specifications for two cameras -/

open Classical

namespace Camera

/-- `P` is `t` in front of the plane of the camera. -/
def AtDepth (c : Cam) (P : V3 ℝ) (t : ℝ) : Prop :=
  ∃ Q : V3 ℝ, (Spatial.cameraFromSpace c.orient.mat P.num).Is Q ∧ Q.z = -t

/-- `P` does not lie on the line through the two cameras. -/
def OffBaseline (c1 c2 : Cam) (P : V3 ℝ) : Prop :=
  V3.cross (P - c1.orient.pos) (P - c2.orient.pos) ≠ ⟨0, 0, 0⟩

/-- `P` is in front of the camera, off its plane. -/
def InFront (c : Cam) (P : V3 ℝ) : Prop :=
  ∃ Q : V3 ℝ, (Spatial.cameraFromSpace c.orient.mat P.num).Is Q ∧ Q.z ≤ -Projection.minDepth

/-- `P` is behind the camera, off its plane. -/
def Behind (c : Cam) (P : V3 ℝ) : Prop :=
  ∃ Q : V3 ℝ, (Spatial.cameraFromSpace c.orient.mat P.num).Is Q ∧ Projection.minDepth ≤ Q.z

/-- The sine of the angle at `P` between the directions to the two cameras is `s`. -/
def SinAngle (c1 c2 : Cam) (P : V3 ℝ) (s : ℝ) : Prop :=
  (V3.cross (P - c1.orient.pos) (P - c2.orient.pos)).norm = s * ((P - c1.orient.pos).norm * (P - c2.orient.pos).norm)

/-- Two angles in degrees are the same direction. -/
def SameAngle (a b : ℝ) : Prop := ∃ k : ℤ, a = b + 360 * k

end Camera
