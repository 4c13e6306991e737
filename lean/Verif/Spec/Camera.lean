import Verif.Model.Camera
import Verif.Spec.Geometry

/-! # Specifications for the camera conversions -/

open Classical

namespace Camera

/-- The camera has usable focal lengths (the constructor refuses missing ones). -/
def Cam.Proper (c : Cam) : Prop := c.intr.fx ≠ 0 ∧ c.intr.fy ≠ 0

/-- `P` is at least 1e-10 away from the plane of the camera. -/
def Deep (c : Cam) (P : V3 ℝ) : Prop :=
  ∃ Q : V3 ℝ, (Spatial.cameraFromSpace c.orient.mat P.num).Is Q ∧ Projection.minDepth ≤ |Q.z|

/-- `P` can be seen by the camera: it is off the camera plane and, for a rectilinear camera, in front of
it. -/
def Visible (c : Cam) (P : V3 ℝ) : Prop :=
  ∃ Q : V3 ℝ, (Spatial.cameraFromSpace c.orient.mat P.num).Is Q ∧ Projection.minDepth ≤ |Q.z| ∧
    (c.kind = .rectilinear → Q.z < 0)

/-- `P` is exactly behind the camera, in the vertical plane of the camera: there the image of a
panoramic camera ends on both sides. -/
def OnSeam (c : Cam) (P : V3 ℝ) : Prop :=
  ∃ Q : V3 ℝ, (Spatial.cameraFromSpace c.orient.mat P.num).Is Q ∧ Q.x = 0 ∧ 0 < Q.z

/-- The constraint "coordinate `i` equals `v`" for `spaceFromImage`. -/
def coord (i : Fin 3) (v : Num) : Constraint :=
  match i with
  | 0 => { X := some v }
  | 1 => { Y := some v }
  | 2 => { Z := some v }

/-- The lens undistorts the distorted version of `p` to `p`. -/
def Lens.ExactAt (L : Lens) (p : V2 ℝ) : Prop :=
  ∀ n : V2 Num, n.Is p → (L.imageFromDistorted (L.distortedFromImage n)).Is p

/-- The lens of the camera is exact at the undistorted image of `P` (always without distortion; for the two other lenses
see C20). -/
def ExactFor (c : Cam) (P : V3 ℝ) (hide : Bool) : Prop :=
  ∀ p : V2 ℝ, (Projection.imageFromCamera c.kind c.intr (Spatial.cameraFromSpace c.orient.mat P.num) hide).Is p →
    c.lens.ExactAt p

end Camera

/-- Two pixels are the same: both (nan, nan), or finite and numerically equal. -/
def V2.Same (a b : V2 Num) : Prop := (a = V2.nan ∧ b = V2.nan) ∨ ∃ q : V2 ℝ, a.Is q ∧ b.Is q
