import Verif.Spec.Ray
import Verif.Spec.Camera

/-! # Specification of what a camera sees of a mesh (C163) -/

namespace Geo

/-- The parameters at which a triangle counts as hit: the hits of a triangle with an area, except that a triangle seen
edge-on is only hit at the origin of the ray; a triangle without area counts as hit at the origin by every ray. -/
def Counts (o d : V3 ℝ) (T : Ray.Tri ℝ) (r : ℝ) : Prop :=
  (Degenerate T ∧ r = 0) ∨ (¬ Degenerate T ∧ Hit o d T r ∧ (Coplanar o d T → r = 0))

/-- `P` is a point of the mesh. -/
def OnMesh (mesh : List (Ray.Tri ℝ)) (P : V3 ℝ) : Prop := ∃ T ∈ mesh, InTri T P

/-- Every triangle of the mesh has an area, and none is seen edge-on along the ray. -/
def FaceOn (o d : V3 ℝ) (mesh : List (Ray.Tri ℝ)) : Prop := ∀ T ∈ mesh, ¬ Degenerate T ∧ ¬ Coplanar o d T

end Geo

namespace Camera

/-- The picture of `P`, before the distortion of the lens, is `q`. -/
def Depicts (c : Cam) (P : V3 ℝ) (q : V2 ℝ) (hide : Bool) : Prop :=
  (Projection.imageFromCamera c.kind c.intr (Spatial.cameraFromSpace c.orient.mat P.num) hide).Is q

end Camera
