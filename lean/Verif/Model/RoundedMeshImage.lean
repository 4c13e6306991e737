import Verif.Model.RoundedMesh
import Verif.Model.RoundedTest

/-! # The points of a mesh that belong to pixels, with rounding errors (camera.py:1132-1136)

As in `Rounded`, every operation has a relative error of at most `u`; overflow and underflow are not modelled. -/

open Classical

namespace Rounded

/-- camera.py:1132-1136 `spaceFromImage` of one pixel of a camera without lens distortion, when a mesh is given. -/
def SpaceFromImageMesh (u : ℝ) (k : Projection.Kind) (I : Projection.Intr) (t : V3 ℝ) (Rinv : M3) (p : V2 ℝ) (mesh : List (Ray.Tri ℝ)) (out : Option (V3 ℝ)) : Prop :=
  ∃ v, DirectionAny u k I Rinv p false v ∧ MeshHit u t v mesh out

end Rounded
