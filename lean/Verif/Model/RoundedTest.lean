import Verif.Model.Rounded
import Verif.Model.Drawn

/-! # The property tests of the transformations with rounding errors (tests/test_transforms.py, tests/test_helpers.py)

As in `Rounded`, every operation has a relative error of at most `u`; overflow and underflow are not modelled. -/

namespace Rounded

open Projection

/-- camera.py:1053 and spatial.py:200-201: the direction of the ray of a pixel in space, for the three projections. -/
def DirectionAny (u : ℝ) (k : Kind) (I : Intr) (Rinv : M3) (p : V2 ℝ) (normed : Bool) (out : V3 ℝ) : Prop :=
  match k with
  | .rectilinear => Direction u I Rinv p normed out
  | _ => DirectionPan u k I Rinv p normed out

/-- camera.py:1005 `imageFromSpace` without lens distortion, for the three projections. -/
def ImageAny (u : ℝ) (k : Kind) (I : Intr) (t : V3 ℝ) (R : M3) (P : V3 ℝ) (out : V2 Num) : Prop :=
  match k with
  | .rectilinear => ImageFromSpace u I t R P true out
  | _ => ImageFromSpacePan u k I t R P out

/-- camera.py:1142-1157 `spaceFromImage` without lens distortion, when the coordinate `i` is given.  If the computed direction is parallel to the
plane, the factor is infinite or nan and its product with 0 is nan; the other two coordinates are left open. -/
def SpaceFromImageAny (u : ℝ) (k : Kind) (I : Intr) (t : V3 ℝ) (Rinv : M3) (p : V2 ℝ) (i : Fin 3) (v : ℝ) (out : V3 Num) : Prop :=
  ∃ dir a, DirectionAny u k I Rinv p false dir ∧ Rd u (v - t.get i) a ∧
    ((dir.get i = 0 ∧ out.get i = .nan) ∨ (dir.get i ≠ 0 ∧ ∃ f, Rd u (a / dir.get i) f ∧ PointAt u t dir f out))

/-- camera.py:1005 `imageFromSpace` of a result of `spaceFromImage`.  A coordinate that is nan makes all products of the matrix with the point nan
(spatial.py:163-164), and with them the pixel. -/
def ImageNum (u : ℝ) (k : Kind) (I : Intr) (t : V3 ℝ) (R : M3) (g : V3 Num) (out : V2 Num) : Prop :=
  (∃ P, g.Is P ∧ ImageAny u k I t R P out) ∨ ((∃ j, g.get j = .nan) ∧ out = V2.nan)

/-- The parameters of a projection that the constructor computed.  The sides are integers and the centre is half of them, without an error
(projection.py:113-116); of the focal lengths (projection.py:145-153) it is only assumed that they are right up to a hundredth. -/
def Computed (I J : Intr) : Prop := J.cx = I.cx ∧ J.cy = I.cy ∧ J.w = I.w ∧ J.h = I.h ∧ Rd (1 / 100) I.fx J.fx ∧ Rd (1 / 100) I.fy J.fy

end Rounded
