import Verif.Model.RoundedLens
import Verif.Model.RoundedTest

/-! # Pixels of points with a lens and rounding errors (camera.py:1005)

As in `Rounded`, every operation has a relative error of at most `u`; overflow and underflow are not modelled. -/

namespace Rounded

open Projection

/-- camera.py:1005 `imageFromSpace` of one point with a lens: the pixel of the projection is distorted (lens_distortion.py:163-173, 257-267).  A pixel that is nan stays nan. -/
def ImageLens (u : ℝ) (k : Kind) (I : Intr) (t : V3 ℝ) (R : M3) (f : ℝ → ℝ → Prop) (scale offset : V2 ℝ) (P : V3 ℝ) (out : V2 Num) : Prop :=
  ∃ m, ImageAny u k I t R P m ∧ ((m = V2.nan ∧ out = V2.nan) ∨ ∃ w : V2 ℝ, m.Is w ∧ Distorted u f scale offset w out)

end Rounded
