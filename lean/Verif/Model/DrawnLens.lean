import Verif.Model.Drawn
import Verif.Model.Lens

/-! # The property test of lenses (tests/test_transforms.py:269-284)

The test draws a lens, a projection (`Drawn.Draw`) and a coefficient between 0 and 0.01 and asserts something about 100 pixels on the middle row. -/

namespace Drawn

/-- tests/test_transforms.py:276-278: one of the tested pixels, `round(j / 99 * width)` and `round(height / 2)`; rounding to any nearest integer. -/
def LensPixel (I : Projection.Intr) (p : V2 ℝ) : Prop :=
  ∃ (a b : ℤ) (j : ℕ), j < 100 ∧ p = ⟨a, b⟩ ∧ |a - (j : ℝ) / 99 * I.w| ≤ 1 / 2 ∧ |b - I.h / 2| ≤ 1 / 2

/-- tests/test_transforms.py:279-284: the pixel passes: after distorting, undistorting and rounding it is nan (then the test replaces the expected pixel
by nan), or less than 1.5 away from the pixel in both coordinates, however ties are rounded. -/
def LensPasses (l : Camera.Lens) (p : V2 ℝ) : Prop :=
  l.imageFromDistorted (l.distortedFromImage p.num) = V2.nan ∨ ∃ q, (l.imageFromDistorted (l.distortedFromImage p.num)).Is q ∧
    ∀ a b : ℤ, |a - q.x| ≤ 1 / 2 → |b - q.y| ≤ 1 / 2 → |a - p.x| < 3 / 2 ∧ |b - p.y| < 3 / 2

end Drawn
