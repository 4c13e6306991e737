import Verif.Vec
import Verif.Spec.Ray
import Mathlib.Data.List.Chain

/-! # Specifications for the border of the image, the horizon and the area of pixels -/

namespace Geo

/-- `p` lies on the edge of the rectangle from `(0, 0)` to `(w, h)`. -/
def OnEdge (w h : ℝ) (p : V2 ℝ) : Prop :=
  0 ≤ p.x ∧ p.x ≤ w ∧ 0 ≤ p.y ∧ p.y ≤ h ∧ (p.x = 0 ∨ p.x = w ∨ p.y = 0 ∨ p.y = h)

/-- `q` is reached from `p` by moving at most `r` along one axis. -/
def Near (r : ℝ) (p q : V2 ℝ) : Prop := (p.x = q.x ∧ |p.y - q.y| ≤ r) ∨ (p.y = q.y ∧ |p.x - q.x| ≤ r)

/-- `q` is one pixel away from `p`, up, down, left or right. -/
def OnePixel (p q : V2 ℝ) : Prop := (p.x = q.x ∧ |p.y - q.y| = 1) ∨ (p.y = q.y ∧ |p.x - q.x| = 1)

/-- Both coordinates are integers. -/
def IntPoint (p : V2 ℝ) : Prop := ∃ a b : ℤ, p = ⟨a, b⟩

/-- The line from the point `C` touches the sphere with radius `R` around the origin in `T`. -/
def Touches (R : ℝ) (C T : V3 ℝ) : Prop := T.norm = R ∧ T.dot (C - T) = 0

/-- The sine of the angle by which the line from `C` to `Q` points below the horizontal. -/
noncomputable def sinDip (C Q : V3 ℝ) : ℝ := (C.z - Q.z) / V3.dist C Q

end Geo
