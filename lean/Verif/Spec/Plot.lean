import Verif.Vec

/-! # Specification of clipping a line to a rectangle -/

namespace Plot

/-- The point lies on the line `a x + b y + c = 0`. -/
def OnLine (a b c : ℝ) (p : V2 ℝ) : Prop := a * p.x + b * p.y + c = 0

/-- The point lies in the rectangle. -/
def InRect (w h : ℝ) (p : V2 ℝ) : Prop := 0 ≤ p.x ∧ p.x ≤ w ∧ 0 ≤ p.y ∧ p.y ≤ h

/-- The point lies in the rectangle, not on its border. -/
def Inside (w h : ℝ) (p : V2 ℝ) : Prop := 0 < p.x ∧ p.x < w ∧ 0 < p.y ∧ p.y < h

/-- The corners of the rectangle. -/
def Corner (w h : ℝ) (p : V2 ℝ) : Prop := (p.x = 0 ∨ p.x = w) ∧ (p.y = 0 ∨ p.y = h)

/-- The point lies between `p` and `q`, or is one of them. -/
def Between (p q s : V2 ℝ) : Prop := ∃ t, 0 ≤ t ∧ t ≤ 1 ∧ s.x = p.x + t * (q.x - p.x) ∧ s.y = p.y + t * (q.y - p.y)

end Plot
