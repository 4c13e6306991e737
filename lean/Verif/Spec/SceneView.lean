import Verif.Spec.Scene
import Verif.Spec.Camera

/-! # Specification of drawn lines in the plane -/

/-- The real number, if it is one. -/
def Num.real? : Num → Option ℝ
  | .fin r => some r
  | .nzero => some 0
  | _ => none

/-- The point, if both coordinates are finite. -/
def V2.real? (p : V2 Num) : Option (V2 ℝ) :=
  match p.x.real?, p.y.real? with
  | some x, some y => some ⟨x, y⟩
  | _, _ => none

namespace Geo

/-- The line segments drawn for a list of points: between neighbouring points that are both finite. -/
def drawn2 : List (V2 Num) → List (V2 ℝ × V2 ℝ)
  | p :: q :: r => match p.real?, q.real? with
    | some a, some b => (a, b) :: drawn2 (q :: r)
    | _, _ => drawn2 (q :: r)
  | _ => []

/-- The point lies on the segment. -/
def OnSegment2 (s : V2 ℝ × V2 ℝ) (q : V2 ℝ) : Prop :=
  ∃ t : ℝ, 0 ≤ t ∧ t ≤ 1 ∧ q = ⟨s.1.x + t * (s.2.x - s.1.x), s.1.y + t * (s.2.y - s.1.y)⟩

/-- The point lies on the segment. -/
def OnSegment3 (s : V3 ℝ × V3 ℝ) (P : V3 ℝ) : Prop := ∃ t : ℝ, 0 ≤ t ∧ t ≤ 1 ∧ P = s.1 + (s.2 - s.1).mulS t

end Geo
