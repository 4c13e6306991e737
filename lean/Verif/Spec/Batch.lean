import Verif.Model.Batch

/-! # Stacks of points, one by one -/

namespace Batch

/-- An index inside a shape. -/
def Inside (shape i : List ℕ) : Prop := List.Forall₂ (· < ·) i shape

/-- The image point at an index. -/
def Nd.pixel (a : Nd) (i : List ℕ) : V2 Num := ⟨a.at_ (0 :: i), a.at_ (1 :: i)⟩

/-- The point at an index. -/
def Nd.point (a : Nd) (i : List ℕ) : V3 Num := ⟨a.at_ (0 :: i), a.at_ (1 :: i), a.at_ (2 :: i)⟩

/-- The constraint at an index. -/
def Con.at_ : Con → List ℕ → Camera.Constraint
  | .coord 0 v, i => { X := some (v.at_ (i.take v.shape.length)) }
  | .coord 1 v, i => { Y := some (v.at_ (i.take v.shape.length)) }
  | .coord _ v, i => { Z := some (v.at_ (i.take v.shape.length)) }
  | .distNum d, _ => { D := some d }
  | .distList d, i => { D := some (d.at_ (i.take d.shape.length)) }
  | .distArr d, i => { D := some (d.at_ (i.take d.shape.length)) }

/-- The axes of a constraint. -/
def Con.axes : Con → List ℕ
  | .coord _ v => v.shape
  | .distNum _ => []
  | .distList d => d.shape
  | .distArr d => d.shape

/-- The array is computed point by point: `r` are the axes of the result, `lead` those of the image points. -/
def RowWise (c : Camera.Cam) (points : Nd) (con : Con) (lead r : List ℕ) : Prop :=
  ∃ out, spaceFromImage c points con = .ok out ∧ out.shape = 3 :: r ∧ ∀ i, Inside r i →
    Camera.spaceFromImage c (points.pixel (i.take lead.length)) (con.at_ i) = .ok (out.point i)

end Batch
