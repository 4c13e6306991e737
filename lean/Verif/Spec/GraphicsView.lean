import Verif.Model.GraphicsView

/-! # What an image view should show, in terms of where the points of the image are shown -/

namespace GView

/-- The points of an image of the given size. -/
def InRect (r p : V2 ℝ) : Prop := 0 ≤ p.x ∧ p.x ≤ r.x ∧ 0 ≤ p.y ∧ p.y ≤ r.y

/-- The whole image is in the window. -/
def WholeShown (v : View) : Prop := ∀ p, InRect v.rect p → InRect v.size (shown v p)

/-- The centre of the image is in the centre of the window. -/
def Centred (v : View) : Prop := shown v ⟨v.rect.x / 2, v.rect.y / 2⟩ = ⟨v.size.x / 2, v.size.y / 2⟩

/-- No larger scale shows the whole image, wherever the image is put. -/
def Largest (v : View) : Prop := ∀ s t, v.scale < s → ¬ WholeShown { v with scale := s, trans := t }

/-- Every pixel of the window shows a point of the image. -/
def Covered (v : View) : Prop := ∀ q, InRect v.size q → ∃ p, InRect v.rect p ∧ shown v p = q

/-- The events of a window and images that have a positive size. -/
def Event.Sound : Event → Prop
  | .setExtend w h => 0 < w ∧ 0 < h
  | .resize s => 0 < s.x ∧ 0 < s.y
  | _ => True

end GView
