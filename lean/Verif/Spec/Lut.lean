import Verif.Model.Camera
import Verif.Spec.Ray

/-! # Specification of the ground area of a pixel -/

namespace Camera

/-- The image point `q` shows the point `Q` of the ground, in front of the camera. -/
def Shows (c : Cam) (q : V2 ℝ) (Q : V3 ℝ) : Prop :=
  ∃ d, (getRay c q.num).2.Is d ∧ Q.z = 0 ∧ Geo.OnRay c.orient.pos d Q

/-- The ray of the image point `q` is not parallel to the ground. -/
def Steep (c : Cam) (q : V2 ℝ) : Prop := ∃ d, (getRay c q.num).2.Is d ∧ d.z ≠ 0

/-- The area of a quadrilateral on the ground by the shoelace formula. -/
noncomputable def groundArea (A B C D : V3 ℝ) : ℝ :=
  |Geo.shoelace ⟨A.x, A.y⟩ ⟨B.x, B.y⟩ ⟨C.x, C.y⟩ ⟨D.x, D.y⟩| / 2

/-- The value `a` of the area table for the pixel at `(x, y)`: the area of the quadrilateral on the ground if
all four corners of the pixel show points of the ground, else the value for undefined positions. -/
def PixelArea (c : Cam) (x y : ℝ) (undefined a : Num) : Prop :=
  (∀ A B C D, Shows c ⟨x - 1 / 2, y - 1 / 2⟩ A → Shows c ⟨x + 1 / 2, y - 1 / 2⟩ B →
    Shows c ⟨x + 1 / 2, y + 1 / 2⟩ C → Shows c ⟨x - 1 / 2, y + 1 / 2⟩ D → Num.Is a (groundArea A B C D)) ∧
  ((¬ ∃ A, Shows c ⟨x - 1 / 2, y - 1 / 2⟩ A) ∨ (¬ ∃ B, Shows c ⟨x + 1 / 2, y - 1 / 2⟩ B) ∨
    (¬ ∃ C, Shows c ⟨x + 1 / 2, y + 1 / 2⟩ C) ∨ (¬ ∃ D, Shows c ⟨x - 1 / 2, y + 1 / 2⟩ D) → a = undefined)

/-- No corner of the pixel at `(x, y)` has a ray parallel to the ground. -/
def SteepPixel (c : Cam) (x y : ℝ) : Prop :=
  Steep c ⟨x - 1 / 2, y - 1 / 2⟩ ∧ Steep c ⟨x + 1 / 2, y - 1 / 2⟩ ∧ Steep c ⟨x + 1 / 2, y + 1 / 2⟩ ∧
    Steep c ⟨x - 1 / 2, y + 1 / 2⟩

end Camera
