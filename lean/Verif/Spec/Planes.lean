import Verif.Spec.Ray

/-! # Specification of planes through triangles -/

namespace Geo

/-- `P` lies in the plane through the corners of `T`. -/
def OnPlane (T : Ray.Tri ℝ) (P : V3 ℝ) : Prop :=
  ∃ s t : ℝ, P.x = T.a.x + s * (T.b.x - T.a.x) + t * (T.c.x - T.a.x) ∧
    P.y = T.a.y + s * (T.b.y - T.a.y) + t * (T.c.y - T.a.y) ∧ P.z = T.a.z + s * (T.b.z - T.a.z) + t * (T.c.z - T.a.z)

/-- The ray meets the plane of the triangle at parameter `r`. -/
def HitPlane (o d : V3 ℝ) (T : Ray.Tri ℝ) (r : ℝ) : Prop := 0 ≤ r ∧ OnPlane T (at' o d r)

/-- `P` is the point of the ray with the smallest parameter at which it meets one of the surfaces. -/
def Nearest {α : Type} (o d : V3 ℝ) (hit : α → ℝ → Prop) (l : List α) (P : V3 ℝ) : Prop :=
  ∃ r, P = at' o d r ∧ (∃ T ∈ l, hit T r) ∧ ∀ T ∈ l, ∀ r', hit T r' → r ≤ r'

end Geo
