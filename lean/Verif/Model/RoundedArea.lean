import Verif.Model.RoundedLines
import Verif.Model.Ray

/-! # Areas with rounding errors (ray.py:235-290)

As in `Rounded`, every operation has a relative error of at most `u`; overflow and underflow are not modelled. -/

open Classical

namespace Rounded

/-- ray.py:285-290 `areaOfQuadrilateral` of one quadrilateral. -/
def QuadArea (u : ℝ) (A B C D : V2 ℝ) (out : ℝ) : Prop :=
  ∃ a b c d p q s, Rd u (A.y - C.y) a ∧ Rd u (D.x - B.x) b ∧ Rd u (B.y - D.y) c ∧ Rd u (A.x - C.x) d ∧ Rd u (a * b) p ∧ Rd u (c * d) q ∧ Rd u (p + q) s ∧
    Rd u (1 / 2 * |s|) out

/-- ray.py:249-251: the length of the difference of two corners. -/
def Edge (u : ℝ) (A B : V3 ℝ) (n : ℝ) : Prop := ∃ d : V3 ℝ, Rd u (A.x - B.x) d.x ∧ Rd u (A.y - B.y) d.y ∧ Rd u (A.z - B.z) d.z ∧ NormOf u d n

/-- ray.py:249-254 `areaOfTriangle` of one 3D triangle.  The root of a negative number is nan. -/
def TriArea (u : ℝ) (T : Ray.Tri ℝ) (out : Num) : Prop :=
  ∃ a b c p q s x y z f g h, Edge u T.a T.b a ∧ Edge u T.b T.c b ∧ Edge u T.c T.a c ∧ Rd u (a + b) p ∧ Rd u (p + c) q ∧ Rd u (q / 2) s ∧ Rd u (s - a) x ∧
    Rd u (s - b) y ∧ Rd u (s - c) z ∧ Rd u (s * x) f ∧ Rd u (f * y) g ∧ Rd u (g * z) h ∧
    if h < 0 then out = .nan else ∃ r, Rd u (Real.sqrt h) r ∧ Num.Is out r

end Rounded
