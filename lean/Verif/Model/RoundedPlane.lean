import Verif.Model.RoundedLines
import Verif.Model.Ray

/-! # Rays that meet the plane of a triangle with rounding errors (ray.py:27-100)

As in `Rounded`, every operation has a relative error of at most `u`; overflow and underflow are not modelled. -/

open Classical

namespace Rounded

/-- The difference of two points, coordinate by coordinate. -/
def Diff (u : ℝ) (P Q d : V3 ℝ) : Prop := Rd u (P.x - Q.x) d.x ∧ Rd u (P.y - Q.y) d.y ∧ Rd u (P.z - Q.z) d.z

/-- ray.py:96: `origin + rI * direction`. -/
def Along (u : ℝ) (o d : V3 ℝ) (q : ℝ) (P : V3 ℝ) : Prop :=
  ∃ a b c, Rd u (q * d.x) a ∧ Rd u (q * d.y) b ∧ Rd u (q * d.z) c ∧ Rd u (o.x + a) P.x ∧ Rd u (o.y + b) P.y ∧ Rd u (o.z + c) P.z

/-- ray.py:60-100 `ray_intersect_triangle` of one ray and one triangle with `use_planes=True`; `none` stands for a nan entry of
`rI`, for which line 90 writes `inf`, so that no coordinate of the result is finite. -/
def PlaneHit (u : ℝ) (o d : V3 ℝ) (T : Ray.Tri ℝ) (out : Option (V3 ℝ)) : Prop :=
  ∃ (U V n w : V3 ℝ) (b a : ℝ), Diff u T.b T.a U ∧ Diff u T.c T.a V ∧ Cross u U V n ∧ Dot u n d b ∧ Diff u T.a o w ∧ Dot u n w a ∧
    if b = 0 ∧ a ≠ 0 then out = none
    else ∃ q, (if b = 0 then q = 0 else Rd u (a / b) q) ∧ if q < 0 then out = none else ∃ P, out = some P ∧ Along u o d q P

end Rounded
