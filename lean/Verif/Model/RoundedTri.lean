import Verif.Model.RoundedPlane

/-! # Rays that meet a triangle with rounding errors (ray.py:27-100)

As in `Rounded`, every operation has a relative error of at most `u`; overflow and underflow are not modelled. -/

open Classical

namespace Rounded

/-- ray.py:79-86: whether the point `P` of the plane counts as a point of the triangle.  `w` is `origin + rI * direction - v0`, and
`P = origin + rI * direction` is also what line 96 computes.  If `denom` is 0, any result is allowed. -/
def InTest (u : ℝ) (T : Ray.Tri ℝ) (P : V3 ℝ) (out : Option (V3 ℝ)) : Prop :=
  ∃ (U V w : V3 ℝ) (uv uu vv wu wv x y den e1 e2 ns si f1 f2 nt ti st : ℝ), Diff u T.b T.a U ∧ Diff u T.c T.a V ∧ Diff u P T.a w ∧ Dot u U V uv ∧ Dot u U U uu ∧
    Dot u V V vv ∧ Dot u w U wu ∧ Dot u w V wv ∧ Rd u (uv * uv) x ∧ Rd u (uu * vv) y ∧ Rd u (x - y) den ∧ Rd u (uv * wv) e1 ∧ Rd u (vv * wu) e2 ∧
    Rd u (e1 - e2) ns ∧ Rd u (ns / den) si ∧ Rd u (uv * wu) f1 ∧ Rd u (uu * wv) f2 ∧ Rd u (f1 - f2) nt ∧ Rd u (nt / den) ti ∧ Rd u (si + ti) st ∧
    (den = 0 ∨ if (si < 0 ∨ 1 < si) ∨ (ti < 0 ∨ 1 < st) then out = none else out = some P)

/-- ray.py:60-100 `ray_intersect_triangle` of one ray and one triangle; `none` stands for a nan entry of `rI`. -/
def TriHit (u : ℝ) (o d : V3 ℝ) (T : Ray.Tri ℝ) (out : Option (V3 ℝ)) : Prop :=
  ∃ pl, PlaneHit u o d T pl ∧ (pl = none → out = none) ∧ ∀ P, pl = some P → InTest u T P out

end Rounded
