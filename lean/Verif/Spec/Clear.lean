import Verif.Spec.Planes

/-! # Specification of rays that hit or miss a triangle by more than rounding errors of relative size `u` -/

namespace Geo

/-- The point `Q` of the line of the ray is further from the origin than the rounding errors of its intersection with the plane of the triangle. -/
def Meets (u : ℝ) (o d : V3 ℝ) (T : Ray.Tri ℝ) (k t : ℝ) (Q : V3 ℝ) : Prop :=
  (T.b - T.a).norm * (T.c - T.a).norm * d.norm ≤ k * |(normal T).dot d| ∧ 1000 * u * k ≤ 1 ∧ Q = at' o d t ∧ 10 * u * k * (o.dist T.a + o.dist Q) < o.dist Q

/-- The point `Q` has the coordinates `s` and `r` with respect to the edges of the triangle, and their rounding errors are at most `e`. -/
def Coords (u : ℝ) (o : V3 ℝ) (T : Ray.Tri ℝ) (k σ s r e : ℝ) (Q : V3 ℝ) : Prop :=
  (T.b - T.a).norm * (T.c - T.a).norm ≤ σ * (normal T).norm ∧ 2500 * u * σ ^ 2 ≤ 1 ∧ Q - T.a = (T.b - T.a).mulS s + (T.c - T.a).mulS r ∧
    178 * σ ^ 3 * (u * (k * (o.dist T.a + o.dist Q) + o.norm)) ≤ e * (T.b - T.a).norm ∧ 178 * σ ^ 3 * (u * (k * (o.dist T.a + o.dist Q) + o.norm)) ≤ e * (T.c - T.a).norm

/-- The ray meets the triangle at parameter `t`, not too near to the edges, and the rounding errors move the point by at most `ε` along the ray. -/
def ClearHit (u : ℝ) (o d : V3 ℝ) (T : Ray.Tri ℝ) (ε t : ℝ) : Prop :=
  ¬ Degenerate T ∧ 0 ≤ t ∧ ∃ k σ s r e Q, Meets u o d T k t Q ∧ Coords u o T k σ s r e Q ∧ e ≤ s ∧ e ≤ r ∧ (s + r + 2 * e) * (1 + u) ≤ 1 ∧
    10 * u * k * (o.dist T.a + o.dist Q) ≤ ε

/-- The ray misses the triangle by more than the rounding errors. -/
def ClearMiss (u : ℝ) (o d : V3 ℝ) (T : Ray.Tri ℝ) : Prop :=
  ¬ Degenerate T ∧ ∃ k t Q, Meets u o d T k t Q ∧ (t < 0 ∧ OnPlane T Q ∨
    0 ≤ t ∧ ∃ σ s r e, Coords u o T k σ s r e Q ∧ (s < -e ∨ r < -e ∨ 1 < (s + r - 2 * e) * (1 - u)))

end Geo
