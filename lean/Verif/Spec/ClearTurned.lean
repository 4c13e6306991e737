import Verif.Spec.Clear

/-! # Specification of rays that hit or miss a triangle by more than rounding errors of relative size `u` and an error of relative size `η` of the direction -/

namespace Geo

/-- The point `Q` of the line of the ray is further from the origin than the rounding errors of its intersection with the plane of the triangle, also if the
direction has a relative error of `η`. -/
def MeetsTurned (u η : ℝ) (o d : V3 ℝ) (T : Ray.Tri ℝ) (k t : ℝ) (Q : V3 ℝ) : Prop :=
  (T.b - T.a).norm * (T.c - T.a).norm * d.norm ≤ k * |(normal T).dot d| ∧ 1100 * (u * k) ≤ 1 ∧ 1000 * (k * η) ≤ 1 ∧ Q = at' o d t ∧
    11 * (u * k * (o.dist T.a + o.dist Q)) < o.dist Q

/-- The point `Q` has the coordinates `s` and `r` with respect to the edges of the triangle, and their rounding errors are at most `e`, also if the direction has a
relative error of `η`. -/
def CoordsTurned (u η : ℝ) (o : V3 ℝ) (T : Ray.Tri ℝ) (k σ s r e : ℝ) (Q : V3 ℝ) : Prop :=
  (T.b - T.a).norm * (T.c - T.a).norm ≤ σ * (normal T).norm ∧ 2500 * u * σ ^ 2 ≤ 1 ∧ Q - T.a = (T.b - T.a).mulS s + (T.c - T.a).mulS r ∧
    ∃ l, 0 < l ∧ l ≤ (T.b - T.a).norm ∧ l ≤ (T.c - T.a).norm ∧
      181 * σ ^ 3 * (u * (k * (o.dist T.a + o.dist Q) + o.norm)) + 21 / 10 * (σ * (k * η * o.dist Q)) ≤ e * l

/-- The ray meets the triangle at parameter `t`, not too near to the edges, and the rounding errors move the point by at most `ε` along the ray, also if the direction
has a relative error of `η`. -/
def ClearHitTurned (u η : ℝ) (o d : V3 ℝ) (T : Ray.Tri ℝ) (ε t : ℝ) : Prop :=
  ¬ Degenerate T ∧ 0 ≤ t ∧ ∃ k σ s r e Q, MeetsTurned u η o d T k t Q ∧ CoordsTurned u η o T k σ s r e Q ∧ e ≤ s ∧ e ≤ r ∧ (s + r + 2 * e) * (1 + u) ≤ 1 ∧
    11 * (u * k * (o.dist T.a + o.dist Q)) + 11 / 10 * (k * η * o.dist Q) ≤ ε

/-- The ray misses the triangle by more than the rounding errors, also if the direction has a relative error of `η`. -/
def ClearMissTurned (u η : ℝ) (o d : V3 ℝ) (T : Ray.Tri ℝ) : Prop :=
  ¬ Degenerate T ∧ ∃ k t Q, MeetsTurned u η o d T k t Q ∧ (t < 0 ∧ OnPlane T Q ∨
    0 ≤ t ∧ ∃ σ s r e, CoordsTurned u η o T k σ s r e Q ∧ (s < -e ∨ r < -e ∨ 1 < (s + r - 2 * e) * (1 - u)))

end Geo
