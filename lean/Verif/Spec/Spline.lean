import Verif.Spec.Lens

/-! # Interpolating cubic splines

What scipy's `InterpolatedUnivariateSpline(y, x)` (used in lens_distortion.py:32) computes, in exact arithmetic: the cubic
spline through the given points whose knots are the given ones except the second and the last but one ("not a knot"), which is
continued by its first and last piece outside of the given points. -/

namespace SplineSpec

/-- A polynomial of degree at most three. -/
structure Cubic where
  a : ℝ
  b : ℝ
  c : ℝ
  d : ℝ

/-- The value, the slope and the second derivative of a cubic polynomial. -/
def Cubic.at (q : Cubic) (t : ℝ) : ℝ := q.a + q.b * t + q.c * t ^ 2 + q.d * t ^ 3
def Cubic.slope (q : Cubic) (t : ℝ) : ℝ := q.b + 2 * q.c * t + 3 * q.d * t ^ 2
def Cubic.bend (q : Cubic) (t : ℝ) : ℝ := 2 * q.c + 6 * q.d * t

/-- The `n` pieces `q` between `y 0, …, y n` make a spline through the points `(y i, x i)`: neighbouring pieces have the same
value, slope and second derivative where they meet, and the first two and the last two also the same third derivative. -/
structure NotAKnot (n : ℕ) (y x : ℕ → ℝ) (q : ℕ → Cubic) : Prop where
  left : ∀ i < n, (q i).at (y i) = x i
  right : ∀ i < n, (q i).at (y (i + 1)) = x (i + 1)
  slope : ∀ i, i + 1 < n → (q i).slope (y (i + 1)) = (q (i + 1)).slope (y (i + 1))
  bend : ∀ i, i + 1 < n → (q i).bend (y (i + 1)) = (q (i + 1)).bend (y (i + 1))
  first : (q 0).d = (q 1).d
  last : (q (n - 2)).d = (q (n - 1)).d

/-- `F` evaluates the spline through the points, piece by piece; the first and the last piece also outside. -/
def Evaluates (ys xs : List ℝ) (F : Num → Num) : Prop :=
  ∃ q, NotAKnot (ys.length - 1) (ys.getD · 0) (xs.getD · 0) q ∧ ∀ v t, Num.Is v t → ∀ i, i + 1 < ys.length →
    (i = 0 ∨ ys.getD i 0 ≤ t) → (i + 2 = ys.length ∨ t ≤ ys.getD (i + 1) 0) → Num.Is (F v) ((q i).at t)

/-- `scipy.interpolate.InterpolatedUnivariateSpline(y, x)` in exact arithmetic: it raises unless there are at least four points with
strictly increasing `y`, and otherwise evaluates the spline. -/
structure Fitpack (s : LensModel.Spline) : Prop where
  isSome_iff : ∀ ys xs, (s ys xs).isSome ↔ ys.length = xs.length ∧ 4 ≤ ys.length ∧ ys.Pairwise (· < ·)
  evaluates : ∀ ys xs F, s ys xs = some F → Evaluates ys xs F

end SplineSpec
