import Verif.Model.Lens

/-! # Specifications for lenses -/

open Classical

namespace LensSpec

/-- The distance of a pixel from the centre in units of the scale. -/
noncomputable def radius (scale offset p : V2 ℝ) : ℝ :=
  Real.sqrt (((p.x - offset.x) / scale.x) ^ 2 + ((p.y - offset.y) / scale.y) ^ 2)

/-- The radius polynomial of the documentation of the Brown model. -/
def brownPoly (k1 k2 k3 r : ℝ) : ℝ := r * (1 + k1 * r ^ 2 + k2 * r ^ 4 + k3 * r ^ 6)

/-- The radius polynomial of the documentation of the ABC model. -/
def abcPoly (a b c r : ℝ) : ℝ := (1 - a - b - c) * r + c * r ^ 2 + b * r ^ 3 + a * r ^ 4

/-- `q` is `p` moved along the line through the centre, by the factor `c` relative to the centre. -/
def Stretched (offset : V2 ℝ) (c : ℝ) (p q : V2 ℝ) : Prop :=
  q.x - offset.x = c * (p.x - offset.x) ∧ q.y - offset.y = c * (p.y - offset.y)

/-- What is used of scipy's spline: with at least four strictly increasing knots it exists, it takes the
given values at the knots, and for values equal to the knots it is the identity.  It raises if the knots
are not strictly increasing. -/
structure GoodSpline (s : LensModel.Spline) : Prop where
  exists_of_increasing : ∀ ys xs : List ℝ, ys.length = xs.length → 4 ≤ ys.length → ys.Pairwise (· < ·) →
    (s ys xs).isSome
  interpolates : ∀ (ys xs : List ℝ) (f : Num → Num), s ys xs = some f →
    ∀ (i : ℕ) (y x : ℝ), ys[i]? = some y → xs[i]? = some x → ∀ n, Num.Is n y → Num.Is (f n) x
  identity : ∀ (ys : List ℝ) (f : Num → Num), s ys ys = some f → ∀ (n : Num) (r : ℝ), Num.Is n r → Num.Is (f n) r
  raises : ∀ ys xs : List ℝ, ¬ ys.Pairwise (· < ·) → s ys xs = none

end LensSpec
