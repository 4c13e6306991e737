import Verif.Spec.Statistic
import Mathlib.MeasureTheory.Integral.Bochner.Set
import Mathlib.MeasureTheory.Measure.Lebesgue.Basic

/-! # Specification of the random walk as a Markov chain -/

open Classical MeasureTheory

namespace Stat

/-- The part of the standard normal distribution between two bounds, without the factor 1/√(2π). -/
noncomputable def gaussMass (a b : Num) : ℝ := ∫ t in {t : ℝ | a ≤ .fin t ∧ .fin t ≤ b}, Real.exp (-(t ^ 2) / 2)

/-- The density of `scipy.stats.truncnorm(a, b)`: the standard normal density between the bounds, scaled to total 1. -/
noncomputable def truncDensity (a b : Num) (z : ℝ) : ℝ :=
  if a ≤ .fin z ∧ .fin z ≤ b then Real.exp (-(z ^ 2) / 2) / gaussMass a b else 0

/-- The density of proposing `y` at `x` if the components are drawn by `truncnorm` with the bounds that the program gives to
it: the program computes `y = x + factor * step * z`. -/
noncomputable def proposalDensity {n : ℕ} (A : Args n) (factor : ℝ) (x y : Fin n → ℝ) : ℝ :=
  ∏ k, truncDensity (truncLo A x k) (truncHi A x k) ((y k - x k) / (factor * A.step k)) / (factor * A.step k)

/-- The probability that a proposal is accepted, if `np.random.rand()` is uniform on [0, 1). -/
noncomputable def acceptProb (last next : Num) : ℝ := (volume {u : ℝ | u ∈ Set.Ico 0 1 ∧ Accept last next u}).toReal

/-- The density of a move from `x` to `y ≠ x`. -/
noncomputable def moveDensity {n : ℕ} (A : Args n) (factor : ℝ) (P : (Fin n → ℝ) → Num) (x y : Fin n → ℝ) : ℝ :=
  proposalDensity A factor x y * acceptProb (P x) (P y)

/-- How much of the proposals of one component lies inside the bounds: the probability, up to a constant, that a normal
step of the given width from `x` stays between them. -/
noncomputable def stayMass (lower upper : Option ℝ) (step x : ℝ) : ℝ :=
  ∫ t in {t : ℝ | (∀ l, lower = some l → l ≤ x + step * t) ∧ ∀ u, upper = some u → x + step * t ≤ u}, Real.exp (-(t ^ 2) / 2)

end Stat
