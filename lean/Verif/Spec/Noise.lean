import Mathlib.Probability.Distributions.Gaussian.Real
import Mathlib.Probability.ConditionalProbability
import Mathlib.Analysis.SpecialFunctions.Log.ERealExp

/-! # What random numbers should be (C167) -/

open MeasureTheory ProbabilityTheory

namespace Noise

/-- The normal distribution with a given mean and standard deviation. -/
noncomputable def normalLaw (mean std : ℝ) : Measure ℝ := gaussianReal mean (.mk (std ^ 2) (sq_nonneg _))

/-- The normal distribution restricted to an interval. -/
noncomputable def boundedLaw (mean std lo hi : ℝ) : Measure ℝ := cond (normalLaw mean std) (Set.Icc lo hi)

/-- The uniform distribution on an interval. -/
noncomputable def uniformLaw (lo hi : ℝ) : Measure ℝ := cond volume (Set.Icc lo hi)

/-- The measure has the density whose logarithm is given; the value nan never occurs. -/
def HasLogDensity (μ : Measure ℝ) (logp : ℝ → Option EReal) : Prop :=
  ∃ g : ℝ → EReal, (∀ v, logp v = some (g v)) ∧ μ = volume.withDensity fun v => (g v).exp

end Noise
