import Mathlib.Probability.Distributions.Gaussian.Real
import Mathlib.Probability.ConditionalProbability
import Mathlib.Data.EReal.Basic

/-! # Model of the random numbers of `statistic.py`

A random number is modelled by its distribution, a measure on the real numbers, which the libraries promise for their functions: `numpy.random.normal` and
the distributions of `scipy.stats`.  Not modelled: the rounding of the numbers, the generators and the dependence between different draws. -/

open MeasureTheory ProbabilityTheory

namespace Noise

/-- The exceptions. -/
inductive Err
  | valueError
  | zeroDivision
  deriving DecidableEq

/-- `numpy.random.normal(loc, scale)`: ValueError for a negative scale. -/
noncomputable def npNormal (loc scale : ℝ) : Except Err (Measure ℝ) :=
  if scale < 0 then .error .valueError else .ok (gaussianReal loc (.mk (scale ^ 2) (sq_nonneg _)))

/-- `scipy.stats.truncnorm.rvs(a, b, loc, scale)`: a standard normal number conditioned on the interval from a to b, times the scale, plus loc; ValueError unless a < b and the
scale is not negative. -/
noncomputable def truncnorm (a b loc scale : ℝ) : Except Err (Measure ℝ) :=
  if a < b ∧ 0 ≤ scale then .ok ((cond (gaussianReal 0 1) (Set.Icc a b)).map fun z => loc + scale * z) else .error .valueError

/-- statistic.py:39-43 `normal.__add__` and 45-46 `__radd__`, for one number. -/
noncomputable def normalAdd (sigma other : ℝ) : Except Err (Measure ℝ) := npNormal other sigma

/-- statistic.py:58-62 `normal_bounded.__add__` and 64-65 `__radd__`, for one number; dividing by a sigma of zero raises a ZeroDivisionError. -/
noncomputable def boundedAdd (sigma min max other : ℝ) : Except Err (Measure ℝ) :=
  if sigma = 0 then .error .zeroDivision else truncnorm ((min - other) / sigma) ((max - other) / sigma) other sigma

/-- statistic.py:39-43, 58-62: `other.shape`, arrays get one draw per entry.  Simplified: sigma is not zero (a numpy array divided by zero gives infinities, no exception). -/
noncomputable def addArray (add : ℝ → Except Err (Measure ℝ)) (other : List ℝ) : Except Err (List (Measure ℝ)) := other.mapM add

/-- The frozen distributions of statistic.py:275-280: `stats.uniform(loc, scale)` and `stats.norm(loc, scale)`. -/
inductive Frozen
  | uniform (loc scale : ℝ)
  | norm (loc scale : ℝ)

/-- statistic.py:275-280: the distribution of a `FitParameter` with bounds, or else with mean and standard deviation; `none` is the ValueError. -/
def frozen (lower upper mean std : Option ℝ) : Option Frozen :=
  match lower, upper, mean, std with
  | some l, some u, _, _ => some (.uniform l (u - l))
  | _, _, some m, some s => some (.norm m s)
  | _, _, _, _ => none

/-- statistic.py:286-287 `random`: `rvs` of scipy, which raises a ValueError for a negative scale and returns loc for the scale zero. -/
noncomputable def Frozen.rvs : Frozen → Except Err (Measure ℝ)
  | .uniform loc scale => if scale < 0 then .error .valueError else if scale = 0 then .ok (Measure.dirac loc)
      else .ok ((volume.restrict (Set.Icc (0 : ℝ) 1)).map fun z => loc + scale * z)
  | .norm loc scale => if scale < 0 then .error .valueError else if scale = 0 then .ok (Measure.dirac loc)
      else .ok ((gaussianReal 0 1).map fun z => loc + scale * z)

/-- statistic.py:292-293 `logp`: `logpdf` of scipy, the log density of the standard distribution at (value - loc) / scale minus the log of the scale; `none` is nan, for a scale
that is not positive. -/
noncomputable def Frozen.logpdf : Frozen → ℝ → Option EReal
  | .uniform loc scale, v => if scale ≤ 0 then none
      else if 0 ≤ (v - loc) / scale ∧ (v - loc) / scale ≤ 1 then some ((0 - Real.log scale : ℝ) : EReal) else some ⊥
  | .norm loc scale, v => if scale ≤ 0 then none
      else some ((-((v - loc) / scale) ^ 2 / 2 - Real.log (Real.sqrt (2 * Real.pi)) - Real.log scale : ℝ) : EReal)

end Noise
