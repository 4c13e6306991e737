import Verif.Model.Statistic
import Mathlib.Analysis.SpecialFunctions.Log.Base

/-! # Model of the summary of a trace

`print_mean_std` and `printTraceSummary` of statistic.py, up to the conversion of the rounded numbers to text. -/

open Classical

namespace Stat

/-- Rounding to an integer, halves to even. -/
noncomputable def roundHalfEven (x : ℝ) : ℤ :=
  if x - ⌊x⌋ < 1 / 2 then ⌊x⌋ else if 1 / 2 < x - ⌊x⌋ then ⌊x⌋ + 1 else if Even ⌊x⌋ then ⌊x⌋ else ⌊x⌋ + 1

/-- `round(x, d)`, also for negative `d`. -/
noncomputable def pyround (x : ℝ) (d : ℤ) : ℝ := roundHalfEven (x * 10 ^ d) / 10 ^ d

/-- statistic.py:27-29 `print_mean_std`: the two numbers that are printed.  `log10(0)` raises a ValueError. -/
noncomputable def printMeanStd (x y : ℝ) : Except Err (ℝ × ℝ) :=
  if |y| = 0 then .error .valueError
  else
    let digits : ℤ := -⌊Real.logb 10 |y|⌋
    .ok (pyround x digits, pyround y (1 + digits))

/-- `np.mean`. -/
noncomputable def mean (l : List ℝ) : ℝ := l.sum / l.length

/-- `np.std`. -/
noncomputable def std (l : List ℝ) : ℝ := Real.sqrt (mean (l.map fun x => |x - mean l| ^ 2))

/-- statistic.py:246-253 `printTraceSummary`: for all columns but the last the name and the two numbers.  `logarithmic` gives
the entries of the argument (False for all if the argument is False).  The mean of an empty column is nan, and `floor(nan)`
raises a ValueError. -/
noncomputable def printTraceSummary (columns : List (String × List ℝ)) (logarithmic : ℕ → Bool) : Except Err (List (String × ℝ × ℝ)) :=
  columns.dropLast.zipIdx.mapM fun c => do
    let data := if logarithmic c.2 then c.1.2.map Real.exp else c.1.2
    if data = [] then .error .valueError
    else
      let r ← printMeanStd (mean data) (std data)
      pure (c.1.1, r)

end Stat
