import Mathlib.Algebra.Order.BigOperators.Group.List
import Mathlib.Analysis.Real.Sqrt
import Mathlib.Algebra.Ring.Int.Parity

/-! # Specification of the summary of a trace -/

namespace Stat

/-- `m` is the mean of the entries. -/
def IsMean (l : List ℝ) (m : ℝ) : Prop := l ≠ [] ∧ (l.map fun x => x - m).sum = 0

/-- `s` is the standard deviation of the entries: the root of the mean square distance from the mean. -/
def IsStd (l : List ℝ) (s : ℝ) : Prop := 0 ≤ s ∧ ∃ m, IsMean l m ∧ s ^ 2 * l.length = (l.map fun x => (x - m) ^ 2).sum

/-- `p` is `x` with the digits up to the place `10 ^ k`, rounded to the nearest; in the middle between two, its last
digit is even. -/
def RoundedAt (x p : ℝ) (k : ℤ) : Prop := ∃ n : ℤ, p = n * 10 ^ k ∧ |p - x| ≤ 10 ^ k / 2 ∧ (|p - x| = 10 ^ k / 2 → Even n)

/-- What is printed for a mean and a standard deviation: the mean up to the place of the leading digit of the standard
deviation, the standard deviation with one more digit. -/
def Printed (m s pm ps : ℝ) : Prop := ∃ k : ℤ, 10 ^ k ≤ |s| ∧ |s| < 10 ^ (k + 1) ∧ RoundedAt m pm k ∧ RoundedAt s ps (k - 1)

end Stat
