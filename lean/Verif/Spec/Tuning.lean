import Verif.Spec.Statistic

/-! # Specification of the tuning of the step size -/

open Classical

namespace Stat

/-- The table in the comments of `metropolis` (statistic.py:131-150): how the scale factor of the steps follows the part
of the proposals that was accepted. -/
def Tuned (rate factor factor' : ℝ) : Prop :=
  (rate < 1 / 1000 → factor' = factor / 10) ∧
  (1 / 1000 ≤ rate → rate < 1 / 20 → factor' = factor / 2) ∧
  (1 / 20 ≤ rate → rate < 1 / 5 → factor' = factor - factor / 10) ∧
  (1 / 5 ≤ rate → rate ≤ 1 / 2 → factor' = factor) ∧
  (1 / 2 < rate → rate ≤ 3 / 4 → factor' = factor + factor / 10) ∧
  (3 / 4 < rate → rate ≤ 19 / 20 → factor' = 2 * factor) ∧
  (19 / 20 < rate → factor' = 10 * factor)

/-- The iterations whose outcomes are looked at in iteration `i`: the last hundred, and all up to 200 at the first time. -/
def window (i : ℕ) : Finset ℕ := if i = 200 then Finset.Icc 0 200 else Finset.Ioc (i - 100) i

/-- The part of the iterations `I` in which `acc` is true. -/
noncomputable def part (acc : ℕ → Prop) (I : Finset ℕ) : ℝ := (I.filter acc).card / I.card

end Stat
