import Verif.Model.TracePlot
import Verif.Spec.Summary

/-! # Specification of the plot of a trace -/

namespace TracePlot

/-- `d` is every `k`-th number of `l`. -/
def Thinned (k : ℕ) (l d : List ℝ) : Prop := ∀ i : ℕ, d[i]? = l[k * i]?

/-- Row `r` of a trace has the highest probability; without probabilities the first row is taken. -/
def BestRow (prob : Option (List Num)) (r : ℕ) : Prop :=
  match prob with
  | none => r = 0
  | some p => ∃ v, p[r]? = some v ∧ ∀ w ∈ p, w ≤ v

/-- What is to be seen for the column `data` of a trace: its density between its smallest and its largest value and lines at its value of highest
probability (red) and at its mean (black). -/
def ShowsDist (kde : List ℝ → Bool) (c : Call) (data : List ℝ) (l : List Art) : Prop :=
  ∃ lo ∈ data, ∃ hi ∈ data, (∀ x ∈ data, lo ≤ x ∧ x ≤ hi) ∧ ∃ d, Thinned c.skip data d ∧ ∃ r v m, BestRow c.prob r ∧ data[r]? = some v ∧
    Stat.IsMean data m ∧
    l = (if kde d = true then [.density lo hi d] else []) ++ if c.meanMedian then [.vline true v, .vline false m] else []

/-- The same for the sampled values. -/
def ShowsSeries (c : Call) (data : List ℝ) (l : List Art) : Prop :=
  ∃ d, Thinned c.skip data d ∧ ∃ r v m, BestRow c.prob r ∧ data[r]? = some v ∧ Stat.IsMean data m ∧
    l = .series c.skip d :: if c.meanMedian then [.hline true v, .hline false m] else []

/-- The columns shown by a call: the first `N` ones. -/
def shown (c : Call) : List (Call × String × List ℝ) := (c.cols.take c.rows).map fun x => (c, x.1, x.2)

/-- A trace with at least one row, and parameters with different names that are not those of the internal entries. -/
def Usable (c : Call) : Prop :=
  c.axes = none ∧ 1 ≤ c.skip ∧ (∃ n, 1 ≤ n ∧ (∀ x ∈ c.cols, x.2.length = n) ∧ ∀ p, c.prob = some p → p.length = n ∧ ∀ v ∈ p, v ≠ Num.nan) ∧
    (c.cols.map Prod.fst).Nodup ∧ ∀ x ∈ c.cols, x.1 ≠ "N" ∧ x.1 ≠ "next_index" ∧ x.1 ≠ "top_left"

end TracePlot
