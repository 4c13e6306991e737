import Verif.Model.System

/-! # Histories that differ only in the order of callbacks

`set_fit_parameters`, `sample` and `set_to_mean` collect callbacks in a Python set (parameter_set.py:138, 190, 208). The order in which a set of bound methods is
iterated depends on addresses in memory. -/

namespace Sys

/-- The same call with another order of the callbacks. -/
inductive SameCall : Op → Op → Prop
  | same (op : Op) : SameCall op op
  | setFit (v : View) (vals : List (String × ℝ)) (order order' : List Cb) : SameCall (.setFit v vals order) (.setFit v vals order')
  | sample (v : View) (draw : Pid → ℝ) (order order' : List Cb) : SameCall (.sample v draw order) (.sample v draw order')
  | toMean (v : View) (order order' : List Cb) : SameCall (.toMean v order) (.toMean v order')

/-- Two runs of the same program. -/
inductive Twins : St → St → Prop
  | start : Twins St.empty St.empty
  | step {s s' : St} {op op' : Op} : Twins s s' → SameCall op op' → s.ok op → s'.ok op' → Twins (s.step op) (s'.step op')

end Sys
