import Verif.Model.Statistic

/-! # Model of `ClassWithParameterSet.fridge` and of sampling from a trace

parameter_set.py:180-186, 326-367 and `Model` of statistic.py:299-311. -/

set_option linter.constructorNameAsVariable false

open Classical

namespace Stat

/-- A sampler (`bayesianfridge.sample`, parameter_set.py:351) as any program that gives the variables of the `Model` values
(statistic.py:304-306, or `set_value`), reads `model.logp` (308-310) and goes on depending on what it has read; in the end
it returns samples.  `n` is the number of variables. -/
inductive Sampler (n : ℕ)
  | ask (pos : Fin n → ℝ) (next : Num → Sampler n)
  | done (samples : List (Fin n → ℝ))

/-- Running a sampler: the samples and the values of the additional parameters.  `k` is the number of fit parameters.
`set_value` changes the variable objects only (statistic.py:289-290): the camera keeps its values `rd`, the terms use the
additional parameters.  parameter_set.py:332-335: `model.logp` is `getLogProbability`. -/
noncomputable def Sampler.run {n : ℕ} (k : ℕ) (rd : Sys.Pid → ℝ) (T : List Term) : Sampler n → (ℕ → ℝ) → List (Fin n → ℝ) × (ℕ → ℝ)
  | .done l, add => (l, add)
  | .ask pos next, add =>
    let add := fun j => if h : k + j < n then pos ⟨k + j, h⟩ else add j
    (next (logProbability (T.map fun t => t rd add))).run k rd T add

/-- The loop of parameter_set.py:356-359: the log probability at every sample, one after the other. -/
noncomputable def evalRows {σ P : Type} (lp : σ → P → σ × Num) : σ → List P → σ × List (P × Num)
  | x, [] => (x, [])
  | x, p :: t =>
    let r := lp x p
    let q := evalRows lp r.1 t
    (q.1, (p, r.2) :: q.2)

/-- parameter_set.py:326-367 `fridge` (the branch `if 1`, which is always taken).  All columns are given to
`set_fit_parameters` (357); the additional parameters keep the values of the last reading of the sampler. -/
noncomputable def fridgeOn (v : Sys.View) (params additional : List FitParam) (T : List Term)
    (ord : List Sys.Cb → List Sys.Cb) (S : Sampler (params ++ additional).length)
    (s : Sys.St) (add : ℕ → ℝ) : Except Err (Sys.St × (ℕ → ℝ) × List Sys.Row) := do
  let all := (params ++ additional).map FitParam.name
  let d := S.run params.length s.rd T add
  let m := evalRows (getLogProb v all T ord) (s, d.2) d.1
  let rows : List Sys.Row := m.2.map fun r => (all.zip (List.ofFn r.1), r.2)
  let best ← idxmax rows
  let s := m.1.1.step (.setTrace v (some rows))
  pure (s.setFit (s.dict v) best.1 (ord (s.fitCallbacks (s.dict v) best.1)), m.1.2, rows)

/-- parameter_set.py:180-186 `sample` for an object with a trace: the values of row `i` are set and its probability is
returned.  `i` is the random row number. -/
noncomputable def sampleRow (v : Sys.View) (ord : List Sys.Cb → List Sys.Cb) (s : Sys.St) (i : ℕ) : Except Err (Sys.St × Num) :=
  match s.traces v with
  | none => .error .attributeError
  | some rows => match rows[i]? with
    | none => .error .valueError
    | some row => .ok (s.step (.setFit v row.1 (ord (s.fitCallbacks (s.dict v) row.1))), row.2)

end Stat
