import Verif.Model.System
import Mathlib.Analysis.SpecialFunctions.Exp

/-! # Model of the Metropolis sampler and the fit wrappers

`statistic.py` (`metropolis`, `FitParameter`) and `ClassWithParameterSet.fit`/`metropolis`/`getLogProbability` of
parameter_set.py.  Random numbers are arguments: every theorem holds for all of them. -/

set_option linter.constructorNameAsVariable false

open Classical

/-- `np.exp`. -/
noncomputable def Num.exp : Num → Num
  | fin r => fin (Real.exp r)
  | nzero => fin 1
  | pinf => pinf
  | ninf => fin 0
  | nan => nan

namespace Stat

/-- Python exceptions. -/
abbrev Err := Camera.PyErr

/-- `int(x)`: truncation towards zero. -/
noncomputable def pyint (x : ℝ) : ℤ := if 0 ≤ x then ⌊x⌋ else ⌈x⌉

/-- statistic.py:69-72. -/
noncomputable def effBurn (iterations burn : ℝ) : ℤ := if burn < 1 then pyint (iterations * burn) else pyint burn

/-- The local variables of the loop of `metropolis` (statistic.py:74-99).  A row of the trace is a position and its log
probability (line 127). -/
structure Chain (n : ℕ) where
  pos : Fin n → ℝ
  prob : Num
  accepted : ℕ := 0
  rejected : ℕ := 0
  factor : ℝ := 1
  trace : List ((Fin n → ℝ) × Num) := []

/-- The arguments of `metropolis`.  `lower`, `upper` are the ranges with None/nan for a missing bound
(statistic.py:79-84).  `prior_trace` is None (the only use in the library, parameter_set.py:316).
`tn i k a b` is the draw of `truncnorm(a, b)` for component `k` in iteration `i`, `u i` that of `np.random.rand()`. -/
structure Args (n : ℕ) where
  step : Fin n → ℝ
  lower : Fin n → Option ℝ
  upper : Fin n → Option ℝ
  iterations : ℝ
  burn : ℝ
  tn : ℕ → Fin n → Num → Num → ℝ
  u : ℕ → ℝ

/-- statistic.py:82-83. -/
def lo {n : ℕ} (A : Args n) (k : Fin n) : Num := match A.lower k with
  | some x => .fin x
  | none => .ninf

/-- statistic.py:82-84. -/
def hi {n : ℕ} (A : Args n) (k : Fin n) : Num := match A.upper k with
  | some x => .fin x
  | none => .pinf

/-- The bounds given to `truncnorm` (statistic.py:108). -/
noncomputable def truncLo {n : ℕ} (A : Args n) (pos : Fin n → ℝ) (k : Fin n) : Num := (lo A k - .fin (pos k)) / .fin (A.step k)
noncomputable def truncHi {n : ℕ} (A : Args n) (pos : Fin n → ℝ) (k : Fin n) : Num := (hi A k - .fin (pos k)) / .fin (A.step k)

/-- statistic.py:108: the proposed position. -/
noncomputable def propose {n : ℕ} (A : Args n) (i : ℕ) (factor : ℝ) (pos : Fin n → ℝ) : Fin n → ℝ :=
  fun k => pos k + factor * A.step k * A.tn i k (truncLo A pos k) (truncHi A pos k)

/-- statistic.py:112-117: is the proposal accepted? -/
noncomputable def Accept (last next : Num) (r : ℝ) : Prop :=
  let ratio := if next.IsInf ∧ last.IsInf then .fin 0 else next - last
  Num.fin 0 ≤ ratio ∨ Num.fin r < ratio.exp

/-- statistic.py:130-151: the new factor. -/
noncomputable def adapt (rate factor : ℝ) : ℝ :=
  if rate < 0.001 then factor * 0.1
  else if rate < 0.05 then factor * 0.5
  else if rate < 0.2 then factor * 0.9
  else if rate > 0.95 then factor * 10
  else if rate > 0.75 then factor * 2
  else if rate > 0.5 then factor * 1.1
  else factor

/-- One iteration (statistic.py:100-157).  `lp` is `getLogProb`, which has effects on the state `σ`.  `truncnorm` raises a
ValueError unless its bounds are in order.  The progress bar is left out. -/
noncomputable def iter {σ : Type} {n : ℕ} (lp : σ → (Fin n → ℝ) → σ × Num) (A : Args n) (i : ℕ) (x : σ × Chain n) :
    Except Err (σ × Chain n) :=
  let s := x.1
  let c := x.2
  if ∃ k, ¬ truncLo A c.pos k < truncHi A c.pos k then .error .valueError
  else
    let next := propose A i c.factor c.pos
    let r := lp s next
    let c := if Accept c.prob r.2 (A.u i) then { c with pos := next, prob := r.2, accepted := c.accepted + 1 }
      else { c with rejected := c.rejected + 1 }
    let c :=
      if (i : ℤ) > effBurn A.iterations A.burn then { c with trace := c.trace ++ [(c.pos, c.prob)] }
      else if i > 100 ∧ i % 100 = 0 then
        { c with factor := adapt (c.accepted / (c.accepted + c.rejected)) c.factor, accepted := 0, rejected := 0 }
      else c
    .ok (r.1, c)

/-- The first `i` iterations. -/
noncomputable def loop {σ : Type} {n : ℕ} (lp : σ → (Fin n → ℝ) → σ × Num) (A : Args n) (x : σ × Chain n) :
    ℕ → Except Err (σ × Chain n)
  | 0 => .ok x
  | i + 1 => do iter lp A i (← loop lp A x i)

/-- statistic.py:68-159 `metropolis`: the final state and the trace. -/
noncomputable def metropolis {σ : Type} {n : ℕ} (lp : σ → (Fin n → ℝ) → σ × Num) (A : Args n) (s : σ) (start : Fin n → ℝ) :
    Except Err (σ × List ((Fin n → ℝ) × Num)) := do
  let r := lp s start
  let x ← loop lp A (r.1, { pos := start, prob := r.2 }) (pyint A.iterations).toNat
  pure (x.1, x.2.trace)

/-- The start search of `fit` and `metropolis` (parameter_set.py:263-269, 308-314).  `draws j` is the position drawn for
`trys = j`; the position is evaluated before `trys` is compared.  Result: the state, the position and `trys`. -/
noncomputable def search {σ P : Type} (lp : σ → P → σ × Num) (draws : ℕ → P) (s : σ) (start : P) (trys : ℕ) : ℕ → σ × P × ℕ
  | 0 => let r := lp s start; (r.1, start, trys)
  | fuel + 1 =>
    let r := lp s start
    if r.2.IsInf then search lp draws r.1 (draws trys) (trys + 1) fuel else (r.1, start, trys)

/-- parameter_set.py:263-269, 308-314. -/
noncomputable def findStart {σ P : Type} (lp : σ → P → σ × Num) (draws : ℕ → P) (s : σ) (start : P) : Except Err (σ × P) :=
  let r := search lp draws s start 0 1000
  if r.2.2 ≥ 1000 then .error .valueError else .ok (r.1, r.2.1)

/-- statistic.py:264-284 `FitParameter`.  `parents` are the values of the keys "lower" and "upper" of the attribute
`parents`; `none` if the attribute does not exist. -/
structure FitParam where
  name : String
  value : ℝ
  step : ℝ := 1
  parents : Option (Option ℝ × Option ℝ)

/-- statistic.py:271-283: the constructor; `dist` says whether a distribution is given. -/
noncomputable def FitParam.new (name : String) (dist : Bool) (lower upper : Option ℝ) (step value : ℝ) (mean std : Option ℝ) :
    Except Err FitParam :=
  if dist then .ok ⟨name, value, step, none⟩
  else match lower, upper, mean, std with
    | some l, some u, _, _ => .ok ⟨name, value, step, some (some l, some u)⟩
    | _, _, some _, some _ => .ok ⟨name, value, step, some (none, none)⟩
    | _, _, _, _ => .error .valueError

/-- parameter_set.py:257, 294, 298: the ranges; AttributeError without `parents`. -/
def ranges : List FitParam → Except Err (List (Option ℝ × Option ℝ))
  | [] => .ok []
  | p :: t => match p.parents with
    | none => .error .attributeError
    | some r => do pure (r :: (← ranges t))

/-- Broadcasting the steps (one per parameter) against the positions (parameters and additional parameters): equal
lengths, or a single step for all.  (An empty parameter list with one additional parameter broadcasts to nothing and
fails in the construction of the DataFrame; here it is the same ValueError.) -/
def broadcastStep (steps : List ℝ) (n : ℕ) : Except Err (List ℝ) :=
  if steps.length = n then .ok steps
  else match steps with
    | [s] => .ok (List.replicate n s)
    | _ => .error .valueError

/-- `np.sum` of a list of floats. -/
noncomputable def npsum : List Num → Num
  | [] => .fin 0
  | x :: t => x + npsum t

/-- parameter_set.py:243-248 `getLogProbability`, given the values of the terms. -/
noncomputable def logProbability (terms : List Num) : Num :=
  let prob := npsum terms
  if prob = .nan then .ninf else prob

/-- camera.py:291-296 `CameraGroup.getLogProbability`: the own terms and those of the cameras. -/
noncomputable def groupLogProbability (own : List Num) (cams : List (List Num)) : Num :=
  let prob := npsum own + npsum cams.flatten
  if prob = .nan then .ninf else prob

/-- Calls that change the list of terms: the `add…Information` functions (camera.py:515-834; 246-265 for groups) and
`addCustomoLogProbability` (parameter_set.py:228, never only for plotting); `clearLogProbability` (232-234). -/
inductive TermOp (T : Type) | add (t : T) (onlyPlot : Bool) | clear

/-- `log_prob` after a call. -/
def TermOp.run {T : Type} (l : List T) : TermOp T → List T
  | .add t false => l ++ [t]
  | .add _ true => l
  | .clear => []

/-- A term of the log probability of a camera or group: a function of the values of the parameters and of the additional
parameters.  (The terms also use the attributes that the callbacks keep; these follow the values, C51, C52.) -/
abbrev Term := (Sys.Pid → ℝ) → (ℕ → ℝ) → Num

/-- The local function `getLogProb` of parameter_set.py:302-306 (and 259-261 without additional parameters): the names
take the first components of the position, the additional parameters the rest.  `ord` gives the order in which a set of
callbacks is called. -/
noncomputable def getLogProb (v : Sys.View) (names : List String) (T : List Term) (ord : List Sys.Cb → List Sys.Cb) {n : ℕ}
    (x : Sys.St × (ℕ → ℝ)) (pos : Fin n → ℝ) : (Sys.St × (ℕ → ℝ)) × Num :=
  let vals := names.zip (List.ofFn pos)
  let s := x.1.setFit (x.1.dict v) vals (ord (x.1.fitCallbacks (x.1.dict v) vals))
  let add := fun j => if h : names.length + j < n then pos ⟨names.length + j, h⟩ else x.2 j
  ((s, add), logProbability (T.map fun t => t s.rd add))

/-- `trace["probability"].idxmax()` (parameter_set.py:201): the first row with maximal probability; ValueError if there
is no row.  (Probabilities are never nan here.) -/
noncomputable def idxmax {α : Type} : List (α × Num) → Except Err (α × Num)
  | [] => .error .valueError
  | [r] => .ok r
  | r :: t => do
    let b ← idxmax t
    pure (if b.2 ≤ r.2 then r else b)

/-- The random numbers used by a call of `metropolis`. -/
structure Rand (n : ℕ) where
  draws : ℕ → Fin n → ℝ
  tn : ℕ → Fin n → Num → Num → ℝ
  u : ℕ → ℝ

/-- parameter_set.py:286-324 `ClassWithParameterSet.metropolis` for the object `v`: the new state, the values of the
additional parameters, and the trace.  `params` and `additional` are the fit parameters, `scale` the argument `step`. -/
noncomputable def metropolisOn (v : Sys.View) (params additional : List FitParam) (T : List Term)
    (ord : List Sys.Cb → List Sys.Cb) (scale iterations burn : ℝ) (R : Rand (params ++ additional).length)
    (s : Sys.St) (add : ℕ → ℝ) : Except Err (Sys.St × (ℕ → ℝ) × List Sys.Row) := do
  let names := params.map FitParam.name
  let all := (params ++ additional).map FitParam.name
  let n := (params ++ additional).length
  let rs ← ranges (params ++ additional)
  let f : (Sys.St × (ℕ → ℝ)) → (Fin n → ℝ) → (Sys.St × (ℕ → ℝ)) × Num := getLogProb v names T ord
  let x ← findStart f R.draws (s, add) (fun k => ((params ++ additional).get k).value)
  let steps ← broadcastStep (params.map fun p => scale * p.step) n
  let m ← metropolis f
    { step := fun k => steps.getD k 0
      lower := fun k => (rs.getD k (none, none)).1
      upper := fun k => (rs.getD k (none, none)).2
      iterations := iterations
      burn := burn
      tn := R.tn
      u := R.u } x.1 x.2
  let rows : List Sys.Row := m.2.map fun r => (all.zip (List.ofFn r.1), r.2)
  let best ← idxmax rows
  let s := m.1.1.step (.setTrace v (some rows))
  pure (s.setFit (s.dict v) best.1 (ord (s.fitCallbacks (s.dict v) best.1)), m.1.2, rows)

/-- Calling `getLogProb` (or the local `cost`, which makes the same assignments) at several positions. -/
noncomputable def evals {σ P : Type} (lp : σ → P → σ × Num) (x : σ) (ps : List P) : σ := ps.foldl (fun x p => (lp x p).1) x

/-- parameter_set.py:250-284 `ClassWithParameterSet.fit`: `minimize` evaluates the cost at the positions `ps` and returns
`result`, both depending on the start it is given. -/
noncomputable def fitOn (v : Sys.View) (params : List FitParam) (T : List Term) (ord : List Sys.Cb → List Sys.Cb)
    (draws : ℕ → Fin params.length → ℝ) (ps : (Fin params.length → ℝ) → List (Fin params.length → ℝ))
    (result : (Fin params.length → ℝ) → Fin params.length → ℝ) (s : Sys.St) (add : ℕ → ℝ) :
    Except Err (Sys.St × (Fin params.length → ℝ)) := do
  let names := params.map FitParam.name
  let _ ← ranges params
  let f : (Sys.St × (ℕ → ℝ)) → (Fin params.length → ℝ) → (Sys.St × (ℕ → ℝ)) × Num := getLogProb v names T ord
  let x ← findStart f draws (s, add) (fun k => (params.get k).value)
  let y := evals f x.1 (ps x.2)
  pure ((f y (result x.2)).1.1, result x.2)

end Stat
