import Verif.Model.Statistic

/-! # Model of the Metropolis sampler with a prior trace (statistic.py:68-160, argument `prior_trace`)

The arguments, the proposal, the acceptance and the tuning are those of `Model/Statistic.lean`.  New are the values taken from
the rows of another trace. -/

open Classical

namespace Prior

/-- What `metropolis` raises: `ValueError` (of `np.random.randint(0)` and of `truncnorm`) and `KeyError` (of `loc`). -/
inductive Err | value | key
deriving DecidableEq

/-- A pandas table: the labels of its rows (the index, all different) and the rows, in order.  A trace of `metropolis` has the
labels 0, 1, 2, ... and the probability in the last column. -/
abbrev Table := List (ℕ × List ℝ)

/-- statistic.py:91, 102 `list(prior_trace.loc[np.random.randint(len(prior_trace))])[:-1]`, and 93, 104 `[]`.  `d` is the number drawn by
`randint`, which is one of 0, ..., len-1 (a hypothesis of the theorems). -/
def draw (prior : Option Table) (d : ℕ) : Except Err (List ℝ) := match prior with
  | none => .ok []
  | some [] => .error .value
  | some t => match t.lookup d with
    | some r => .ok r.dropLast
    | none => .error .key

/-- The local variables of the loop (statistic.py:74-99).  A row of the trace (line 127) is its values and its log probability. -/
structure Chain (n : ℕ) where
  pos : Fin n → ℝ
  prob : Num
  accepted : ℕ := 0
  rejected : ℕ := 0
  factor : ℝ := 1
  trace : List (List ℝ × Num) := []

/-- One iteration (statistic.py:100-156), as `Stat.iter`.  `d` is the number drawn by `randint`. -/
noncomputable def iter {σ : Type} {n : ℕ} (lp : σ → List ℝ → σ × Num) (A : Stat.Args n) (prior : Option Table) (d : ℕ) (i : ℕ)
    (x : σ × Chain n) : Except Err (σ × Chain n) := do
  let s := x.1
  let c := x.2
  let p ← draw prior d
  if ∃ k, ¬ Stat.truncLo A c.pos k < Stat.truncHi A c.pos k then .error .value
  else
    let next := Stat.propose A i c.factor c.pos
    let r := lp s (List.ofFn next ++ p)
    let c := if Stat.Accept c.prob r.2 (A.u i) then { c with pos := next, prob := r.2, accepted := c.accepted + 1 }
      else { c with rejected := c.rejected + 1 }
    let c :=
      if (i : ℤ) > Stat.effBurn A.iterations A.burn then { c with trace := c.trace ++ [(List.ofFn c.pos ++ p, c.prob)] }
      else if i > 100 ∧ i % 100 = 0 then
        { c with factor := Stat.adapt (c.accepted / (c.accepted + c.rejected)) c.factor, accepted := 0, rejected := 0 }
      else c
    pure (r.1, c)

/-- The first `i` iterations; `d i` is drawn in iteration `i`. -/
noncomputable def loop {σ : Type} {n : ℕ} (lp : σ → List ℝ → σ × Num) (A : Stat.Args n) (prior : Option Table) (d : ℕ → ℕ)
    (x : σ × Chain n) : ℕ → Except Err (σ × Chain n)
  | 0 => .ok x
  | i + 1 => do iter lp A prior (d i) i (← loop lp A prior d x i)

/-- statistic.py:68-160 `metropolis`; `d0` is the number drawn before the loop. -/
noncomputable def metropolis {σ : Type} {n : ℕ} (lp : σ → List ℝ → σ × Num) (A : Stat.Args n) (prior : Option Table) (d0 : ℕ) (d : ℕ → ℕ)
    (s : σ) (start : Fin n → ℝ) : Except Err (σ × List (List ℝ × Num)) := do
  let p ← draw prior d0
  let r := lp s (List.ofFn start ++ p)
  let x ← loop lp A prior d (r.1, { pos := start, prob := r.2 }) (Stat.pyint A.iterations).toNat
  pure (x.1, x.2.trace)

end Prior
