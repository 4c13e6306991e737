import Verif.Model.Statistic

/-! # Sampling with fit parameters that have no value

`value` is an optional argument of `FitParameter` (statistic.py:271, 284): without it `param.value[()]` is None (parameter_set.py:293). -/

open Classical

namespace Stat

/-- statistic.py:95-159 with a start that may contain None.  The probability of the start is computed first (97; a parameter whose value is
set to None reads its default, parameter_set.py:107-109); in the first iteration `ranges[:,0]-last_pos` (108) raises a TypeError if one of
the components is None. -/
noncomputable def metropolisOpt {σ : Type} {n : ℕ} (lp : σ → (Fin n → Option ℝ) → σ × Num) (A : Args n) (s : σ) (start : Fin n → Option ℝ) :
    Except Err (σ × List ((Fin n → ℝ) × Num)) :=
  if ∃ k, start k = none then
    if (pyint A.iterations).toNat = 0 then .ok ((lp s start).1, []) else .error .typeError
  else metropolis (fun s pos => lp s fun k => some (pos k)) A s fun k => (start k).getD 0

/-- parameter_set.py:299-316: the start search and the sampling.  The draws are numbers. -/
noncomputable def sampleOpt {σ : Type} {n : ℕ} (lp : σ → (Fin n → Option ℝ) → σ × Num) (A : Args n) (draws : ℕ → Fin n → ℝ) (s : σ)
    (start : Fin n → Option ℝ) : Except Err (σ × List ((Fin n → ℝ) × Num)) := do
  let x ← findStart lp (fun j k => some (draws j k)) s start
  metropolisOpt lp A x.1 x.2

end Stat
