import Verif.Model.Statistic
import Verif.Spec.System

/-! # Specification of sampling and fitting -/

open Classical

namespace Stat

/-- Nothing random but the promise of the generators: `truncnorm(a, b)` lies between its bounds and `rand()` is not
negative. -/
def Fair {n : ℕ} (tn : ℕ → Fin n → Num → Num → ℝ) (u : ℕ → ℝ) : Prop :=
  (∀ i k (a b : Num), a < b → a ≤ Num.fin (tn i k a b) ∧ Num.fin (tn i k a b) ≤ b) ∧ ∀ i, 0 ≤ u i

/-- A point inside the bounds; a missing bound does not restrict. -/
def InBounds {n : ℕ} (lower upper : Fin n → Option ℝ) (pos : Fin n → ℝ) : Prop :=
  ∀ k, (∀ l, lower k = some l → l ≤ pos k) ∧ ∀ h, upper k = some h → pos k ≤ h

/-- The number of skipped iterations: a fraction of the iterations, or an absolute number. -/
noncomputable def skipped (iterations burn : ℝ) : ℤ := if burn < 1 then ⌊iterations * burn⌋ else ⌊burn⌋

/-- The total of log probabilities: their sum if all are finite; otherwise the infinite value among them, and
impossible if it is undefined. -/
def IsTotal (xs : List Num) (r : Num) : Prop :=
  (∀ rs : List ℝ, List.Forall₂ Num.Is xs rs → r.Is rs.sum) ∧
  (.nan ∈ xs ∨ .pinf ∈ xs ∧ .ninf ∈ xs → r = .ninf) ∧
  (.nan ∉ xs → .pinf ∈ xs → .ninf ∉ xs → r = .pinf) ∧
  (.nan ∉ xs → .ninf ∈ xs → .pinf ∉ xs → r = .ninf)

/-- The terms in effect after some calls: those added, not only for plotting, after the last `clear`. -/
def active {T : Type} (ops : List (TermOp T)) : List T :=
  ((ops.reverse.takeWhile fun o => match o with
    | .clear => false
    | _ => true).reverse.filterMap fun o => match o with
    | .add t false => some t
    | _ => none)

/-- The value a parameter gets from a list of names and values: the last one given for it; the two focal lengths follow
`focallength_px` if that is given. -/
noncomputable def newVal (d : Sys.Dict) (vals : List (String × ℝ)) : Sys.Pid → Option ℝ
  | .p p .fx => (Sys.lastOf d vals (.p p .f)).or (Sys.lastOf d vals (.p p .fx))
  | .p p .fy => (Sys.lastOf d vals (.p p .f)).or (Sys.lastOf d vals (.p p .fy))
  | q => Sys.lastOf d vals q

/-- What is read after the names got the values, given what was read before; headings are kept modulo 360. -/
noncomputable def readAfter (rd : Sys.Pid → ℝ) (d : Sys.Dict) (vals : List (String × ℝ)) (q : Sys.Pid) : ℝ :=
  match newVal d vals q with
  | some x => Sys.norm360 q x
  | none => rd q

/-- One of the names is the parameter, or the parameter is a focal length and `focallength_px` of the same projection is
one of the names. -/
def Named (d : Sys.Dict) (names : List String) (q : Sys.Pid) : Prop :=
  (∃ n ∈ names, d.lookup n = some q) ∨
  ∃ p, (q = .p p .fx ∨ q = .p p .fy) ∧ ∃ n ∈ names, d.lookup n = some (.p p .f)

/-- The values of the additional parameters at a position: the components after the first `k`. -/
noncomputable def rest {n : ℕ} (k : ℕ) (pos : Fin n → ℝ) (old : ℕ → ℝ) (j : ℕ) : ℝ :=
  if h : k + j < n then pos ⟨k + j, h⟩ else old j

/-- The log probability of a position: the total of the terms when the names have the first components and the additional
parameters the rest. -/
def LogProbAt {n : ℕ} (rd : Sys.Pid → ℝ) (d : Sys.Dict) (names : List String) (T : List Term) (old : ℕ → ℝ) (pos : Fin n → ℝ) (r : Num) : Prop :=
  IsTotal (T.map fun t => t (readAfter rd d (names.zip (List.ofFn pos))) (rest names.length pos old)) r

end Stat
