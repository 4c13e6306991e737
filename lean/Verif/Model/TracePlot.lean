import Verif.Model.Summary

/-! # Model of the plot of a trace

`plotTrace` of statistic.py:162-243: which axes are used and what is drawn in them.  The labels of the axes are left out. -/

open Classical

namespace TracePlot

inductive Err where
  | value
  | type
  | key
  | index
  | attribute
deriving DecidableEq

/-- An axes object, given by the number of rows and columns of the grid and its position in it. -/
abbrev Ax := ℕ × ℕ × ℕ

/-- The values in the dictionary `trace_ax_dict`. -/
inductive Val where
  | num (n : ℕ)
  | one (a : Ax)
  | two (a b : Ax)

/-- What is drawn: the estimated density between two numbers, a vertical and a horizontal line (red or black), every so many of the sampled
values. -/
inductive Art where
  | density (lo hi : ℝ) (data : List ℝ)
  | vline (red : Bool) (x : ℝ)
  | hline (red : Bool) (y : ℝ)
  | series (skip : ℕ) (data : List ℝ)

/-- The current figure: its attribute `trace_ax_dict`, if it has one, and what is drawn in its axes. -/
structure Fig where
  dict : Option (String → Option Val)
  arts : Ax → List Art

/-- A figure without axes. -/
def Fig.empty : Fig := ⟨none, fun _ => []⟩

noncomputable def Fig.draw (f : Fig) (a : Ax) (l : List Art) : Fig := { f with arts := Function.update f.arts a (f.arts a ++ l) }

/-- `plt.subplot(rows, cols, pos)`. -/
def subplot (rows cols pos : ℕ) : Except Err Ax :=
  if 1 ≤ rows ∧ 1 ≤ cols ∧ 1 ≤ pos ∧ pos ≤ rows * cols then .ok (rows, cols, pos) else .error .value

/-- statistic.py:170: the new dictionary. -/
def start (N : ℕ) : String → Option Val := fun k => if k = "N" then some (.num N) else if k = "next_index" then some (.num 0) else none

/-- statistic.py:166-187 `getAxes`.  ("N" and "next_index" are always numbers.) -/
noncomputable def getAxes (fig : Fig) (name : String) (N width : ℕ) : Except Err (Val × Fig) :=
  let d := fig.dict.getD (start N)
  match d name with
  | some v => .ok (v, { fig with dict := some d })
  | none => do
    let rows := match d "N" with | some (.num r) => r | _ => 0
    let index := match d "next_index" with | some (.num r) => r | _ => 0
    let a ← subplot rows width (index * width + 1)
    if width = 1 then
      pure (.one a, { fig with dict := some (Function.update (Function.update d name (some (.one a))) "next_index" (some (.num (index + 1)))) })
    else if index = 0 then
      let b ← subplot rows width (index * width + 2)
      let d := Function.update d "top_left" (some (.one b))
      pure (.two a b, { fig with dict := some (Function.update (Function.update d name (some (.two a b))) "next_index" (some (.num (index + 1)))) })
    else
      match d "top_left" with
      | none => .error .key
      | some (.one _) =>
        let b ← subplot rows width (index * width + 2)
        pure (.two a b, { fig with dict := some (Function.update (Function.update d name (some (.two a b))) "next_index" (some (.num (index + 1)))) })
      | some _ => .error .attribute

/-- A trace and the arguments of `plotTrace`.  `cols` are the columns except "probability", `prob` is that column. -/
structure Call where
  cols : List (String × List ℝ)
  prob : Option (List Num)
  N : Option ℕ := none
  meanMedian : Bool := true
  axes : Option (List Ax) := none
  just : Bool := false
  skip : ℕ := 1

/-- statistic.py:195-196 -/
def Call.rows (c : Call) : ℕ := c.N.getD c.cols.length

/-- statistic.py:189-192: the label of the most probable row. -/
noncomputable def mostProbable (c : Call) : Except Err ℕ :=
  match c.prob with
  | none => .ok 0
  | some p =>
    match Stat.idxmax (p.zipIdx.map fun x => (x.2, x.1)) with
    | .ok b => .ok b.1
    | .error _ => .error .value

/-- `min(data)` and `max(data)`. -/
noncomputable def listMin : List ℝ → ℝ
  | [] => 0
  | [x] => x
  | x :: t => min x (listMin t)

noncomputable def listMax : List ℝ → ℝ
  | [] => 0
  | [x] => x
  | x :: t => max x (listMax t)

/-- `data[::k]` -/
def every (k : ℕ) (l : List ℝ) : List ℝ := (List.range l.length).filterMap fun i => if i % k = 0 then l[i]? else none

/-- statistic.py:206-215: the axes for a column. -/
noncomputable def axesFor (c : Call) (fig : Fig) (name : String) (index : ℕ) : Except Err (Val × Fig) :=
  match c.axes with
  | none => getAxes fig name c.rows (if c.just then 1 else 2)
  | some l =>
    if c.just then
      match l[index * 2]? with
      | some a => .ok (.one a, fig)
      | none => .error .index
    else
      match l[index * 2]?, l[index * 2 + 1]? with
      | some a, some b => .ok (.two a b, fig)
      | _, _ => .error .value

/-- statistic.py:213, 217: the axes as they are used; a number or a single axes object cannot be unpacked, and a number or a pair cannot be
made the current axes. -/
def usable (just : Bool) : Val → Except Err (Ax × Option Ax)
  | .one a => if just then .ok (a, none) else .error .type
  | .two a b => if just then .error .attribute else .ok (a, some b)
  | .num _ => if just then .error .attribute else .error .type

/-- statistic.py:201-241: one column.  `kde` says for which data `gaussian_kde` works; its exceptions are caught (220-226). -/
noncomputable def column (kde : List ℝ → Bool) (c : Call) (best : ℕ) (fig : Fig) (x : (String × List ℝ) × ℕ) : Except Err Fig :=
  let name := x.1.1
  let data := x.1.2
  if c.rows ≤ x.2 then .ok fig
  else do
    let r ← axesFor c fig name x.2
    let ab ← usable c.just r.1
    if data = [] then .error .value
    else
      let f1 := r.2.draw ab.1 (if c.skip ≠ 0 ∧ kde (every c.skip data) = true then [.density (listMin data) (listMax data) (every c.skip data)] else [])
      match data[best]? with
      | none => if c.meanMedian then .error .key else
          match ab.2 with
          | none => .ok f1
          | some b => if c.skip = 0 then .error .value else .ok (f1.draw b [.series c.skip (every c.skip data)])
      | some v =>
        let f2 := f1.draw ab.1 (if c.meanMedian then [.vline true v, .vline false (Stat.mean data)] else [])
        match ab.2 with
        | none => .ok f2
        | some b =>
          if c.skip = 0 then .error .value
          else .ok (f2.draw b (.series c.skip (every c.skip data) :: if c.meanMedian then [.hline true v, .hline false (Stat.mean data)] else []))

/-- statistic.py:162-243 `plotTrace`. -/
noncomputable def plotTrace (kde : List ℝ → Bool) (fig : Fig) (c : Call) : Except Err Fig := do
  let best ← mostProbable c
  c.cols.zipIdx.foldlM (column kde c best) fig

end TracePlot
