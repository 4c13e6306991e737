import Verif.Spec.System

/-! # The parameters as a table

A reference machine without callbacks, objects or cached matrices: a table of cells, one for each parameter, and two rules. -/

set_option linter.constructorNameAsVariable false

open Classical

namespace Sys

/-- What is known about one parameter: its value, default and mean, the spread, and who set it last. -/
structure Cell where
  val : Option ℝ
  dflt : Option ℝ
  mean : Option ℝ
  std : ℝ
  who : State

/-- What to read: the value, else the default. -/
def Cell.read (c : Cell) : Option ℝ := match c.val with
  | some x => some x
  | none => c.dflt

/-- A new parameter. -/
def Cell.new (v d : Option ℝ) : Cell := ⟨v, d, none, 0, if v = none then .default else .userSet⟩

/-- A heading that reads more than a turn is reduced; it then counts as set by the user, without an uncertainty. -/
noncomputable def Cell.turned (c : Cell) : Cell := match c.read with
  | some x => if Out x then ⟨some (x - 360 * ⌊x / 360⌋), c.dflt, none, c.std, .userSet⟩ else c
  | none => c

/-- One cell for each parameter. -/
abbrev Table := Pid → Cell

/-- First rule: headings are reduced. -/
noncomputable def Table.settle (T : Table) : Table := fun q => match q with
  | .o o .turn => (T (.o o .turn)).turned
  | q => T q

/-- Second rule: where `focallength_px` was written, the two focal lengths get its value. -/
noncomputable def Table.link (T : Table) (P : ℕ → Prop) : Table := fun q => match q with
  | .p p .fx => if P p then { T (.p p .fx) with val := (T (.p p .f)).val } else T (.p p .fx)
  | .p p .fy => if P p then { T (.p p .fy) with val := (T (.p p .f)).val } else T (.p p .fy)
  | q => T q

/-- One cell is written. -/
noncomputable def Table.put (T : Table) (q0 : Pid) (f : Cell → Cell) : Table := fun q => if q = q0 then f (T q) else T q

/-- New cells. -/
noncomputable def Table.create (T : Table) (new : Pid → Option (Option ℝ × Option ℝ)) : Table := fun q => match new q with
  | some x => Cell.new x.1 x.2
  | none => T q

/-- Uncertain parameters get new values. -/
noncomputable def Table.redraw (T : Table) (d : Dict) (w : Pid → Option ℝ) : Table := fun q =>
  if InDict d q ∧ (T q).mean ≠ none then { T q with val := w q } else T q

/-- The table after a call; `dict` gives the dictionaries of names at that time. -/
noncomputable def Table.step (dict : View → Dict) (T : Table) : Op → Table
  | .newOrient o _ args => (T.create fun q => match q with
    | .o o' f => if o' = o then some (args f, some (initialO f)) else none
    | _ => none).settle
  | .newProj p _ args _ => T.create fun q => match q with
    | .p p' .f => if p' = p then some (args .fx, none) else none
    | .p p' f => if p' = p then some (args f, initialP f) else none
    | _ => none
  | .newLens l _ args => T.create fun q => match q with
    | .l l' f => if l' = l then some (args f, some 0) else none
    | _ => none
  | .newCam c _ _ _ => T.create fun q => match q with
    | .c c' _ => if c' = c then some (some 0, some 0) else none
    | _ => none
  | .newGroup .. => T
  | .setTrace .. => T
  | .set v n x _ => match (dict v).lookup n with
    | none => T
    | some q0 => ((T.put q0 fun c => { c with val := x, mean := none, who := .userSet }).link fun p => q0 = .p p .f).settle
  | .setStats v n m σ => match (dict v).lookup n with
    | none => T
    | some q0 => ((T.put q0 fun c => { c with val := some m, mean := some m, std := σ, who := .userSet }).link fun p => q0 = .p p .f).settle
  | .setDefault v n x => match (dict v).lookup n with
    | none => T
    | some q0 => (T.put q0 fun c => { c with dflt := some x }).settle
  | .setFit v vals _ => (Table.link (fun q => match lastOf (dict v) vals q with
      | some x => { T q with val := some x, who := .fit }
      | none => T q) fun p => lastOf (dict v) vals (.p p .f) ≠ none).settle
  | .sample v draw _ => ((T.redraw (dict v) fun q => some (draw q)).link fun p => InDict (dict v) (.p p .f)).settle
  | .toMean v _ => ((T.redraw (dict v) fun q => (T q).mean).link fun p => InDict (dict v) (.p p .f)).settle

/-- A history: the state and the table. -/
inductive RunT : St → Table → Prop
  | start : RunT St.empty fun _ => Cell.new none (some 0)
  | step {s T op} : RunT s T → s.ok op → RunT (s.step op) (T.step s.dict op)

/-- What a parameter object holds. -/
def Param.cell (x : Param) : Cell := ⟨x.value, x.default, x.mean, x.std, x.state⟩

end Sys
