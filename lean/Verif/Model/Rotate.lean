import Verif.Model.System

/-! # Model of `Camera.rotateSpace` on the cameras of a program -/

open Classical

namespace Sys

/-- camera.py:1505-1520 `rotateSpace`: the heading is read and assigned (which wraps it), then the position is read and the two new
coordinates are assigned.  `none` is the AttributeError of `self.heading_deg` (parameter_set.py:170-174), before anything is changed.  A missing
value counts as 0 (in the states of the model there is none). -/
noncomputable def St.rotateSpace (s : St) (c : ℕ) (delta : ℝ) : Option St :=
  match s.getattr (.cam c) "heading_deg" with
  | none => none
  | some h =>
    let s := s.step (.set (.cam c) "heading_deg" (some (h.getD 0 + delta)) false)
    let d := Spatial.rad delta
    let x := ((s.getattr (.cam c) "pos_x_m").getD none).getD 0
    let y := ((s.getattr (.cam c) "pos_y_m").getD none).getD 0
    some ((s.step (.set (.cam c) "pos_x_m" (some (Real.cos d * x + Real.sin d * y)) false)).step
      (.set (.cam c) "pos_y_m" (some (-Real.sin d * x + Real.cos d * y)) false))

end Sys
