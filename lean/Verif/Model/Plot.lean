import Verif.Vec

/-! # Model of the lines drawn by `plotEpilines`

The lines come from OpenCV and are given by any three numbers. -/

open Classical

namespace Plot

/-- What can go wrong while drawing. -/
inductive Err where
  | attributeError
deriving DecidableEq

/-- camera.py:338-354: the points collected by `drawLine`.  The coefficients are numpy scalars: a division by zero
gives inf or nan. -/
noncomputable def edgePoints (a b c x_min x_max y_min y_max : Num) : List (V2 Num) :=
  let y_x_min := -(a * x_min + c) / b
  let y_x_max := -(a * x_max + c) / b
  let x_y_min := -(b * y_min + c) / a
  let x_y_max := -(b * y_max + c) / a
  (if y_min < y_x_min ∧ y_x_min < y_max then [⟨x_min, y_x_min⟩] else []) ++
  (if y_min < y_x_max ∧ y_x_max < y_max then [⟨x_max, y_x_max⟩] else []) ++
  (if x_min < x_y_min ∧ x_y_min < x_max then [⟨x_y_min, y_min⟩] else []) ++
  (if x_min < x_y_max ∧ x_y_max < x_max then [⟨x_y_max, y_max⟩] else [])

/-- camera.py:337-360 `drawLine`: the corners of the drawn line, None without points. -/
noncomputable def drawLine (a b c x_min x_max y_min y_max : Num) : Option (List (V2 Num)) :=
  if (edgePoints a b c x_min x_max y_min y_max).length = 0 then none else some (edgePoints a b c x_min x_max y_min y_max)

/-- camera.py:366-368: the loop of `drawEpilines`: the drawn lines; `None.get_color()` raises. -/
noncomputable def drawEpilines (width height : Num) : List (Num × Num × Num) → Except Err (List (List (V2 Num)))
  | [] => .ok []
  | (a, b, c) :: t =>
    match drawLine a b c (.fin 0) width (.fin 0) height with
    | none => .error .attributeError
    | some l => do
      let r ← drawEpilines width height t
      return l :: r

end Plot
