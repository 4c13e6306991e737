import Verif.Model.Terms

/-!
# Model: what `plotFitInformation` draws

The functions that the `add…Information` functions append to `info_plot_functions` (camera.py:560-580, 630-654, 701-715,
762-778, 811-834).  The arrays of N rows are lists; colours, labels and the order of drawing are left out.
-/

open Classical Camera Terms

namespace FitPlot

/-- What one function draws. -/
structure Drawing where
  /-- the markers `_` at the feet or fronts of objects -/
  base : List (V2 Num) := []
  /-- the markers `+` -/
  observed : List (V2 Num)
  /-- the circles -/
  predicted : List (V2 Num)
  /-- the line through all the points, interrupted at nan -/
  connection : List (V2 Num)
  /-- the dashed line -/
  dashed : List (V2 Num) := []

/-- camera.py:572-576 (and 646-650, 709-713, 772-776, 826-830): the corners of the connecting lines. -/
def connect (a b : List (V2 Num)) : List (V2 Num) := (a.zip b).flatMap fun q => [q.1, q.2, V2.nan]

/-- camera.py:565-567: the expected pixel of a head. -/
noncomputable def headPoint (c : Cam) (r : HeightRow) : Except PyErr (V2 Num) := do
  let P ← spaceFromImage c r.feet { Z := some (.fin 0) }
  return imageFromSpace c ⟨P.x, P.y, P.z + .fin r.height⟩

/-- camera.py:560-578 `plotHeightPoints`. -/
noncomputable def heights (c : Cam) (rows : List HeightRow) : Except PyErr Drawing := do
  let projected ← rows.mapM (headPoint c)
  let heads := rows.map HeightRow.head
  return { base := rows.map HeightRow.feet, observed := heads, predicted := projected, connection := connect heads projected }

/-- The argument `length`: one number, or an array. -/
inductive Length where
  | number (l : ℝ)
  | array (l : List ℝ)

/-- `difference * length` for one row of three numbers: numpy puts an array along the last axis. -/
noncomputable def Length.times (d : V3 Num) : Length → Except PyErr (V3 Num)
  | .number l => .ok (d.mulS (.fin l))
  | .array [l] => .ok (d.mulS (.fin l))
  | .array [l, m, n] => .ok ⟨d.x * .fin l, d.y * .fin m, d.z * .fin n⟩
  | .array _ => .error .valueError

/-- camera.py:635-640: the expected pixel of a back. -/
noncomputable def backPoint (c : Cam) (Z : ℝ) (length : Length) (r : V2 Num × V2 Num) : Except PyErr (V2 Num) := do
  let A ← spaceFromImage c r.1 { Z := some (.fin Z) }
  let B ← spaceFromImage c r.2 { Z := some (.fin Z) }
  let difference := (B - A).divS (B - A).normN
  let d ← length.times difference
  return imageFromSpace c (A + d)

/-- camera.py:630-652 `plotHeightPoints` of `addObjectLengthInformation`, for the pixels of front and back. -/
noncomputable def lengths (c : Cam) (rows : List (V2 Num × V2 Num)) (Z : ℝ) (length : Length) : Except PyErr Drawing := do
  let projected ← rows.mapM (backPoint c Z length)
  let fronts := rows.map Prod.fst
  return { base := fronts, observed := rows.map Prod.snd, predicted := projected, connection := connect fronts projected }

/-- camera.py:701-714 `plotLandmarkPoints`. -/
noncomputable def landmarks (c : Cam) (ls : List Landmark) : Drawing :=
  let projected := ls.map fun l => imageFromSpace c l.pos
  let pixels := ls.map Landmark.pixel
  { observed := pixels, predicted := projected, connection := connect pixels projected }

/-- camera.py:762-777 `plotLandmarkPoints` of `addLandmarkInformationGPS`. -/
noncomputable def gpsLandmarks (c : Cam) (gps_lat gps_lon : ℝ) (ls : List GpsLandmark) : Except PyErr Drawing := do
  let ps ← Gps.cameraSpaceFromGPS gps_lat gps_lon (.many (ls.map GpsLandmark.geo))
  return landmarks c ((ls.zip ps).map fun q => ⟨q.1.pixel, q.2, q.1.sigma⟩)

/-- A row of `getImageHorizon` as a point. -/
def horizonPoint (r : ℝ × Option ℕ) : V2 Num := ⟨.fin r.1, match r.2 with
  | some y => .fin y
  | none => .nan⟩

/-- camera.py:811-832 `plotHorizonPoints` for an array of points. -/
noncomputable def horizon (c : Cam) (points : List (V2 ℝ)) : Except PyErr Drawing := do
  let rows ← View.imageHorizon c (some (points.map V2.x))
  let line ← View.imageHorizon c (some ((List.range ⌈c.intr.w⌉₊).map fun (x : ℕ) => (x : ℝ)))
  let seen := points.map V2.num
  return { observed := seen, predicted := rows.map horizonPoint, connection := connect seen (rows.map horizonPoint), dashed := line.map horizonPoint }

/-- Something known about the scene, as given to the `add…Information` functions, as far as it is drawn. -/
inductive Info where
  | heights (rows : List HeightRow)
  | lengths (rows : List (V2 Num × V2 Num)) (Z : ℝ) (length : Length)
  | landmarks (ls : List Landmark)
  | horizon (points : List (V2 ℝ))

/-- The function appended to `info_plot_functions`. -/
noncomputable def Info.draw (c : Cam) : Info → Except PyErr Drawing
  | .heights rows => FitPlot.heights c rows
  | .lengths rows Z l => FitPlot.lengths c rows Z l
  | .landmarks ls => .ok (FitPlot.landmarks c ls)
  | .horizon ps => FitPlot.horizon c ps

/-- parameter_set.py:375-382 `plotFitInformation`: the drawings, and the limits of the two axes (from left to right and from
bottom to top). -/
noncomputable def plotFitInformation (c : Cam) (infos : List Info) : Except PyErr (List Drawing × (ℝ × ℝ) × (ℝ × ℝ)) := do
  let d ← infos.mapM (Info.draw c)
  return (d, (0, c.intr.w), (c.intr.h, 0))

/-- Calls that change the two lists of a camera. -/
inductive Op (I : Type) where
  /-- an `add…Information` function with its argument `only_plot` -/
  | add (i : I) (onlyPlot : Bool)
  /-- `addCustomoLogProbability` (parameter_set.py:228-230) -/
  | custom (i : I)
  /-- `clearLogProbability` (parameter_set.py:232-234) -/
  | clear

/-- `log_prob` and `info_plot_functions` after a call. -/
def Op.run {I : Type} (l : List I × List I) : Op I → List I × List I
  | .add i true => (l.1, l.2 ++ [i])
  | .add i false => (l.1 ++ [i], l.2 ++ [i])
  | .custom i => (l.1 ++ [i], l.2)
  | .clear => ([], l.2)

end FitPlot
