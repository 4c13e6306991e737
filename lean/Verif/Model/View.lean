import Verif.Model.Camera

/-! # Model of the image border, camera cone, horizon and area table of `cameratransform/camera.py` -/

open Classical

namespace View

open Camera

/-- `np.arange(a, b, s)`: `ceil((b - a) / s)` values starting with `a`.  numpy raises for `s = 0`; the
theorems assume `s ≠ 0`. -/
noncomputable def arange (a b s : ℝ) : List ℝ := (List.range ⌈(b - a) / s⌉₊).map fun (i : ℕ) => a + i * s

/-- camera.py:909-919 `getImageBorder`. -/
noncomputable def imageBorder (w h resolution : ℝ) : List (V2 ℝ) :=
  let border := []
  let border := border ++ (arange 0 h resolution).map fun y => ⟨0, y⟩
  let border := border ++ (arange 0 w resolution).map fun x => ⟨x, h⟩
  let border := border ++ (arange h 0 (-resolution)).map fun y => ⟨w, y⟩
  let border := border ++ (arange w 0 (-resolution)).map fun x => ⟨x, 0⟩
  border

/-- An image size as python sees it: `range` accepts an int only. -/
inductive Size where
  | int (n : ℤ)
  | float (r : ℝ)

/-- The numerical value of a size. -/
def Size.val : Size → ℝ
  | .int n => n
  | .float r => r

/-- `range(h)`. -/
def Size.range : Size → Except PyErr (List ℕ)
  | .int n => .ok (List.range n.toNat)
  | .float _ => .error .typeError

/-- camera.py:933-946: border and corner indices of the cone on the ground. -/
noncomputable def groundBorder (w h : Size) : Except PyErr (List (V2 ℝ) × List ℕ) := do
  let border : List (V2 ℝ) := []
  let corners := [0]
  let border := border ++ (← h.range).map fun (y : ℕ) => ⟨0, y⟩
  let corners := corners ++ [border.length]
  let border := border ++ (← w.range).map fun (x : ℕ) => ⟨x, h.val⟩
  let corners := corners ++ [border.length]
  let border := border ++ (arange h.val 0 (-1)).map fun y => ⟨w.val, y⟩
  let corners := corners ++ [border.length]
  let border := border ++ (arange w.val 0 (-1)).map fun x => ⟨x, 0⟩
  let corners := corners ++ [border.length]
  return (border, corners)

/-- camera.py:949-960: border and corner indices of the cone at a distance. -/
def distanceBorder (w h : Size) : List (V2 ℝ) × List ℕ :=
  let border : List (V2 ℝ) := []
  let corners := [0]
  let border := border ++ [⟨0, h.val⟩]
  let corners := corners ++ [border.length]
  let border := border ++ [⟨w.val, h.val⟩]
  let corners := corners ++ [border.length]
  let border := border ++ [⟨w.val, 0⟩]
  let corners := corners ++ [border.length]
  let border := border ++ [⟨0, 0⟩]
  let corners := corners ++ [border.length]
  let border := border ++ [⟨0, h.val⟩]
  let corners := corners ++ [border.length]
  (border, corners)

/-- `spaceFromImage` for a list of points (camera.py:1121-1157).  The empty list has the shape (0), so that
the format check of line 1121 fails. -/
noncomputable def spaceFromImages (c : Cam) (ps : List (V2 ℝ)) (k : Constraint) : Except PyErr (List (V3 Num)) :=
  if ps = [] then .error .assertionError else ps.mapM fun p => spaceFromImage c p.num k

/-- camera.py:964-967: the lines from the camera to the corners.  `border[corner_index]` looks up the list
that is being extended. -/
def coneLines (origin : V3 Num) : List ℕ → List (V3 Num) → Except PyErr (List (V3 Num))
  | [], border => .ok border
  | i :: rest, border =>
    let border := border ++ [V3.nan]
    let border := border ++ [origin]
    match border[i]? with
    | none => .error .indexError
    | some b => coneLines origin rest (border ++ [b])

/-- camera.py:931-968 `getCameraCone`.  The sizes are arguments because their python type matters. -/
noncomputable def cameraCone (c : Cam) (w h : Size) (ground : Bool) (D : Num := .fin 1) :
    Except PyErr (List (V3 Num)) := do
  let (border, corners) ← if ground then groundBorder w h else .ok (distanceBorder w h)
  let border ← if ground then spaceFromImages c border { Z := some (.fin 0) }
    else spaceFromImages c border { D := some D }
  let origin := Spatial.spaceFromCamera c.orient.mat ⟨.fin 0, .fin 0, .fin 0⟩
  coneLines origin corners border

/-- camera.py:442 `R_earth`. -/
def rEarth : ℝ := 6371000

/-- camera.py:846 `distanceToHorizon`. -/
noncomputable def distanceToHorizon (elevation : ℝ) : Num :=
  Num.sqrt (.fin 2 * Num.npow (.fin rEarth) 2 * (.fin 1 - .fin rEarth / (.fin rEarth + .fin elevation)))

/-- `np.argmin` of a list without nan: the index of the first smallest entry. -/
noncomputable def argmin : List Num → ℕ
  | [] => 0
  | x :: xs => if ∀ y ∈ xs, x ≤ y then 0 else argmin xs + 1

/-- `np.nanargmin`: nan is replaced by infinity; a list with nothing but nan, and the empty list, raise
ValueError (`none`). -/
noncomputable def nanargmin (l : List Num) : Option ℕ :=
  if ∀ x ∈ l, x = .nan then none else some (argmin (l.map Ray.nanToInf))

/-- camera.py:877-887: the row of the horizon for one x (`none` stands for nan). -/
noncomputable def horizonRow (c : Cam) (x : ℝ) : Except PyErr (Option ℕ) := do
  let d := distanceToHorizon c.orient.pos.z
  let p := (List.range ⌈c.intr.h⌉₊).map fun (y : ℕ) => (⟨x, y⟩ : V2 ℝ)
  let q ← p.mapM fun p => spaceFromImage c p.num { D := some d }
  return nanargmin (q.map fun P => Num.abs P.z)

/-- camera.py:863-890 `getImageHorizon` for an array of x positions; `none` stands for the default. -/
noncomputable def imageHorizon (c : Cam) (pointsX : Option (List ℝ)) : Except PyErr (List (ℝ × Option ℕ)) :=
  let xs := pointsX.getD [0, c.intr.w / 2, c.intr.w]
  xs.mapM fun x => do
    let y ← horizonRow c x
    return (x, y)

/-- camera.py:1475-1484 `get_square`. -/
noncomputable def square (p : V2 ℝ) : List (V2 ℝ) :=
  [⟨p.x + -(1 / 2), p.y + -(1 / 2)⟩, ⟨p.x + 1 / 2, p.y + -(1 / 2)⟩, ⟨p.x + 1 / 2, p.y + 1 / 2⟩,
   ⟨p.x + -(1 / 2), p.y + 1 / 2⟩]

/-- camera.py:1497-1498 for one square of four points. -/
noncomputable def squareArea (c : Cam) (s : List (V2 ℝ)) : Except PyErr Num := do
  match ← s.mapM fun p => spaceFromImage c p.num { Z := some (.fin 0) } with
  | [A, B, C, D] => return Ray.areaOfQuadrilateral ⟨A.x, A.y⟩ ⟨B.x, B.y⟩ ⟨C.x, C.y⟩ ⟨D.x, D.y⟩
  | _ => throw .valueError

/-- camera.py:1502 for one entry. -/
noncomputable def undef (v A : Num) : Num := if A = .nan then v else A

/-- camera.py:1492-1498, 1502-1503 `generateLUT(undef_value)`: a slice in the middle of the image.  The
whole pipeline treats every pixel on its own. -/
noncomputable def lutSlice (c : Cam) (v : Num) : Except PyErr (List Num) := do
  let points := (List.range ⌈c.intr.h⌉₊).map fun (y : ℕ) => (⟨c.intr.w / 2, y⟩ : V2 ℝ)
  let A ← points.mapM fun p => squareArea c (square p)
  return A.map (undef v)

/-- `A.reshape(h, w)`: ValueError unless the number of entries fits. -/
def reshape {α : Type} (A : List α) (h w : ℕ) : Except PyErr (List (List α)) :=
  if A.length = h * w then .ok ((List.range h).map fun i => (A.drop (i * w)).take w) else .error .valueError

/-- camera.py:1487-1503 `generateLUT(undef_value, whole_image=True)` for an image of `w` times `h` pixels
(python requires ints for the reshape). -/
noncomputable def lutImage (c : Cam) (w h : ℕ) (v : Num) : Except PyErr (List (List Num)) := do
  let points := (List.range h).flatMap fun (y : ℕ) => (List.range w).map fun (x : ℕ) => (⟨x, y⟩ : V2 ℝ)
  let A ← points.mapM fun p => squareArea c (square p)
  let A ← reshape A h w
  return A.map fun r => r.map (undef v)

end View
