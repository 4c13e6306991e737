import Mathlib.Data.Real.Basic
import Verif.Vec
import Verif.Model.Camera

/-! # Model of `cameratransform/scene.py` -/

namespace Scene

/-- A row of an object; `none` stands for the row of nans that separates two lines. -/
abbrev Row := Option (V3 ℝ)

/-- scene.py:24-31: the objects and the camera of a scene. -/
structure State where
  objects : List (List Row) := []
  camera : Option Camera.Cam := none

/-- scene.py:33-34 `add`. -/
def add (s : State) (object : List Row) : State := { s with objects := s.objects ++ [object] }

/-- scene.py:30-31 `setCamera`. -/
def setCamera (s : State) (c : Camera.Cam) : State := { s with camera := some c }

/-- scene.py:101-127: the points of `addCube`. -/
noncomputable def cube (pos : V3 ℝ) (width : ℝ) : List Row :=
  let x := pos.x
  let y := pos.y
  let z := pos.z
  let r := width / 2
  [some ⟨x + r, y + r, z - r⟩,
   some ⟨x + r, y - r, z - r⟩,
   some ⟨x - r, y - r, z - r⟩,
   some ⟨x - r, y + r, z - r⟩,
   some ⟨x + r, y + r, z - r⟩,
   none,
   some ⟨x + r, y + r, z - r⟩,
   some ⟨x + r, y + r, z + r⟩,
   none,
   some ⟨x + r, y - r, z - r⟩,
   some ⟨x + r, y - r, z + r⟩,
   none,
   some ⟨x - r, y - r, z - r⟩,
   some ⟨x - r, y - r, z + r⟩,
   none,
   some ⟨x - r, y + r, z - r⟩,
   some ⟨x - r, y + r, z + r⟩,
   none,
   some ⟨x + r, y + r, z + r⟩,
   some ⟨x + r, y - r, z + r⟩,
   some ⟨x - r, y - r, z + r⟩,
   some ⟨x - r, y + r, z + r⟩,
   some ⟨x + r, y + r, z + r⟩,
   none]

/-- scene.py:100-130 `addCube`: the scene afterwards and the returned array. -/
noncomputable def addCube (s : State) (pos : V3 ℝ) (width : ℝ) : State × List Row :=
  (add s (cube pos width), cube pos width)

/-- scene.py:133-141: the points of `addRect`. -/
noncomputable def rect (pos : V3 ℝ) (width : ℝ) : List Row :=
  let x := pos.x
  let y := pos.y
  let z := pos.z
  let r := width / 2
  [some ⟨x + r, y, z - r⟩,
   some ⟨x + r, y, z + r⟩,
   some ⟨x - r, y, z + r⟩,
   some ⟨x - r, y, z - r⟩,
   some ⟨x + r, y, z - r⟩,
   none]

/-- scene.py:132-144 `addRect`. -/
noncomputable def addRect (s : State) (pos : V3 ℝ) (width : ℝ) : State × List Row :=
  (add s (rect pos width), rect pos width)

/-- python's `min` of a list: the first smallest entry; ValueError for the empty list. -/
noncomputable def pyMin : List ℝ → Except Camera.PyErr ℝ
  | [] => .error .valueError
  | x :: xs => .ok (xs.foldl (fun m y => if y < m then y else m) x)

/-- python's `max` of a list. -/
noncomputable def pyMax : List ℝ → Except Camera.PyErr ℝ
  | [] => .error .valueError
  | x :: xs => .ok (xs.foldl (fun m y => if m < y then y else m) x)

/-- scene.py:147-159: the points of `addGrid`. -/
noncomputable def grid (xs ys : List ℝ) : Except Camera.PyErr (List Row) := do
  let minX ← pyMin xs
  let maxX ← pyMax xs
  let points := ys.flatMap fun y => [some ⟨minX, y, 0⟩, some ⟨maxX, y, 0⟩, none]
  let minY ← pyMin ys
  let maxY ← pyMax ys
  let points := points ++ xs.flatMap fun x => [some ⟨x, minY, 0⟩, some ⟨x, maxY, 0⟩, none]
  return points

/-- scene.py:146-162 `addGrid`.  The exception is raised before the scene is changed. -/
noncomputable def addGrid (s : State) (xs ys : List ℝ) : Except Camera.PyErr (State × List Row) := do
  let p ← grid xs ys
  return (add s p, p)

end Scene
