import Verif.Model.Scene

/-! # The scenes of the demonstrator (gui_tools/demonstrator/demo_includes.py:30-47) -/

namespace Scene

/-- demo_includes.py:35 `np.arange(a, a + n, 1)` of integers. -/
noncomputable def arange (a : ℤ) (n : ℕ) : List ℝ := (List.range n).map fun k : ℕ => ((a + (k : ℤ) : ℤ) : ℝ)

/-- demo_includes.py:32-38 `Scene9Cubes.__init__`; coordinates are exact numbers. -/
noncomputable def nineCubes (c : Camera.Cam) : Except Camera.PyErr State := do
  let s ← addGrid (setCamera {} c) (arange (-10) 20) (arange (-10) 20)
  return ([-1, 0, 1] : List ℤ).foldl (fun s i => ([-1, 0, 1] : List ℤ).foldl (fun s j => (addCube s (⟨(i * 2 : ℤ), (j * 2 : ℤ), 0⟩ + ⟨0, 0, 1 / 2⟩) 1).1) s) s.1

/-- demo_includes.py:43-47 `SceneObjectsOnPlane`, where the random numbers of the cubes are `draws` (100 in the code, here any number); coordinates are
exact numbers. -/
noncomputable def onPlane (c : Camera.Cam) (draws : List (ℝ × ℤ)) : State :=
  draws.foldl (fun s d => (addCube s (⟨d.1, (d.2 : ℤ), 0⟩ + ⟨0, 0, 1 / 2⟩) 1).1) (setCamera {} c)

end Scene
