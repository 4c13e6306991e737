import Verif.Vec
import Mathlib.Analysis.SpecialFunctions.Trigonometric.Inverse

/-! # Specification of the angle an image covers -/

namespace Geo

/-- The angle between two directions in radians. -/
noncomputable def angle (u v : V3 ℝ) : ℝ := Real.arccos (u.dot v / (u.norm * v.norm))

/-- The angle in degrees swept from the direction `u` over `a` to `v`. -/
noncomputable def sweep (u a v : V3 ℝ) : ℝ := (angle u a + angle a v) * (180 / Real.pi)

end Geo
