import Verif.Spec.Gps

/-! # The plane around a reference point of the earth -/

namespace Flat

/-- The horizontal distance of two points of space. -/
noncomputable def across (P Q : V3 ℝ) : ℝ := Real.sqrt ((P.x - Q.x) ^ 2 + (P.y - Q.y) ^ 2)

end Flat
