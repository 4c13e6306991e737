import Verif.Spec.Scene

/-! # Specification of objects that stand on the ground and are apart from each other -/

namespace Geo

/-- The object is above the ground and touches it. -/
def Stands (o : List (Option (V3 ℝ))) : Prop := (∀ p, some p ∈ o → 0 ≤ p.z) ∧ ∃ p, some p ∈ o ∧ p.z = 0

/-- Two objects have at least the distance `d` along one of the axes of the ground. -/
def Apart (d : ℝ) (a b : List (Option (V3 ℝ))) : Prop :=
  (∀ p q, some p ∈ a → some q ∈ b → d ≤ |p.x - q.x|) ∨ ∀ p q, some p ∈ a → some q ∈ b → d ≤ |p.y - q.y|

end Geo
