import Verif.Vec

/-! # Specification of line drawings: what matplotlib draws for an object -/

namespace Geo

/-- The line segments drawn for a list of rows: between neighbouring rows that are both not nan. -/
def drawn : List (Option (V3 ℝ)) → List (V3 ℝ × V3 ℝ)
  | some p :: some q :: r => (p, q) :: drawn (some q :: r)
  | _ :: r => drawn r
  | [] => []

/-- A corner of the axis-parallel cube. -/
def CubeCorner (pos : V3 ℝ) (w : ℝ) (p : V3 ℝ) : Prop :=
  |p.x - pos.x| = w / 2 ∧ |p.y - pos.y| = w / 2 ∧ |p.z - pos.z| = w / 2

/-- The two points differ in exactly one coordinate. -/
def AlongAxis (p q : V3 ℝ) : Prop :=
  (p.x ≠ q.x ∧ p.y = q.y ∧ p.z = q.z) ∨ (p.x = q.x ∧ p.y ≠ q.y ∧ p.z = q.z) ∨
  (p.x = q.x ∧ p.y = q.y ∧ p.z ≠ q.z)

/-- `m` is the smallest value of the list. -/
def IsMin (l : List ℝ) (m : ℝ) : Prop := m ∈ l ∧ ∀ x ∈ l, m ≤ x

/-- `m` is the largest value of the list. -/
def IsMax (l : List ℝ) (m : ℝ) : Prop := m ∈ l ∧ ∀ x ∈ l, x ≤ m

end Geo
