import Verif.Vec
import Verif.Model.Projection

/-! # Specifications for the geometric properties

Small definitions over the reals, independent of the functions of the model. -/

namespace Projection

/-- The pixel is inside the range in which the ray determines the pixel. -/
def InRange (k : Kind) (I : Intr) (p : V2 ℝ) : Prop :=
  match k with
  | .rectilinear => True
  | .cylindrical => |(p.x - I.cx) / I.fx| < Real.pi
  | .equirectangular => |(p.x - I.cx) / I.fx| < Real.pi ∧ |(p.y - I.cy) / I.fy| < Real.pi / 2

/-- The number below which a depth counts as zero (projection.py:400). -/
noncomputable def minDepth : ℝ := 1 / 10 ^ 10

end Projection

namespace Geo

/-- `P` lies on the half line from `o` in direction `d`, at parameter `t`. -/
def AtRay (o d : V3 ℝ) (t : ℝ) (P : V3 ℝ) : Prop :=
  P.x = o.x + t * d.x ∧ P.y = o.y + t * d.y ∧ P.z = o.z + t * d.z

/-- `P` lies on the half line from `o` in direction `d`. -/
def OnRay (o d P : V3 ℝ) : Prop := ∃ t, 0 ≤ t ∧ AtRay o d t P

/-- `P` lies on the line through `o` in direction `d`. -/
def OnLine (o d P : V3 ℝ) : Prop := ∃ t, AtRay o d t P

/-- `a` is a positive multiple of `b`. -/
def PosMul (a b : V3 ℝ) : Prop := ∃ u, 0 < u ∧ a.x = u * b.x ∧ a.y = u * b.y ∧ a.z = u * b.z

/-- The signed volume spanned by three vectors. -/
def triple (a b c : V3 ℝ) : ℝ :=
  a.x * (b.y * c.z - b.z * c.y) - a.y * (b.x * c.z - b.z * c.x) + a.z * (b.x * c.y - b.y * c.x)

end Geo

namespace Geo

/-- An orientation preserving rigid motion: keeps distances and signed volumes. -/
structure RigidMotion (f : V3 ℝ → V3 ℝ) : Prop where
  dist : ∀ P Q, V3.dist (f P) (f Q) = V3.dist P Q
  volume : ∀ O A B C, triple (f A - f O) (f B - f O) (f C - f O) = triple (A - O) (B - O) (C - O)

/-- Rotation by `d` radians clockwise around the vertical axis through the origin (seen from above, x to
the right and y up). -/
noncomputable def clockwise (d : ℝ) (P : V3 ℝ) : V3 ℝ :=
  ⟨Real.cos d * P.x + Real.sin d * P.y, -Real.sin d * P.x + Real.cos d * P.y, P.z⟩

end Geo
