import Verif.Model.Ray
import Verif.Spec.Geometry

/-! # Specifications for lines, triangles and meshes (over the reals) -/

namespace Geo

/-- The point at parameter `t` of the line through `o` with direction `d`. -/
def at' (o d : V3 ℝ) (t : ℝ) : V3 ℝ := ⟨o.x + t * d.x, o.y + t * d.y, o.z + t * d.z⟩

/-- `P` lies in the closed triangle `T`. -/
def InTri (T : Ray.Tri ℝ) (P : V3 ℝ) : Prop :=
  ∃ s t : ℝ, 0 ≤ s ∧ 0 ≤ t ∧ s + t ≤ 1 ∧
    P.x = T.a.x + s * (T.b.x - T.a.x) + t * (T.c.x - T.a.x) ∧
    P.y = T.a.y + s * (T.b.y - T.a.y) + t * (T.c.y - T.a.y) ∧
    P.z = T.a.z + s * (T.b.z - T.a.z) + t * (T.c.z - T.a.z)

/-- The ray hits the triangle at parameter `r`. -/
def Hit (o d : V3 ℝ) (T : Ray.Tri ℝ) (r : ℝ) : Prop := 0 ≤ r ∧ InTri T (at' o d r)

/-- The normal vector of the triangle. -/
def normal (T : Ray.Tri ℝ) : V3 ℝ := V3.cross (T.b - T.a) (T.c - T.a)

/-- The corners of the triangle lie on one line. -/
def Degenerate (T : Ray.Tri ℝ) : Prop := normal T = ⟨0, 0, 0⟩

/-- The ray lies in the plane of the triangle. -/
def Coplanar (o d : V3 ℝ) (T : Ray.Tri ℝ) : Prop := (normal T).dot d = 0 ∧ (normal T).dot (T.a - o) = 0

/-- `D` is the distance of the point `p` from the line. -/
def IsDistPointLine (o d p : V3 ℝ) (D : ℝ) : Prop :=
  (∃ t, V3.dist p (at' o d t) = D) ∧ ∀ t, D ≤ V3.dist p (at' o d t)

/-- `D` is the distance of two lines. -/
def IsDistLineLine (o d o' d' : V3 ℝ) (D : ℝ) : Prop :=
  (∃ s t, V3.dist (at' o d s) (at' o' d' t) = D) ∧ ∀ s t, D ≤ V3.dist (at' o d s) (at' o' d' t)

/-- Twice the signed area of the triangle with corners `A`, `B`, `C` in the plane. -/
def area2 (A B C : V2 ℝ) : ℝ := (B.x - A.x) * (C.y - A.y) - (B.y - A.y) * (C.x - A.x)

/-- The shoelace formula for four corners (twice the signed area). -/
def shoelace (A B C D : V2 ℝ) : ℝ :=
  (A.x * B.y - B.x * A.y) + (B.x * C.y - C.x * B.y) + (C.x * D.y - D.x * C.y) + (D.x * A.y - A.x * D.y)

end Geo

namespace Geo

/-- A point of the wall over the segment from `p` to `q`: fraction `l` along the segment, fraction `m` of
the way from `z0` to `z1`. -/
def wallPoint (p q : V2 ℝ) (z0 z1 l m : ℝ) : V3 ℝ :=
  ⟨p.x + l * (q.x - p.x), p.y + l * (q.y - p.y), z0 + m * (z1 - z0)⟩

/-- The segments of a polyline. -/
def segments : List (V2 ℝ) → List (V2 ℝ × V2 ℝ)
  | p :: q :: r => (p, q) :: segments (q :: r)
  | _ => []

/-- Length of a segment. -/
noncomputable def segLength (s : V2 ℝ × V2 ℝ) : ℝ := Real.sqrt ((s.2.x - s.1.x) ^ 2 + (s.2.y - s.1.y) ^ 2)

/-- Area of a triangle in space. -/
noncomputable def triArea (T : Ray.Tri ℝ) : ℝ := (normal T).norm / 2

end Geo
