import Verif.Spec.Stereo
import Verif.Model.Stereo

/-! # Specification of epipolar lines -/

open Classical

namespace Geo

/-- The point of the line through `A` with direction `V` at the parameter `l`. -/
def at2 (A V : V2 ℝ) (l : ℝ) : V2 ℝ := ⟨A.x + l * V.x, A.y + l * V.y⟩

/-- The distance of two points of the plane. -/
noncomputable def dist2 (p q : V2 ℝ) : ℝ := Real.sqrt ((p.x - q.x) ^ 2 + (p.y - q.y) ^ 2)

/-- `D` is the smallest distance of `q` to a point of the line. -/
def IsDistLine2 (A V q : V2 ℝ) (D : ℝ) : Prop := (∃ l, dist2 (at2 A V l) q = D) ∧ ∀ l, D ≤ dist2 (at2 A V l) q

/-- `F` is the point of the line closest to `q`. -/
def IsFoot (A V q F : V2 ℝ) : Prop := (∃ l, F = at2 A V l) ∧ ∀ l, dist2 F q ≤ dist2 (at2 A V l) q

end Geo

namespace Camera

/-- The line through `A` with direction `V` is the epipolar line of the pixel `q` of the first camera in the image of the
second one: whatever point is shown at `q` by the first camera is shown on the line by the second one. -/
def IsEpipolarLine (c1 c2 : Cam) (q A V : V2 ℝ) : Prop :=
  V ≠ ⟨0, 0⟩ ∧ ∀ P : V3 ℝ, Deep c1 P → Deep c2 P → (imageFromSpace c1 P.num false).Is q →
    ∃ l, (imageFromSpace c2 P.num false).Is (Geo.at2 A V l)

/-- The viewing ray of the pixel `q` of the first camera does not pass through the second camera, and its points at depth 1 and 2
do not lie in the plane of the second camera. -/
def General (c1 c2 : Cam) (q : V2 ℝ) : Prop :=
  ∃ d : V3 ℝ, (getRay c1 q.num).2.Is d ∧ V3.cross d (c1.orient.pos - c2.orient.pos) ≠ ⟨0, 0, 0⟩ ∧
    Deep c2 (c1.orient.pos + d) ∧ Deep c2 (c1.orient.pos + d.mulS 2)

/-- `e` is the distance of `q2` from the epipolar line of `q1`. -/
def IsEpipolarError (c1 c2 : Cam) (q1 q2 : V2 ℝ) (e : Num) : Prop :=
  (∃ A V, IsEpipolarLine c1 c2 q1 A V) ∧ ∃ D, Num.Is e D ∧ ∀ A V, IsEpipolarLine c1 c2 q1 A V → Geo.IsDistLine2 A V q2 D

/-- The viewing ray of the pixel `q` of the first camera does not pass through the second camera, and its points at the distances
-10000 and -9900 from the first camera do not lie in the planes of the cameras. -/
def GeneralFar (c1 c2 : Cam) (q : V2 ℝ) : Prop :=
  ∃ d : V3 ℝ, (getRay c1 q.num true).2.Is d ∧ V3.cross d (c1.orient.pos - c2.orient.pos) ≠ ⟨0, 0, 0⟩ ∧
    ∀ t, t = -10000 ∨ t = -9900 → Deep c1 (c1.orient.pos + d.mulS t) ∧ Deep c2 (c1.orient.pos + d.mulS t)

/-- The drawing for the pixel `p` and the pixel `q` of the other camera `c'`: a curve of 200 points, which lie on the epipolar line
of `q` unless they belong to points in the plane of the camera; the point of this line closest to `p`; and their distance. -/
def IsEpipolarDrawing (c c' : Cam) (p q : V2 ℝ) (g : Stereo.Drawn) : Prop :=
  (∃ A V, IsEpipolarLine c' c q A V) ∧ g.curve.length = 200 ∧ g.point.Is p ∧ ∀ A V, IsEpipolarLine c' c q A V →
    (∀ (d : V3 ℝ) (i : ℕ), (getRay c' q.num true).2.Is d → i < 200 → Deep c (c'.orient.pos + d.mulS (-10000 + 100 * i)) →
      ∃ n l, g.curve[i]? = some n ∧ n.Is (Geo.at2 A V l)) ∧
    ∃ F, g.foot.Is F ∧ Geo.IsFoot A V p F ∧ Num.Is g.distance (Geo.dist2 F p)

end Camera
