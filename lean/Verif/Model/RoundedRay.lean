import Verif.Model.Rounded

/-! # The intersection of two lines with rounding errors

The relations say which results `ray.intersectionOfTwoLines` can have if every operation has a relative error of at most `u` (see `Verif.Model.Rounded`). -/

open Classical

namespace Rounded

/-- A division, or the multiplication with the reciprocal (LAPACK multiplies the entries below a pivot with the reciprocal of the pivot). -/
def Quot (u a b q : ℝ) : Prop := Rd u (a / b) q ∨ ∃ r, Rd u (1 / b) r ∧ Rd u (a * r) q

/-- Gaussian elimination for `a x + b y = e`, `c x + d y = f` with the pivot `a`; `none` is `LinAlgError` (a pivot that is exactly zero). -/
def Eliminate (u a b c d e f : ℝ) (out : Option (ℝ × ℝ)) : Prop :=
  if a = 0 then out = none else
    ∃ l m p n r, Quot u c a l ∧ Rd u (l * b) m ∧ Rd u (d - m) p ∧ Rd u (l * e) n ∧ Rd u (f - n) r ∧
      if p = 0 then out = none else
        ∃ y k q x, Quot u r p y ∧ Rd u (b * y) k ∧ Rd u (e - k) q ∧ Quot u q a x ∧ out = some (x, y)

/-- ray.py:136-137, 152-153 `np.linalg.solve` of a 2x2 system: the larger entry of the first column is the pivot. -/
def Solve2 (u a b c d e f : ℝ) (out : Option (ℝ × ℝ)) : Prop :=
  if |c| ≤ |a| then Eliminate u a b c d e f out else Eliminate u c d a b f e out

/-- ray.py:138, 157: one coordinate of the mean of the two closest points. -/
def Middle (u p v q w s t out : ℝ) : Prop :=
  ∃ a b c d e, Rd u (s * v) a ∧ Rd u (p + a) b ∧ Rd u (t * w) c ∧ Rd u (q + c) d ∧ Rd u (b + d) e ∧ Rd u (e / 2) out

/-- ray.py:128-142, 144-157 `intersectionOfTwoLines`, for one pair of lines. The four products of the directions may err differently. -/
def Intersection (u : ℝ) (p1 v1 p2 v2 : V3 ℝ) (out : V3 Num) : Prop :=
  ∃ (a1 a2 b1 b2 : ℝ) (w : V3 ℝ) (c1 c2 : ℝ) (o : Option (ℝ × ℝ)), Dot u v1 v1 a1 ∧ Dot u v1 v2 a2 ∧ Dot u v2 v1 b1 ∧ Dot u v2 v2 b2 ∧
    Rd u (p1.x - p2.x) w.x ∧ Rd u (p1.y - p2.y) w.y ∧ Rd u (p1.z - p2.z) w.z ∧ Dot u v1 w c1 ∧ Dot u v2 w c2 ∧
    Solve2 u a1 (-b1) a2 (-b2) (-c1) (-c2) o ∧
    match o with
    | none => out = V3.nan
    | some (s, t) => ∃ x y z, Middle u p1.x v1.x p2.x v2.x s t x ∧ Middle u p1.y v1.y p2.y v2.y s t y ∧ Middle u p1.z v1.z p2.z v2.z s t z ∧ out.Is ⟨x, y, z⟩

/-- camera.py:218-222 `spaceFromImages` of two rectilinear cameras without lens distortion, for one pair of image points. -/
def SpaceFromImages (u : ℝ) (I1 : Projection.Intr) (t1 : V3 ℝ) (Rinv1 : M3) (q1 : V2 ℝ) (I2 : Projection.Intr) (t2 : V3 ℝ) (Rinv2 : M3) (q2 : V2 ℝ) (out : V3 Num) : Prop :=
  ∃ v1 v2, Direction u I1 Rinv1 q1 false v1 ∧ Direction u I2 Rinv2 q2 false v2 ∧ Intersection u t1 v1 t2 v2 out

end Rounded
