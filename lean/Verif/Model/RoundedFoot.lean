import Verif.Model.RoundedLines

/-! # Points next to lines with rounding errors (ray.py:103-104, 305-332)

As in `Rounded`, every operation has a relative error of at most `u`; overflow and underflow are not modelled. -/

namespace Rounded

/-- ray.py:103-104 `distanceLinePoint` of one line and one point. -/
def LinePoint (u : ℝ) (p1 v1 p2 : V3 ℝ) (out : ℝ) : Prop :=
  ∃ (d k : V3 ℝ) (m n : ℝ), Rd u (p1.x - p2.x) d.x ∧ Rd u (p1.y - p2.y) d.y ∧ Rd u (p1.z - p2.z) d.z ∧ Cross u v1 d k ∧ NormOf u k m ∧ NormOf u v1 n ∧ Rd u (m / n) out

/-- ray.py:323-332 `getClosestPointFromLine` of one line and one point: `w` is the caller's array `ray` after the call. -/
def Foot (u : ℝ) (o v p w out : V3 ℝ) : Prop :=
  ∃ (d : V3 ℝ) (n f a b c : ℝ), Rd u (p.x - o.x) d.x ∧ Rd u (p.y - o.y) d.y ∧ Rd u (p.z - o.z) d.z ∧ NormOf u v n ∧ Rd u (v.x / n) w.x ∧ Rd u (v.y / n) w.y ∧
    Rd u (v.z / n) w.z ∧ Dot u w d f ∧ Rd u (f * w.x) a ∧ Rd u (f * w.y) b ∧ Rd u (f * w.z) c ∧ Rd u (o.x + a) out.x ∧ Rd u (o.y + b) out.y ∧ Rd u (o.z + c) out.z

end Rounded
