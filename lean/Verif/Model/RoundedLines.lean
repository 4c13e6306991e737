import Verif.Model.Rounded
import Verif.Model.Stereo

/-! # Distances of rays with rounding errors (ray.py:199-233, camera.py:215-216, 224-228)

As in `Rounded`, every operation has a relative error of at most `u`; overflow and underflow are not modelled. -/

open Classical

namespace Rounded

open Projection

/-- `np.cross` of two vectors. -/
def Cross (u : ℝ) (v w out : V3 ℝ) : Prop :=
  ∃ a b c d e f, Rd u (v.y * w.z) a ∧ Rd u (v.z * w.y) b ∧ Rd u (v.z * w.x) c ∧ Rd u (v.x * w.z) d ∧ Rd u (v.x * w.y) e ∧ Rd u (v.y * w.x) f ∧
    Rd u (a - b) out.x ∧ Rd u (c - d) out.y ∧ Rd u (e - f) out.z

/-- `np.linalg.norm` of a vector: the square root of its product with itself. -/
def NormOf (u : ℝ) (v : V3 ℝ) (n : ℝ) : Prop := ∃ s, Dot u v v s ∧ Rd u (Real.sqrt s) n

/-- ray.py:199-233 `__distanceOfTwoLines`.  `np.isclose(x, 0)` is `|x| <= 1e-8`; a length is not negative. -/
def TwoLines (u : ℝ) (p1 v1 p2 v2 : V3 ℝ) (out : ℝ) : Prop :=
  ∃ (d c : V3 ℝ) (n : ℝ), Rd u (p2.x - p1.x) d.x ∧ Rd u (p2.y - p1.y) d.y ∧ Rd u (p2.z - p1.z) d.z ∧ Cross u v1 v2 c ∧ NormOf u c n ∧
    if n ≤ 1 / 10 ^ 8 then
      ∃ n1, NormOf u v1 n1 ∧
        if n1 ≤ 1 / 10 ^ 8 then
          ∃ n2, NormOf u v2 n2 ∧ if n2 ≤ 1 / 10 ^ 8 then NormOf u d out else ∃ k m, Cross u d v2 k ∧ NormOf u k m ∧ Rd u (m / n2) out
        else ∃ k m, Cross u d v1 k ∧ NormOf u k m ∧ Rd u (m / n1) out
    else ∃ p, Dot u d c p ∧ Rd u (|p| / n) out

/-- camera.py:224-228 `discanteBetweenRays` of two rectilinear cameras without lens distortion, for one pair of image points. -/
def BetweenRays (u : ℝ) (I1 : Intr) (t1 : V3 ℝ) (Rinv1 : M3) (q1 : V2 ℝ) (I2 : Intr) (t2 : V3 ℝ) (Rinv2 : M3) (q2 : V2 ℝ) (out : ℝ) : Prop :=
  ∃ v1 v2, Direction u I1 Rinv1 q1 true v1 ∧ Direction u I2 Rinv2 q2 true v2 ∧ TwoLines u t1 v1 t2 v2 out

/-- camera.py:215-216 `getBaseline`. -/
def Baseline (u : ℝ) (t1 t2 : V3 ℝ) (out : ℝ) : Prop := ∃ a b, Rd u (t1.x - t2.x) a ∧ Rd u (t1.y - t2.y) b ∧ Hyp u a b out

end Rounded
