import Verif.Model.RoundedTest

/-! # Lengths and heights of objects with rounding errors (camera.py)

As in `Rounded`, every operation has a relative error of at most `u`; overflow and underflow are not modelled. -/

namespace Rounded

open Projection

/-- camera.py:1272-1278 `getObjectLength` without lens distortion. -/
def ObjectLength (u : ℝ) (k : Kind) (I : Intr) (t : V3 ℝ) (Rinv : M3) (front back : V2 ℝ) (Z : ℝ) (out : Num) : Prop :=
  ∃ f b, SpaceFromImageAny u k I t Rinv front 2 Z f ∧ SpaceFromImageAny u k I t Rinv back 2 Z b ∧
    ((∃ F B d : V3 ℝ, ∃ s n, f.Is F ∧ b.Is B ∧ Rd u (F.x - B.x) d.x ∧ Rd u (F.y - B.y) d.y ∧ Rd u (F.z - B.z) d.z ∧ Dot u d d s ∧
      Rd u (Real.sqrt s) n ∧ Num.Is out n) ∨ (((∃ j, f.get j = .nan) ∨ ∃ j, b.get j = .nan) ∧ out = .nan))

/-- camera.py:1243-1251 `getObjectHeight` without lens distortion.  The result is left open if the head has no position for one of the two planes. -/
def ObjectHeight (u : ℝ) (k : Kind) (I : Intr) (t : V3 ℝ) (Rinv : M3) (feet head : V2 ℝ) (Z : ℝ) (out : Num) : Prop :=
  ∃ f, SpaceFromImageAny u k I t Rinv feet 2 Z f ∧
    ((∃ F : V3 ℝ, f.Is F ∧ ∃ h1 h2, SpaceFromImageAny u k I t Rinv head 1 F.y h1 ∧ SpaceFromImageAny u k I t Rinv head 0 F.x h2 ∧
      ((∃ A B : V3 ℝ, ∃ s m n, h1.Is A ∧ h2.Is B ∧ Rd u (A.z + B.z) s ∧ Rd u (s / 2) m ∧ Rd u (m - F.z) n ∧ Num.Is out n) ∨
        (¬ ∃ A, h1.Is A) ∨ ¬ ∃ B, h2.Is B)) ∨ ((∃ j, f.get j = .nan) ∧ out = .nan))

end Rounded
