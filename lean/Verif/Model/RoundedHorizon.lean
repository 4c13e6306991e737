import Verif.Model.Rounded
import Verif.Model.View

/-! # The horizon with rounding errors (camera.py:836-890)

As in `Rounded`, every operation has a relative error of at most `u`; overflow and underflow are not modelled. -/

namespace Rounded

open Projection

/-- camera.py:846 `distanceToHorizon`; the square root of a negative number is nan. -/
def HorizonDistance (u h : ℝ) (out : Num) : Prop :=
  ∃ p m s q o w, Rd u (View.rEarth ^ 2) p ∧ Rd u (2 * p) m ∧ Rd u (View.rEarth + h) s ∧ Rd u (View.rEarth / s) q ∧ Rd u (1 - q) o ∧ Rd u (m * o) w ∧
    ((w < 0 ∧ out = .nan) ∨ (0 ≤ w ∧ ∃ d, Rd u (Real.sqrt w) d ∧ Num.Is out d))

/-- camera.py:877-884: the row of the horizon of a rectilinear camera without lens distortion, for one x (`none` stands for nan).  Absolute values and comparisons have no
errors. -/
def HorizonRow (u : ℝ) (I : Intr) (t : V3 ℝ) (Rinv : M3) (x : ℝ) (out : Option ℕ) : Prop :=
  ∃ (D : Num) (P : ℕ → V3 Num), HorizonDistance u t.z D ∧
    (∀ y < ⌈I.h⌉₊, (D = .nan ∧ P y = V3.nan) ∨ ∃ d, Num.Is D d ∧ SpaceFromImageD u I t Rinv ⟨x, y⟩ d (P y)) ∧
    out = View.nanargmin ((List.range ⌈I.h⌉₊).map fun y => Num.abs (P y).z)

end Rounded
