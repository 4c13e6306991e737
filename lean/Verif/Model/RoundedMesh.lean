import Verif.Model.RoundedTri

/-! # Rays and meshes with rounding errors (ray.py:27-100)

As in `Rounded`, every operation has a relative error of at most `u`; overflow and underflow are not modelled. -/

open Classical

namespace Rounded

/-- ray.py:60-76: the entry of `rI` for one ray and the plane of one triangle; `none` stands for nan. -/
def PlaneParam (u : ℝ) (o d : V3 ℝ) (T : Ray.Tri ℝ) (r : Option ℝ) : Prop :=
  ∃ (U V n w : V3 ℝ) (b a : ℝ), Diff u T.b T.a U ∧ Diff u T.c T.a V ∧ Cross u U V n ∧ Dot u n d b ∧ Diff u T.a o w ∧ Dot u n w a ∧
    if b = 0 ∧ a ≠ 0 then r = none
    else ∃ q, (if b = 0 then q = 0 else Rd u (a / b) q) ∧ if q < 0 then r = none else r = some q

/-- ray.py:78-86: the entry of `rI` after the test whether the point lies in the triangle. -/
def TriParam (u : ℝ) (o d : V3 ℝ) (T : Ray.Tri ℝ) (r : Option ℝ) : Prop :=
  ∃ r0, PlaneParam u o d T r0 ∧ (r0 = none → r = none) ∧
    ∀ q, r0 = some q → ∃ P out, Along u o d q P ∧ InTest u T P out ∧ (out = none → r = none) ∧ (out ≠ none → r = some q)

/-- ray.py:27-100 `ray_intersect_triangle` of one ray and a list of triangles: the smallest entry of `rI` is chosen (line 94). -/
def MeshHit (u : ℝ) (o d : V3 ℝ) (mesh : List (Ray.Tri ℝ)) (out : Option (V3 ℝ)) : Prop :=
  ∃ rs : List (Option ℝ), List.Forall₂ (TriParam u o d) mesh rs ∧
    ((∀ r ∈ rs, r = none) ∧ out = none ∨ ∃ q, some q ∈ rs ∧ (∀ q', some q' ∈ rs → q ≤ q') ∧ ∃ P, out = some P ∧ Along u o d q P)

end Rounded
