import Verif.Model.Rounded

/-! # The distortion of lenses with rounding errors (lens_distortion.py:148-173, 233-267)

As in `Rounded`, every operation has a relative error of at most `u`; overflow and underflow are not modelled. -/

namespace Rounded

/-- lens_distortion.py:149 `BrownLensDistortion._convert_radius`. -/
def BrownRadius (u k1 k2 k3 r out : ℝ) : Prop :=
  ∃ p2 p4 p6 t1 t2 t3 s1 s2 s3, Rd u (r ^ 2) p2 ∧ Rd u (r ^ 4) p4 ∧ Rd u (r ^ 6) p6 ∧ Rd u (k1 * p2) t1 ∧ Rd u (k2 * p4) t2 ∧ Rd u (k3 * p6) t3 ∧
    Rd u (1 + t1) s1 ∧ Rd u (s1 + t2) s2 ∧ Rd u (s2 + t3) s3 ∧ Rd u (r * s3) out

/-- lens_distortion.py:234, 243 `ABCDistortion._convert_radius` and the attribute `d`. -/
def AbcRadius (u a b c r out : ℝ) : Prop :=
  ∃ d1 d2 d p2 p3 p4 t1 t2 t3 t4 s1 s2, Rd u (1 - a) d1 ∧ Rd u (d1 - b) d2 ∧ Rd u (d2 - c) d ∧ Rd u (r ^ 2) p2 ∧ Rd u (r ^ 3) p3 ∧ Rd u (r ^ 4) p4 ∧
    Rd u (d * r) t1 ∧ Rd u (c * p2) t2 ∧ Rd u (b * p3) t3 ∧ Rd u (a * p4) t4 ∧ Rd u (t1 + t2) s1 ∧ Rd u (s1 + t3) s2 ∧ Rd u (s2 + t4) out

/-- lens_distortion.py:166-173 = 260-267 `distortedFromImage` with the radius function `f`.  At the centre 0 is divided by 0 and the result is nan. -/
def Distorted (u : ℝ) (f : ℝ → ℝ → Prop) (scale offset p : V2 ℝ) (out : V2 Num) : Prop :=
  ∃ ax ay qx qy r, Rd u (p.x - offset.x) ax ∧ Rd u (p.y - offset.y) ay ∧ Rd u (ax / scale.x) qx ∧ Rd u (ay / scale.y) qy ∧ Hyp u qx qy r ∧
    ((r = 0 ∧ out = V2.nan) ∨ (r ≠ 0 ∧ ∃ F nx ny mx my vx vy x y, f r F ∧ Rd u (qx / r) nx ∧ Rd u (qy / r) ny ∧ Rd u (nx * F) mx ∧ Rd u (ny * F) my ∧
      Rd u (mx * scale.x) vx ∧ Rd u (my * scale.y) vy ∧ Rd u (vx + offset.x) x ∧ Rd u (vy + offset.y) y ∧ out.Is ⟨x, y⟩))

end Rounded
