import Verif.Model.Camera

/-! # Model of `cameratransform/lens_distortion.py` -/

open Classical

namespace LensModel

/-- `scipy.interpolate.InterpolatedUnivariateSpline(y, x)`: an arbitrary function of the two lists of
knots; `none` stands for an exception. -/
abbrev Spline := List ℝ → List ℝ → Option (Num → Num)

/-- lens_distortion.py:28-30: the pairs (x, y) with `dy >= 0`, after the first one; `prev` is the `y` of
the pair before (kept or not). -/
noncomputable def risingAux (prev : ℝ) : List (ℝ × ℝ) → List (ℝ × ℝ)
  | [] => []
  | q :: t => if q.2 - prev ≥ 0 then q :: risingAux q.2 t else risingAux q.2 t

/-- lens_distortion.py:28-30: the first pair has `dy = 0` and is always kept. -/
noncomputable def rising : List (ℝ × ℝ) → List (ℝ × ℝ)
  | [] => []
  | q :: t => q :: risingAux q.2 t

/-- lens_distortion.py:24-36 `invert_function`. -/
noncomputable def invertFunction (spline : Spline) (x : List ℝ) (func : Num → Num) : Num → Num :=
  let kept := rising (x.map fun r => (r, (func (.fin r)).rv))
  match spline (kept.map Prod.snd) (kept.map Prod.fst) with
  | some f => f
  | none => id

/-- lens_distortion.py:142, 235: `np.arange(0, 2, 0.1)` (exact tenths). -/
noncomputable def knots : List ℝ := (List.range 20).map fun j : ℕ => (j : ℝ) / 10

/-- The attributes of a radial lens: `scale`, `offset`, `_convert_radius` and `_convert_radius_inverse`. -/
structure Radial where
  scale : V2 ℝ
  offset : V2 ℝ
  conv : Num → Num
  inv : Num → Num

/-- lens_distortion.py:154-161 = 166-173 = 248-255 = 260-267, with `f` the radius function used. -/
noncomputable def transform (L : Radial) (f : Num → Num) (p : V2 Num) : V2 Num :=
  let qx := (p.x - .fin L.offset.x) / .fin L.scale.x
  let qy := (p.y - .fin L.offset.y) / .fin L.scale.y
  let r := Num.sqrt (qx * qx + qy * qy)
  let qx' := qx / r * f r
  let qy' := qy / r * f r
  ⟨qx' * .fin L.scale.x + .fin L.offset.x, qy' * .fin L.scale.y + .fin L.offset.y⟩

/-- The two conversions (lens_distortion.py:151-173, 245-267). -/
noncomputable def Radial.lens (L : Radial) : Camera.Lens :=
  ⟨transform L L.inv, transform L L.conv⟩

/-- lens_distortion.py:148-149 `BrownLensDistortion._convert_radius`. -/
noncomputable def brownRadius (k1 k2 k3 : ℝ) (r : Num) : Num :=
  r * (.fin 1 + .fin k1 * r.npow 2 + .fin k2 * r.npow 4 + .fin k3 * r.npow 6)

/-- lens_distortion.py:141-146 `BrownLensDistortion._init_inverse` with an attached projection. -/
noncomputable def brown (spline : Spline) (I : Projection.Intr) (k1 k2 k3 : ℝ) : Radial where
  scale := ⟨I.fx, I.fy⟩
  offset := ⟨I.cx, I.cy⟩
  conv := brownRadius k1 k2 k3
  inv := invertFunction spline knots (brownRadius k1 k2 k3)

/-- lens_distortion.py:242-243 `ABCDistortion._convert_radius`, with `d = 1 - a - b - c` (line 234). -/
noncomputable def abcRadius (a b c : ℝ) (r : Num) : Num :=
  .fin (1 - a - b - c) * r + .fin c * r.npow 2 + .fin b * r.npow 3 + .fin a * r.npow 4

/-- lens_distortion.py:233-240 `ABCDistortion._init_inverse` with an attached projection. -/
noncomputable def abc (spline : Spline) (I : Projection.Intr) (a b c : ℝ) : Radial where
  scale := ⟨min I.w I.h / 2, min I.w I.h / 2⟩
  offset := ⟨I.cx, I.cy⟩
  conv := abcRadius a b c
  inv := invertFunction spline knots (abcRadius a b c)

end LensModel
