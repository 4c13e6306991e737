import Verif.Props.LensInverse
import Verif.Props.Drawn
import Verif.Model.DrawnLens

/-! # C181: the test of lenses -/

open LensModel LensSpec SplineSpec LensInverse
open Drawn

theorem Drawn.lensPixel_range {d : Draw} {p : V2 ℝ} (hp : LensPixel d.intr p) :
    (∃ a b : ℤ, p = ⟨a, b⟩) ∧ |p.x - d.width / 2| ≤ d.width / 2 ∧ |p.y - d.height / 2| ≤ 1 / 2 := by
  obtain ⟨a, b, j, hj, rfl, h1, h2⟩ := hp
  refine ⟨⟨a, b, rfl⟩, ?_, h2⟩
  simp only [Draw.intr] at h1
  have hw : (0 : ℝ) ≤ d.width := Nat.cast_nonneg _
  have j0 : (0 : ℝ) ≤ j := Nat.cast_nonneg _
  have j1 : (j : ℝ) ≤ 99 := by exact_mod_cast (by omega : j ≤ 99)
  obtain ⟨l, u⟩ := abs_le.1 h1
  have e0 : 0 ≤ (j : ℝ) / 99 * d.width := by positivity
  have e1 : (j : ℝ) / 99 * d.width ≤ d.width := mul_le_of_le_one_left hw (by linarith)
  have a0 : (0 : ℤ) ≤ a := by
    have : (-1 : ℝ) < a := by linarith
    have : (-1 : ℤ) < a := by exact_mod_cast this
    omega
  have a1 : a ≤ (d.width : ℤ) := by
    have : (a : ℝ) < d.width + 1 := by linarith
    have : a < (d.width : ℤ) + 1 := by exact_mod_cast this
    omega
  have a0' : (0 : ℝ) ≤ a := by exact_mod_cast a0
  have a1' : (a : ℝ) ≤ d.width := by exact_mod_cast a1
  rw [abs_le]
  constructor <;> simp only <;> linarith

theorem Drawn.lensPasses_of {l : Camera.Lens} {p q : V2 ℝ} (hp : ∃ a b : ℤ, p = ⟨a, b⟩) (hq : (l.imageFromDistorted (l.distortedFromImage p.num)).Is q)
    (hx : |q.x - p.x| < 3 / 2) (hy : |q.y - p.y| < 3 / 2) : LensPasses l p := by
  obtain ⟨a', b', rfl⟩ := hp
  have key : ∀ (a c : ℤ) (x : ℝ), |x - c| < 3 / 2 → |a - x| ≤ 1 / 2 → |(a : ℝ) - c| < 3 / 2 := by
    intro a c x h1 h2
    have h3 : |(a : ℝ) - c| < 2 := by
      calc |(a : ℝ) - c| = |(a - x) + (x - c)| := by ring_nf
        _ ≤ |a - x| + |x - c| := abs_add_le _ _
        _ < 2 := by linarith
    have h4 : |a - c| < 2 := by exact_mod_cast h3
    have h5 : |a - c| ≤ 1 := by omega
    have h6 : |(a : ℝ) - c| ≤ 1 := by exact_mod_cast h5
    linarith
  exact Or.inr ⟨q, hq, fun a b h1 h2 => ⟨key a a' q.x hx h1, key b b' q.y hy h2⟩⟩

/-- **C181** The test of lenses passes for cameras without distortion. -/
theorem C181_test_none (d : Draw) (hd : d.Ok) (I : Projection.Intr) (hI : d.Makes I) (p : V2 ℝ) (hp : LensPixel I p) : LensPasses Camera.noDistortion p := by
  rw [makes_iff hd] at hI
  subst hI
  exact lensPasses_of (q := p) (lensPixel_range hp).1 (V2.is_num p) (by simp) (by simp)

theorem LensInverse.transform_nan (L : Radial) (f : Num → Num) : transform L f V2.nan = V2.nan := by
  unfold transform V2.nan
  simp only [Num.nan_sub, Num.nan_div, Num.nan_mul, Num.nan_add]

theorem LensInverse.radius_pos {s o p : V2 ℝ} (hx : s.x ≠ 0) (hy : s.y ≠ 0) (hp : p ≠ o) : 0 < radius s o p := by
  refine lt_of_le_of_ne (radius_nonneg _ _ _) fun h0 => hp ?_
  have h0 := h0.symm
  unfold radius at h0
  rw [Real.sqrt_eq_zero (by positivity)] at h0
  have e1 : (p.x - o.x) / s.x = 0 := by nlinarith [sq_nonneg ((p.x - o.x) / s.x), sq_nonneg ((p.y - o.y) / s.y)]
  have e2 : (p.y - o.y) / s.y = 0 := by nlinarith [sq_nonneg ((p.x - o.x) / s.x), sq_nonneg ((p.y - o.y) / s.y)]
  rw [div_eq_zero_iff] at e1 e2
  exact V2.ext (by have := e1.resolve_right hx; linarith) (by have := e2.resolve_right hy; linarith)

theorem Drawn.focal_ge {d : Draw} (h : d.Ok) : (d.width : ℝ) / 2 ≤ focal d.kind d.width d.view := by
  have hw : (0 : ℝ) < d.width := by exact_mod_cast (by have := h.width.1; omega : 0 < d.width)
  have hpi := Real.pi_pos
  have hpi4 := Real.pi_le_four
  obtain ⟨t1, t2⟩ := view_tan h.view.1 h.view.2
  have hv : 0 < d.view := by linarith [h.view.1]
  have lin : (d.width : ℝ) / 2 ≤ d.width / (d.view * (Real.pi / 180)) := by
    apply div_le_div_of_nonneg_left hw.le (by positivity)
    nlinarith [h.view.2]
  unfold focal
  cases d.kind
  · apply div_le_div_of_nonneg_left hw.le (by positivity)
    linarith
  · exact lin
  · exact lin

/-- **C181** The test of lenses passes for all Brown lenses, projections and pixels that it can draw. -/
theorem C181_test_brown (s : Spline) (hs : Fitpack s) (d : Draw) (hd : d.Ok) (I : Projection.Intr) (hI : d.Makes I) (k : ℝ) (hk0 : 0 ≤ k) (hk1 : k ≤ 1 / 100)
    (p : V2 ℝ) (hp : LensPixel I p) : LensPasses (brown s I k 0 0).lens p := by
  rw [makes_iff hd] at hI
  subst hI
  obtain ⟨hint, px, py⟩ := lensPixel_range hp
  have hf := focal_pos hd
  have hfw := focal_ge hd
  have w10 : (10 : ℝ) ≤ d.width := by exact_mod_cast hd.width.1
  have w1000 : (d.width : ℝ) ≤ 1000 := by exact_mod_cast hd.width.2
  by_cases hc : p = ⟨d.intr.cx, d.intr.cy⟩
  · subst hc
    left
    obtain ⟨a, b⟩ := (C21_violated s d.intr k 0 0 (V2.num ⟨d.intr.cx, d.intr.cy⟩) (V2.is_num _)).1 hf.ne' hf.ne'
    rw [a]
    exact transform_nan _ _
  · rcases hk0.eq_or_lt with h0 | h0
    · subst h0
      obtain ⟨a, b⟩ := (C22_zero_coefficients s (C181_good s hs) d.intr p p.num (V2.is_num p) hc).1 hf.ne' hf.ne'
      obtain ⟨a', b'⟩ := (C22_zero_coefficients s (C181_good s hs) d.intr p _ a hc).1 hf.ne' hf.ne'
      exact lensPasses_of hint b' (by simp) (by simp)
    · have r0 : 0 < radius ⟨d.intr.fx, d.intr.fy⟩ ⟨d.intr.cx, d.intr.cy⟩ p := radius_pos hf.ne' hf.ne' hc
      have r1 : radius ⟨d.intr.fx, d.intr.fy⟩ ⟨d.intr.cx, d.intr.cy⟩ p ≤ 11 / 10 := by
        unfold radius
        rw [Real.sqrt_le_left (by norm_num)]
        simp only [Draw.intr]
        have b1 : ((p.x - d.width / 2) / focal d.kind d.width d.view) ^ 2 ≤ 1 := by
          rw [sq_le_one_iff_abs_le_one, abs_div, abs_of_pos hf, div_le_one hf]
          linarith
        have b2 : ((p.y - d.height / 2) / focal d.kind d.width d.view) ^ 2 ≤ (1 / 10) ^ 2 := by
          apply sq_le_sq'
          · rw [le_div_iff₀ hf]; nlinarith [(abs_le.1 py).1]
          · rw [div_le_iff₀ hf]; nlinarith [(abs_le.1 py).2]
        nlinarith
      obtain ⟨R, hR, e⟩ := brown_small hs h0 hk1 r0 r1
      set r := radius ⟨d.intr.fx, d.intr.fy⟩ ⟨d.intr.cx, d.intr.cy⟩ p with hr
      have G : 0 < brownPoly k 0 0 r := lt_of_lt_of_le r0 (brownPoly_ge hk0 le_rfl le_rfl r0.le)
      have t := transform_twice (L := brown s d.intr k 0 0) (f := (brown s d.intr k 0 0).conv) (g := (brown s d.intr k 0 0).inv) (V2.is_num p) hf.ne' hf.ne' hr.symm r0.ne' G
        (fun m hm => brownRadius_is hm) hR
      have rel : |R / r - 1| ≤ 1 / 800 := by
        rw [div_sub_one r0.ne', abs_div, abs_of_pos r0, div_le_iff₀ r0]; linarith
      have move : ∀ x c b : ℝ, |x - c| ≤ b → |R / r * (x - c) + c - x| ≤ 1 / 800 * b := by
        intro x c b hb
        have : R / r * (x - c) + c - x = (R / r - 1) * (x - c) := by ring
        rw [this, abs_mul]
        exact mul_le_mul rel hb (abs_nonneg _) (by norm_num)
      refine lensPasses_of hint t ?_ ?_
      · have := move _ _ _ px
        simp only [brown, Draw.intr]
        linarith
      · have := move _ _ _ py
        simp only [brown, Draw.intr]
        linarith

theorem LensInverse.abc_deriv (a r : ℝ) : HasDerivAt (abcPoly a 0 0) (1 - a + 4 * a * r ^ 3) r ∧ HasDerivAt (fun r : ℝ => 1 - a + 4 * a * r ^ 3) (12 * a * r ^ 2) r := by
  constructor
  · have := (((hasDerivAt_id r).const_mul (1 - a - 0 - 0)).add ((hasDerivAt_pow 2 r).const_mul 0)).add ((hasDerivAt_pow 3 r).const_mul 0) |>.add
      ((hasDerivAt_pow 4 r).const_mul a)
    refine HasDerivAt.congr_deriv this ?_
    push_cast; ring
  · have := ((hasDerivAt_pow 3 r).const_mul (4 * a)).const_add (1 - a)
    refine HasDerivAt.congr_deriv this ?_
    push_cast; ring

theorem LensInverse.abc_slope {a r : ℝ} (h0 : 0 ≤ a) (h1 : a ≤ 1 / 100) (r0 : 0 ≤ r) : 99 / 100 ≤ 1 - a + 4 * a * r ^ 3 := by
  have : 0 ≤ 4 * a * r ^ 3 := by positivity
  linarith

theorem LensInverse.abc_change {a r : ℝ} (h0 : 0 ≤ a) (h1 : a ≤ 1 / 100) (r0 : 0 ≤ r) (r1 : r ≤ 19 / 10) :
    |12 * a * r ^ 2| ≤ 22 / 100 * (1 - a + 4 * a * r ^ 3) ^ 3 := by
  rw [abs_of_nonneg (by positivity)]
  have s := abc_slope h0 h1 r0
  set y := 1 - a + 4 * a * r ^ 3 with hy
  -- the tangent of the cube
  have t : (63 / 50) ^ 3 + 3 * (63 / 50) ^ 2 * (y - 63 / 50) ≤ y ^ 3 := by
    nlinarith [mul_nonneg (sq_nonneg (y - 63 / 50)) (show 0 ≤ y + 2 * (63 / 50) by linarith)]
  have c : 12 * a * r ^ 2 ≤ 22 / 100 * ((63 / 50) ^ 3 + 3 * (63 / 50) ^ 2 * (y - 63 / 50)) := by
    have q : 0 ≤ (r - 19 / 10) ^ 2 * (r + 1) := by positivity
    have e : 22 / 100 * ((63 / 50) ^ 3 + 3 * (63 / 50) ^ 2 * (y - 63 / 50)) - 12 * a * r ^ 2 =
      22 / 100 * (3 * (63 / 50) ^ 2 - 2 * (63 / 50) ^ 3) + a * (22 / 100 * (3 * (63 / 50) ^ 2) * (4 * r ^ 3 - 1) - 12 * r ^ 2) := by rw [hy]; ring
    have low : -(1675 / 100) ≤ 22 / 100 * (3 * (63 / 50) ^ 2) * (4 * r ^ 3 - 1) - 12 * r ^ 2 := by nlinarith
    have := mul_le_mul_of_nonneg_left low h0
    norm_num at e this ⊢
    nlinarith
  linarith

/-- The ABC lenses of the test, up to a radius of 1.9. -/
theorem LensInverse.abc_small {s : Spline} (hs : Fitpack s) {k : ℝ} (hk0 : 0 ≤ k) (hk1 : k ≤ 1 / 100) {r : ℝ} (hr0 : 0 ≤ r) (hr1 : r ≤ 19 / 10) :
    (∃ R, (∀ v, Num.Is v (abcPoly k 0 0 r) → Num.Is (invertFunction s knots (abcRadius k 0 0) v) R) ∧ |R - r| ≤ 29 / 10000) ∨
    ∃ R, (∀ v, Num.Is v (abcPoly k 0 0 r) → Num.Is (invertFunction s knots (abcRadius k 0 0) v) R) ∧ |R - r| ≤ 46 / 10000 ∧ 18 / 10 ≤ r := by
  obtain ⟨i, hi, hri⟩ := sample hr0 hr1
  obtain ⟨R, hR, e1, e2⟩ := LensInverse.error hs (func := abcRadius k 0 0) (fun n r h => abcRadius_is h) (fun r => (abc_deriv k r).1) (fun r => (abc_deriv k r).2)
    (fun r hr => lt_of_lt_of_le (by norm_num) (abc_slope hk0 hk1 hr.1)) (K := 22 / 100) (ρ := 105 / 100) (by norm_num) (by norm_num)
    (fun r hr => abc_change hk0 hk1 hr.1 hr.2) (by simp only [abcPoly]; norm_num; linarith) (by simp only [abcPoly]; norm_num; linarith) hi hri
  set f := abcPoly k 0 0 with hf
  have i0 : (0 : ℝ) ≤ i := by positivity
  have cont : Continuous f := continuous_iff_continuousAt.2 fun r => (abc_deriv k r).1.continuousAt
  have i18 : (i : ℝ) ≤ 18 := by exact_mod_cast (by omega : i ≤ 18)
  have mono : MonotoneOn f (Set.Icc 0 (19 / 10)) := by
    apply monotoneOn_of_deriv_nonneg (convex_Icc _ _) cont.continuousOn (fun x _ => (abc_deriv k x).1.differentiableAt.differentiableWithinAt)
    intro x hx
    rw [(abc_deriv k x).1.deriv]
    exact le_trans (by norm_num) (abc_slope hk0 hk1 (interior_subset hx).1)
  have sub : Set.Icc ((i : ℝ) / 10) ((i + 1 : ℕ) / 10) ⊆ Set.Icc (0:ℝ) (19 / 10) := by
    intro x hx
    have := hx.2
    push_cast at this
    exact ⟨le_trans (by positivity) hx.1, by linarith⟩
  have l : f (i / 10) ≤ f r := mono (sub ⟨le_rfl, hri.1.trans hri.2⟩) (sub hri) hri.1
  have up : f r ≤ f ((i + 1 : ℕ) / 10) := mono (sub hri) (sub ⟨hri.1.trans hri.2, le_rfl⟩) hri.2
  have am : ∀ b : ℝ, f ((i + 1 : ℕ) / 10) - f (i / 10) ≤ b → 0 ≤ b → (f r - f (i / 10)) * (f ((i + 1 : ℕ) / 10) - f r) ≤ b ^ 2 / 4 := by
    intro b hb b0
    have : 0 ≤ f ((i + 1 : ℕ) / 10) - f (i / 10) := by linarith
    nlinarith [sq_nonneg ((f r - f (i / 10)) - (f ((i + 1 : ℕ) / 10) - f r)), mul_le_mul hb hb this b0]
  have step : f ((i + 1 : ℕ) / 10) - f (i / 10) = 1 / 10 + k * ((4 * (i : ℝ) ^ 3 + 6 * i ^ 2 + 4 * i + 1) / 10000 - 1 / 10) := by
    simp only [hf, abcPoly]; push_cast; ring
  have stepb : ∀ c : ℝ, (4 * (i : ℝ) ^ 3 + 6 * i ^ 2 + 4 * i + 1) / 10000 - 1 / 10 ≤ c → 0 ≤ c → f ((i + 1 : ℕ) / 10) - f (i / 10) ≤ 1 / 10 + c / 100 := by
    intro c hc c0
    rw [step]
    have := mul_le_mul_of_nonneg_left hc hk0
    nlinarith
  rcases Nat.eq_zero_or_pos i with h0 | h0
  · left
    refine ⟨R, hR, e1.trans ?_⟩
    have := am _ (stepb 0 (by rw [h0]; norm_num) le_rfl) (by norm_num)
    norm_num at this ⊢
    linarith
  · by_cases h1 : i = 18
    · right
      refine ⟨R, hR, e1.trans ?_, ?_⟩
      · have := am _ (stepb (244 / 100) (by rw [h1]; norm_num) (by norm_num)) (by norm_num)
        norm_num at this ⊢
        linarith
      · have := hri.1
        rw [h1] at this
        norm_num at this ⊢
        linarith
    · left
      refine ⟨R, hR, (e2 h0 (by omega)).trans ?_⟩
      have i17 : (i : ℝ) ≤ 17 := by exact_mod_cast (by omega : i ≤ 17)
      have := am _ (stepb (244 / 100) (by
        have p3 : (i : ℝ) ^ 3 ≤ 17 ^ 3 := pow_le_pow_left₀ i0 i17 3
        have p2 : (i : ℝ) ^ 2 ≤ 17 ^ 2 := pow_le_pow_left₀ i0 i17 2
        norm_num at p3 p2
        linarith) (by norm_num)) (by norm_num)
      norm_num at this ⊢
      linarith

/-- **C181** (partial: up to 1.9 times half of the smaller side of the image away from the centre) The test of lenses passes for ABC lenses. -/
theorem C181_test_abc_partial (s : Spline) (hs : Fitpack s) (d : Draw) (hd : d.Ok) (I : Projection.Intr) (hI : d.Makes I) (k : ℝ) (hk0 : 0 ≤ k) (hk1 : k ≤ 1 / 100)
    (p : V2 ℝ) (hp : LensPixel I p) (hr : radius ⟨min I.w I.h / 2, min I.w I.h / 2⟩ ⟨I.cx, I.cy⟩ p ≤ 19 / 10) : LensPasses (abc s I k 0 0).lens p := by
  rw [makes_iff hd] at hI
  subst hI
  obtain ⟨hint, px, py⟩ := lensPixel_range hp
  obtain ⟨sw, sh⟩ := sides_pos hd
  have w1000 : (d.width : ℝ) ≤ 1000 := by exact_mod_cast hd.width.2
  have sc : 0 < min d.intr.w d.intr.h / 2 := by have := lt_min sw sh; simp only [Draw.intr]; positivity
  have scle : min d.intr.w d.intr.h / 2 ≤ 500 := by
    have : min d.intr.w d.intr.h ≤ d.width := min_le_left _ _
    linarith
  by_cases hc : p = ⟨d.intr.cx, d.intr.cy⟩
  · subst hc
    left
    obtain ⟨a, b⟩ := (C21_violated s d.intr k 0 0 (V2.num ⟨d.intr.cx, d.intr.cy⟩) (V2.is_num _)).2 sw sh
    rw [a]
    exact transform_nan _ _
  · set S := min d.intr.w d.intr.h / 2 with hS
    have r0 : 0 < radius ⟨S, S⟩ ⟨d.intr.cx, d.intr.cy⟩ p := radius_pos sc.ne' sc.ne' hc
    set r := radius ⟨S, S⟩ ⟨d.intr.cx, d.intr.cy⟩ p with hrd
    have sq : (r * S) ^ 2 = (p.x - d.intr.cx) ^ 2 + (p.y - d.intr.cy) ^ 2 := by
      rw [mul_pow, hrd]
      unfold radius
      rw [Real.sq_sqrt (by positivity)]
      field_simp
    have rS : 0 < r * S := mul_pos r0 sc
    have G : 0 < abcPoly k 0 0 r := by
      have : abcPoly k 0 0 r = r * (1 - k) + k * r ^ 4 := by unfold abcPoly; ring
      rw [this]
      have : 0 < r * (1 - k) := mul_pos r0 (by linarith)
      positivity
    have dx : |p.x - d.intr.cx| ≤ r * S := abs_le_of_sq_le_sq (by nlinarith [sq_nonneg (p.y - d.intr.cy)]) rS.le
    have dy : |p.y - d.intr.cy| ≤ r * S := abs_le_of_sq_le_sq (by nlinarith [sq_nonneg (p.x - d.intr.cx)]) rS.le
    have fin : ∀ R, (∀ v, Num.Is v (abcPoly k 0 0 r) → Num.Is (invertFunction s knots (abcRadius k 0 0) v) R) → |R - r| * S < 3 / 2 → LensPasses (abc s d.intr k 0 0).lens p := by
      intro R hR hlt
      have t := transform_twice (L := abc s d.intr k 0 0) (f := (abc s d.intr k 0 0).conv) (g := (abc s d.intr k 0 0).inv) (V2.is_num p) sc.ne' sc.ne' hrd.symm r0.ne' G
        (fun m hm => abcRadius_is hm) hR
      have move : ∀ x c : ℝ, |x - c| ≤ r * S → |R / r * (x - c) + c - x| < 3 / 2 := by
        intro x c hb
        have : R / r * (x - c) + c - x = (R - r) * (x - c) / r := by field_simp; ring
        rw [this, abs_div, abs_mul, abs_of_pos r0, div_lt_iff₀ r0]
        calc |R - r| * |x - c| ≤ |R - r| * (r * S) := mul_le_mul_of_nonneg_left hb (abs_nonneg _)
          _ = |R - r| * S * r := by ring
          _ < 3 / 2 * r := mul_lt_mul_of_pos_right hlt r0
      exact lensPasses_of hint t (move _ _ dx) (move _ _ dy)
    rcases abc_small hs hk0 hk1 r0.le hr with ⟨R, hR, e⟩ | ⟨R, hR, e, h18⟩
    · exact fin R hR (by
        have := mul_le_mul e scle sc.le (by norm_num)
        linarith)
    · have S278 : S ≤ 278 := by
        by_contra h
        rw [not_le] at h
        have a1 : 500 ^ 2 + 1 / 4 < (r * S) ^ 2 := by
          have : 18 / 10 * 278 ≤ r * S := mul_le_mul h18 h.le (by norm_num) r0.le
          nlinarith
        have a2 : (p.x - d.intr.cx) ^ 2 ≤ 500 ^ 2 := by
          apply sq_le_sq'
          · have := (abs_le.1 px).1; simp only [Draw.intr]; linarith
          · have := (abs_le.1 px).2; simp only [Draw.intr]; linarith
        have a3 : (p.y - d.intr.cy) ^ 2 ≤ (1 / 2) ^ 2 := by
          apply sq_le_sq'
          · have := (abs_le.1 py).1; simp only [Draw.intr]; linarith
          · have := (abs_le.1 py).2; simp only [Draw.intr]; linarith
        linarith
      exact fin R hR (by
        have := mul_le_mul e S278 sc.le (by norm_num)
        linarith)

/-! ### The test of ABC lenses fails -/

/-- Rounded second derivatives of the spline of the ABC lens 0.01. -/
noncomputable def LensInverse.rounded : List ℝ := [2474737 / 1414500000, -9 / 6250, -463 / 100000, -273 / 25000, -243 / 12500, -757 / 25000, -4323 / 100000, -5803 / 100000, -1487 / 20000, -4589 / 50000, -10983 / 100000, -2559 / 20000, -3639 / 25000, -1621 / 10000, -8851 / 50000, -18987 / 100000, -20019 / 100000, -26 / 125, -10607 / 50000, -3258514 / 15056875]

/-- The interpolated inverse of the ABC lens 0.01 at the radius 499/187. -/
theorem LensInverse.abc_far {s : Spline} (hs : Fitpack s) :
    ∃ R, (∀ v, Num.Is v (abcPoly (1 / 100) 0 0 (499 / 187)) → Num.Is (invertFunction s knots (abcRadius (1 / 100) 0 0) v) R) ∧ 187 * (R - 499 / 187) ≤ -3 := by
  set f := abcPoly (1 / 100) 0 0 with hf
  have ef : ∀ r, f r = 99 / 100 * r + 1 / 100 * r ^ 4 := by intro r; simp only [hf, abcPoly]; ring
  have cont : Continuous f := continuous_iff_continuousAt.2 fun r => (abc_deriv _ r).1.continuousAt
  have mono : StrictMonoOn f (Set.Icc 0 (19 / 10)) := by
    apply strictMonoOn_of_deriv_pos (convex_Icc _ _) cont.continuousOn
    intro x hx
    rw [(abc_deriv _ x).1.deriv]
    exact lt_of_lt_of_le (by norm_num) (abc_slope (by norm_num) le_rfl (interior_subset hx).1)
  obtain ⟨q, N, ev⟩ := invert_evaluates hs (func := abcRadius (1 / 100) 0 0) (g := f) (fun n r h => abcRadius_is h) mono
  have inc : ∀ i : ℕ, i < 19 → f ((i : ℝ) / 10) < f ((i + 1 : ℕ) / 10) := by
    intro i hi
    have h1 : (i : ℝ) ≤ 18 := by exact_mod_cast (by omega : i ≤ 18)
    apply mono ⟨by positivity, by linarith⟩ ⟨by positivity, by push_cast; linarith⟩
    push_cast; linarith
  have M := N.moments_close (n := 16) inc (fun i => rounded.getD i 0) (fun _ => 1 / 100000) one_pos le_rfl
    (by simp only [gap, ef, rounded, List.getD_cons_zero, List.getD_cons_succ]; norm_num)
    (by simp only [gap, ef, rounded, List.getD_cons_zero, List.getD_cons_succ]; norm_num)
    (fun _ => by norm_num) (fun _ => le_rfl) (fun _ => by norm_num) (Or.inr rfl)
    (fun i hi => by
      rw [abs_le]
      simp only [SplineSpec.residual, mean, gap, ef, rounded]
      clear ev N mono cont inc
      interval_cases i <;> simp only [List.getD_cons_zero, List.getD_cons_succ] <;> norm_num)
  set y : ℕ → ℝ := fun j : ℕ => f ((j : ℝ) / 10) with hy
  have m18 := M 17 (by norm_num)
  have m17 := M 16 (by norm_num)
  have stop := NotAKnot.stop (n := 17) N
  have e19 := end_close (h := gap y 18) (k := gap y 17) (e0 := moment y q 19 - rounded.getD 19 0) (e1 := moment y q 18 - rounded.getD 18 0)
    (e2 := moment y q 17 - rounded.getD 17 0) (ρ := 3 / 2) (by simp only [hy, gap, ef]; norm_num) (by simp only [hy, gap, ef]; norm_num)
    (by
      have : (rounded.getD 19 0 - rounded.getD 18 0) * gap y 17 = (rounded.getD 18 0 - rounded.getD 17 0) * gap y 18 := by
        simp only [hy, gap, ef, rounded, List.getD_cons_zero, List.getD_cons_succ]; norm_num
      linarith) m18 m17 (by simp only [hy, gap, ef]; norm_num)
  have y18 : y 18 = 1886976 / 1000000 := by simp only [hy, ef]; norm_num
  have y19 : y 19 = 2011321 / 1000000 := by simp only [hy, ef]; norm_num
  refine ⟨(q 18).at (f (499 / 187)), fun v hv => ev v _ hv 18 (by norm_num) (Or.inr ?_) (Or.inl rfl), ?_⟩
  · simp only [ef]; norm_num
  · have b18 : (q 18).bend (y 18) = moment y q 18 := N.bend_left (by norm_num)
    have b19 : (q 18).bend (y 19) = moment y q 19 := rfl
    have l18 : (q 18).at (y 18) = 18 / 10 := N.left 18 (by norm_num)
    have l19 : (q 18).at (y 19) = 19 / 10 := by have := N.right 18 (by norm_num); norm_num at this ⊢; exact this
    have F := Cubic.form (q 18) (a := y 18) (b := y 19) (by rw [y18, y19]; norm_num) (f (499 / 187))
    rw [b18, b19, l18, l19, y18, y19] at F
    rw [F, ef]
    have r18 : rounded.getD 18 0 = -10607 / 50000 := by simp only [rounded, List.getD_cons_zero, List.getD_cons_succ]
    have r19 : rounded.getD 19 0 = -3258514 / 15056875 := by simp only [rounded, List.getD_cons_zero, List.getD_cons_succ]
    rw [r18] at m18
    rw [r19] at e19
    have m18' := abs_le.1 m18
    have e19' := abs_le.1 e19
    norm_num at m18' e19' ⊢
    linarith

/-- **C181** (the code violates it) The test of lenses fails for a projection and an ABC lens that it can draw: a sensor of 24.89 mm × 9.35 mm, an image of
998 × 374 pixels and the coefficient 0.01. The last of the tested pixels is more than 1.9 times half of the height away from the centre, where the spline is
extrapolated, and comes back three pixels to the left of where it was. This does not depend on the field of view and the class of the projection. -/
theorem C181_test_abc_violated (s : Spline) (hs : Fitpack s) (kind : Projection.Kind) (v : ℝ) (hv : 1 ≤ v ∧ v ≤ 80) :
    ∃ d : Draw, d.Ok ∧ d.kind = kind ∧ d.view = v ∧ ∃ I, d.Makes I ∧ ∃ p, LensPixel I p ∧ ¬LensPasses (abc s I (1 / 100) 0 0).lens p := by
  let d : Draw := ⟨kind, v, 998, (2489 / 100, 187 / 20)⟩
  have hd : d.Ok := ⟨hv, by norm_num [d], by simp [d, sensorSizes]⟩
  have hh : d.height = 374 := by
    unfold Draw.height
    rw [Nat.floor_eq_iff (by positivity)]
    norm_num [d]
  have ew : d.intr.w = 998 := by norm_num [Draw.intr, d]
  have eh : d.intr.h = 374 := by norm_num [Draw.intr, hh]
  have ex : d.intr.cx = 499 := by norm_num [Draw.intr, d]
  have ey : d.intr.cy = 187 := by norm_num [Draw.intr, hh]
  refine ⟨d, hd, rfl, rfl, d.intr, (makes_iff hd _).2 rfl, ⟨998, 187⟩, ⟨998, 187, 99, by norm_num, by norm_num, by rw [ew]; norm_num, by rw [eh]; norm_num⟩, ?_⟩
  obtain ⟨R, hR, e⟩ := abc_far hs
  have S : min d.intr.w d.intr.h / 2 = 187 := by rw [ew, eh]; norm_num
  have er : radius ⟨187, 187⟩ ⟨499, 187⟩ ⟨998, 187⟩ = 499 / 187 := by
    unfold radius
    rw [Real.sqrt_eq_iff_eq_sq (by positivity) (by norm_num)]
    norm_num
  have t := transform_twice (L := abc s d.intr (1 / 100) 0 0) (f := (abc s d.intr (1 / 100) 0 0).conv) (g := (abc s d.intr (1 / 100) 0 0).inv)
    (V2.is_num ⟨998, 187⟩) (r := 499 / 187) (by show min d.intr.w d.intr.h / 2 ≠ 0; rw [S]; norm_num) (by show min d.intr.w d.intr.h / 2 ≠ 0; rw [S]; norm_num)
    (by show radius ⟨min d.intr.w d.intr.h / 2, min d.intr.w d.intr.h / 2⟩ ⟨d.intr.cx, d.intr.cy⟩ _ = _; rw [S, ex, ey]; exact er) (by norm_num)
    (G := abcPoly (1 / 100) 0 0 (499 / 187)) (by norm_num [abcPoly]) (fun m hm => abcRadius_is hm) hR
  rintro (hn | ⟨q, hq, hp⟩)
  · have t1 := t.1
    have : (abc s d.intr (1 / 100) 0 0).lens.imageFromDistorted ((abc s d.intr (1 / 100) 0 0).lens.distortedFromImage (V2.num ⟨998, 187⟩)) =
      transform (abc s d.intr (1 / 100) 0 0) (abc s d.intr (1 / 100) 0 0).inv
        (transform (abc s d.intr (1 / 100) 0 0) (abc s d.intr (1 / 100) 0 0).conv (V2.num ⟨998, 187⟩)) := rfl
    rw [← this, hn] at t1
    rcases t1 with h | ⟨h, _⟩
  · have e1 : q.x = R / (499 / 187) * (998 - d.intr.cx) + d.intr.cx := (hq.1.rv_eq).symm.trans t.1.rv_eq
    have e2 := abs_sub_round q.x
    have e3 := abs_sub_round q.y
    rw [abs_sub_comm] at e2 e3
    have := (hp _ _ e2 e3).1
    rw [ex] at e1
    rw [abs_le] at e2
    rw [abs_lt] at this
    simp only at this
    have e4 : q.x = 187 * R + 499 := by rw [e1]; ring
    linarith [this.1, e2.2]


example : ∃ (s : Spline) (d : Draw) (I : Projection.Intr) (p : V2 ℝ), Fitpack s ∧ d.Ok ∧ d.Makes I ∧ LensPixel I p ∧
    radius ⟨min I.w I.h / 2, min I.w I.h / 2⟩ ⟨I.cx, I.cy⟩ p ≤ 19 / 10 ∧ p ≠ ⟨I.cx, I.cy⟩ := by
  obtain ⟨s, hs⟩ := C181_exists
  let d : Draw := ⟨.rectilinear, 60, 990, (4, 3)⟩
  have hd : d.Ok := ⟨by norm_num [d], by norm_num [d], by simp [d, sensorSizes]⟩
  have hh : d.height = 742 := by
    unfold Draw.height
    rw [Nat.floor_eq_iff (by positivity)]
    norm_num [d]
  have ew : d.intr.w = 990 := by norm_num [Draw.intr, d]
  have eh : d.intr.h = 742 := by norm_num [Draw.intr, hh]
  have ex : d.intr.cx = 495 := by norm_num [Draw.intr, d]
  have ey : d.intr.cy = 371 := by norm_num [Draw.intr, hh]
  refine ⟨s, d, d.intr, ⟨490, 371⟩, hs, hd, (makes_iff hd _).2 rfl, ⟨490, 371, 49, by norm_num, by norm_num, by rw [ew]; norm_num, by rw [eh]; norm_num⟩, ?_, ?_⟩
  · rw [ew, eh, ex, ey]
    unfold radius
    rw [Real.sqrt_le_left (by norm_num)]
    norm_num
  · rw [ex]
    intro h
    have := congrArg V2.x h
    norm_num at this
