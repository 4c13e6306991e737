import Mathlib.Analysis.SpecialFunctions.Complex.Arg
import Verif.Props.Projection
import Verif.Props.Rounded

/-! # Rounding errors of panoramas -/

namespace Rounded
open Projection

/-- The direction of a vector, compared with an angle that is known roughly. -/
theorem arg_turn {φ : ℝ} {w : ℂ} (h : |Complex.arg w - φ| < 3 * Real.pi / 2) (hd : 0 < w.re * Real.cos φ + w.im * Real.sin φ) :
    |Complex.arg w - φ| ≤ |w.im * Real.cos φ - w.re * Real.sin φ| / (w.re * Real.cos φ + w.im * Real.sin φ) := by
  have hpi := Real.pi_pos
  obtain ⟨ψ, hψ⟩ : ∃ ψ, ψ = Complex.arg w := ⟨_, rfl⟩
  have hr : w.re = ‖w‖ * Real.cos ψ := by rw [hψ, Complex.norm_mul_cos_arg]
  have hi : w.im = ‖w‖ * Real.sin ψ := by rw [hψ, Complex.norm_mul_sin_arg]
  rw [← hψ] at h ⊢
  have e1 : w.re * Real.cos φ + w.im * Real.sin φ = ‖w‖ * Real.cos (ψ - φ) := by rw [hr, hi, Real.cos_sub]; ring
  have e2 : w.im * Real.cos φ - w.re * Real.sin φ = ‖w‖ * Real.sin (ψ - φ) := by rw [hr, hi, Real.sin_sub]; ring
  rw [e1] at hd
  rw [e1, e2]
  generalize ψ - φ = x at h hd ⊢
  have hn : 0 < ‖w‖ := by
    rcases (norm_nonneg w).lt_or_eq with h0 | h0
    · exact h0
    · rw [← h0] at hd; simp at hd
  have hc : 0 < Real.cos x := by
    by_contra hh
    nlinarith
  rw [abs_mul, abs_of_pos hn, mul_div_mul_left _ _ hn.ne']
  rw [← Real.cos_abs] at hc ⊢
  have hs : |Real.sin x| = |Real.sin (|x|)| := by
    rcases abs_choice x with h | h <;> rw [h]
    rw [Real.sin_neg, abs_neg]
  rw [hs]
  have h0 := abs_nonneg x
  generalize |x| = y at h hc h0 ⊢
  have hy : y < Real.pi / 2 := by
    by_contra hh
    rw [not_lt] at hh
    have := Real.cos_nonpos_of_pi_div_two_le_of_le hh (by linarith)
    linarith
  have := Real.le_tan h0 hy
  rw [Real.tan_eq_sin_div_cos] at this
  refine this.trans ?_
  gcongr
  exact le_abs_self _

/-- The direction of a vector whose coordinates have relative errors. -/
theorem arg_near {φ r a b E : ℝ} (h1 : -Real.pi < φ) (h2 : φ < Real.pi) (hr : 0 < r) (hE : E < 1) (ha : |a - 1| ≤ E) (hb : |b - 1| ≤ E) :
    |Complex.arg ⟨r * Real.cos φ * a, r * Real.sin φ * b⟩ - φ| ≤ 2 * E / (1 - E) * |φ| := by
  have hpi := Real.pi_pos
  have a1 := abs_le.1 ha
  have b1 := abs_le.1 hb
  have hE0 := (abs_nonneg _).trans ha
  have ha0 : 0 < a := by linarith
  have hb0 : 0 < b := by linarith
  have hsq := Real.sin_sq_add_cos_sq φ
  have hdot : r * (1 - E) ≤ r * Real.cos φ * a * Real.cos φ + r * Real.sin φ * b * Real.sin φ := by
    have e : r * Real.cos φ * a * Real.cos φ + r * Real.sin φ * b * Real.sin φ = r * (a * Real.cos φ ^ 2 + b * Real.sin φ ^ 2) := by ring
    rw [e]
    refine mul_le_mul_of_nonneg_left ?_ hr.le
    nlinarith [mul_le_mul_of_nonneg_right (by linarith : 1 - E ≤ a) (sq_nonneg (Real.cos φ)),
      mul_le_mul_of_nonneg_right (by linarith : 1 - E ≤ b) (sq_nonneg (Real.sin φ))]
  have hpos : 0 < r * (1 - E) := mul_pos hr (by linarith)
  have hcross : |r * Real.sin φ * b * Real.cos φ - r * Real.cos φ * a * Real.sin φ| ≤ r * (2 * E * |φ|) := by
    have e : r * Real.sin φ * b * Real.cos φ - r * Real.cos φ * a * Real.sin φ = r * ((b - a) * (Real.sin φ * Real.cos φ)) := by ring
    rw [e, abs_mul, abs_of_pos hr]
    refine mul_le_mul_of_nonneg_left ?_ hr.le
    rw [abs_mul, abs_mul]
    refine mul_le_mul ?_ ?_ (by positivity) (by linarith)
    · rw [abs_le]; constructor <;> linarith
    · have t1 := Real.abs_cos_le_one φ
      have t2 : |Real.sin φ| ≤ |φ| := Real.abs_sin_le_abs
      have := mul_le_mul t2 t1 (abs_nonneg _) (abs_nonneg _)
      linarith
  have hrough : |Complex.arg ⟨r * Real.cos φ * a, r * Real.sin φ * b⟩ - φ| < 3 * Real.pi / 2 := by
    have g1 := Complex.neg_pi_lt_arg ⟨r * Real.cos φ * a, r * Real.sin φ * b⟩
    have g2 := Complex.arg_le_pi ⟨r * Real.cos φ * a, r * Real.sin φ * b⟩
    rw [abs_lt]
    rcases le_or_gt 0 φ with h | h
    · have hs : 0 ≤ Real.sin φ := Real.sin_nonneg_of_nonneg_of_le_pi h h2.le
      have g3 : 0 ≤ Complex.arg ⟨r * Real.cos φ * a, r * Real.sin φ * b⟩ := Complex.arg_nonneg_iff.2 (by simp only; positivity)
      constructor <;> linarith
    · have hs : Real.sin φ < 0 := Real.sin_neg_of_neg_of_neg_pi_lt h h1
      have g3 : Complex.arg ⟨r * Real.cos φ * a, r * Real.sin φ * b⟩ < 0 := Complex.arg_neg_iff.2 (by
        simp only
        have := mul_pos (mul_pos hr hb0) (neg_pos.2 hs)
        linarith)
      constructor <;> linarith
  refine (arg_turn hrough (lt_of_lt_of_le hpos hdot)).trans ?_
  simp only
  rw [div_le_iff₀ (lt_of_lt_of_le hpos hdot)]
  refine hcross.trans ?_
  have e : r * (2 * E * |φ|) = 2 * E / (1 - E) * |φ| * (r * (1 - E)) := by
    have : 1 - E ≠ 0 := by linarith
    field_simp
  rw [e]
  refine mul_le_mul_of_nonneg_left hdot ?_
  have : 0 < 1 - E := by linarith
  positivity

end Rounded

namespace Rounded

open Projection

theorem Rd.lin {c x y : ℝ} (h : |y - x| ≤ c * |x|) (hc : 0 ≤ c) : ∃ g : ℝ, |g - 1| ≤ c ∧ y = x * g := Rd.form hc h

/-- Products of factors near 1. -/
theorem fac_lin {u a b m n k : ℝ} (hu : 0 ≤ u) (hu1 : u ≤ 1 / 1000) (hm : 0 ≤ m) (hn : 0 ≤ n) (ha : |a - 1| ≤ m * u) (hb : |b - 1| ≤ n * u)
    (h : m + n + m * n / 1000 ≤ k) : |a * b - 1| ≤ k * u := by
  refine (fac_mul ha hb).trans ?_
  have h1 : m * u * (n * u) ≤ m * n / 1000 * u := by
    have := mul_le_mul_of_nonneg_left hu1 (by positivity : 0 ≤ m * n * u)
    nlinarith
  nlinarith [mul_le_mul_of_nonneg_right h hu]

/-- The computed horizontal angle. -/
theorem pan_angle {u E α K ex ez h : ℝ} (hu : 0 ≤ u) (h1 : |α| < Real.pi) (hK : 0 < K) (hE : E < 1) (hex : |ex - 1| ≤ E) (hez : |ez - 1| ≤ E)
    (hh : Arctan2 u (-(K * Real.sin α * ex)) (K * Real.cos α * ez) h) :
    ∃ g e, |g - 1| ≤ 2 * E / (1 - E) ∧ |e - 1| ≤ u ∧ h = -α * g * e := by
  have hE0 := (abs_nonneg _).trans hex
  have a1 := abs_lt.1 h1
  rcases hh with hh | ⟨hy, hx, -⟩
  · obtain ⟨e, he, rfl⟩ := hh.form hu
    have hn := arg_near (φ := -α) (r := K) (a := ez) (b := ex) (by linarith) (by linarith) hK hE hez hex
    rw [Real.cos_neg, Real.sin_neg] at hn
    have hp : 0 < 1 - E := by linarith
    obtain ⟨g, hg, hg'⟩ := Rd.lin hn (by positivity)
    refine ⟨g, e, hg, he, ?_⟩
    rw [← hg']
    congr 3
    ring
  · exfalso
    have b1 := abs_le.1 hex
    have b2 := abs_le.1 hez
    have hs : Real.sin α = 0 := by
      have := neg_eq_zero.1 hy
      have h2 := mul_eq_zero.1 this
      rcases h2 with h2 | h2
      · exact (mul_eq_zero.1 h2).resolve_left hK.ne'
      · linarith
    have h0 : α = 0 := (Real.sin_eq_zero_iff_of_lt_of_lt a1.1 a1.2).1 hs
    rw [h0, Real.cos_zero] at hx
    have : 0 < K * ez := mul_pos hK (by linarith)
    linarith

/-- The computed horizontal distance. -/
theorem hyp_near {u α K ex ez n : ℝ} (hu : 0 ≤ u) (hu1 : u ≤ 1 / 1000) (hK : 0 < K) (hex : |ex - 1| ≤ 301 / 100 * u)
    (hez : |ez - 1| ≤ 301 / 100 * u) (h : Hyp u (K * Real.sin α * ex) (-(K * Real.cos α * ez)) n) :
    ∃ e, |e - 1| ≤ 53 / 10 * u ∧ n = K * e := by
  obtain ⟨a, b, c, h1, h2, h3, h4⟩ := h
  obtain ⟨e1, he1, rfl⟩ := h1.form hu
  obtain ⟨e2, he2, rfl⟩ := h2.form hu
  obtain ⟨e3, he3, rfl⟩ := h3.form hu
  obtain ⟨e4, he4, rfl⟩ := h4.form hu
  have t : ∀ {e f : ℝ}, |e - 1| ≤ 301 / 100 * u → |f - 1| ≤ u → |e * e * f - 1| ≤ 705 / 100 * u := by
    intro e f he hf
    exact fac_lin hu hu1 (by norm_num) (by norm_num) (fac_lin hu hu1 (k := 604 / 100) (by norm_num) (by norm_num) he he (by norm_num))
      (n := 1) (by linarith) (by norm_num)
  have t1 := abs_le.1 (t hex he1)
  have t2 := abs_le.1 (t hez he2)
  have hsq := Real.sin_sq_add_cos_sq α
  obtain ⟨M, hM⟩ : ∃ M, M = Real.sin α ^ 2 * (ex * ex * e1) + Real.cos α ^ 2 * (ez * ez * e2) := ⟨_, rfl⟩
  have hM1 : |M - 1| ≤ 705 / 100 * u := by
    rw [hM, abs_le]
    have s1 := sq_nonneg (Real.sin α)
    have s2 := sq_nonneg (Real.cos α)
    constructor <;> nlinarith [mul_le_mul_of_nonneg_left t1.1 s1, mul_le_mul_of_nonneg_left t1.2 s1,
      mul_le_mul_of_nonneg_left t2.1 s2, mul_le_mul_of_nonneg_left t2.2 s2]
  have hm : |M * e3 - 1| ≤ 806 / 100 * u := fac_lin hu hu1 (by norm_num) (by norm_num) hM1 (n := 1) (by linarith) (by norm_num)
  have hm' := abs_le.1 hm
  have hpos : 0 < M * e3 := by linarith
  have hc : ((K * Real.sin α * ex) ^ 2 * e1 + (-(K * Real.cos α * ez)) ^ 2 * e2) * e3 = K ^ 2 * (M * e3) := by rw [hM]; ring
  rw [hc, Real.sqrt_mul (sq_nonneg K), Real.sqrt_sq hK.le]
  have hr : |Real.sqrt (M * e3) - 1| ≤ 41 / 10 * u := by
    obtain ⟨r, hr⟩ : ∃ r, r = Real.sqrt (M * e3) := ⟨_, rfl⟩
    have hr0 : 0 ≤ r := by rw [hr]; exact Real.sqrt_nonneg _
    have hr2 : r * r = M * e3 := by rw [hr]; exact Real.mul_self_sqrt hpos.le
    rw [← hr]
    rw [← hr2] at hm
    have hr3 : 98 / 100 ≤ r := by
      by_contra hh
      rw [not_le] at hh
      have := mul_self_lt_mul_self hr0 hh
      rw [hr2] at this
      linarith
    have e : r * r - 1 = (r - 1) * (r + 1) := by ring
    rw [e, abs_mul, abs_of_pos (by linarith : 0 < r + 1)] at hm
    have := mul_le_mul_of_nonneg_left (by linarith : 198 / 100 ≤ r + 1) (abs_nonneg (r - 1))
    linarith
  exact ⟨Real.sqrt (M * e3) * e4, fac_lin hu hu1 (by norm_num) (by norm_num) hr (n := 1) (by linarith) (by norm_num), by ring⟩

theorem scaled {p c K x ex : ℝ} (hx : x = ((p - c) * K + c) * ex) {u m : ℝ} (hk : |K * ex - 1| ≤ m) (he : |ex - 1| ≤ u) :
    |x - p| ≤ m * |p - c| + u * |c| := by
  have e : x - p = (p - c) * (K * ex - 1) + c * (ex - 1) := by rw [hx]; ring
  rw [e]
  refine (abs_add_le _ _).trans ?_
  rw [abs_mul, abs_mul]
  have := mul_le_mul_of_nonneg_left hk (abs_nonneg (p - c))
  have := mul_le_mul_of_nonneg_left he (abs_nonneg c)
  linarith

theorem inv_lin {u e m k : ℝ} (hu : 0 ≤ u) (hu1 : u ≤ 1 / 1000) (hm : 0 ≤ m) (hm1 : m ≤ 100) (he : |e - 1| ≤ m * u) (h : m ≤ k * (1 - m / 1000)) :
    0 < e ∧ |e⁻¹ - 1| ≤ k * u := by
  have hb := abs_le.1 he
  have h0 : 1 - m / 1000 ≤ e := by
    have := mul_le_mul_of_nonneg_left hu1 hm
    linarith
  have hp : 0 < e := by linarith
  refine ⟨hp, ?_⟩
  have hk : 0 ≤ k := by
    by_contra hh
    nlinarith
  have : e⁻¹ - 1 = (1 - e) / e := by field_simp
  rw [this, abs_div, abs_of_pos hp, div_le_iff₀ hp, abs_sub_comm]
  refine he.trans ?_
  have h2 := mul_le_mul_of_nonneg_left h0 (mul_nonneg hk hu)
  have h3 := mul_le_mul_of_nonneg_right h hu
  linarith

theorem quot_bound {u m E k : ℝ} (hE : E = m * u) (hu : 0 ≤ u) (hu1 : u ≤ 1 / 1000) (hm : 0 ≤ m) (hm1 : m ≤ 100) (h : 2 * m ≤ k * (1 - m / 1000)) :
    E < 1 ∧ 2 * E / (1 - E) ≤ k * u := by
  have h0 : m * u ≤ m / 1000 := by
    have := mul_le_mul_of_nonneg_left hu1 hm
    linarith
  have hk : 0 ≤ k := by
    by_contra hh
    nlinarith
  have hp : 0 < 1 - E := by linarith
  refine ⟨by linarith, ?_⟩
  rw [div_le_iff₀ hp]
  have h2 := mul_le_mul_of_nonneg_left (by linarith : 1 - m / 1000 ≤ 1 - E) (mul_nonneg hk hu)
  have h3 := mul_le_mul_of_nonneg_right h hu
  rw [hE] at h2 ⊢
  linarith

/-- A computed quotient stays below a bound. -/
theorem angle_lt {u p c f A α b : ℝ} (hu : 0 ≤ u) (hu1 : u ≤ 1 / 1000) (hf : f ≠ 0) (h0 : Rd u (p - c) A) (h1 : Rd u (A / f) α)
    (h : (1 + 3 * u) * |p - c| < b * |f|) : |α| < b ∧ ∃ e, |e - 1| ≤ 2001 / 1000 * u ∧ α = (p - c) / f * e := by
  obtain ⟨eA, heA, rfl⟩ := h0.form hu
  obtain ⟨eB, heB, rfl⟩ := h1.form hu
  have hk : |eA * eB - 1| ≤ 2001 / 1000 * u :=
    fac_lin hu hu1 (m := 1) (n := 1) (by norm_num) (by norm_num) (by linarith) (by linarith) (by norm_num)
  refine ⟨?_, eA * eB, hk, by ring⟩
  have hf' := abs_pos.2 hf
  have e : (p - c) * eA / f * eB = (p - c) / f * (eA * eB) := by ring
  rw [e, abs_mul, abs_div, div_mul_eq_mul_div, div_lt_iff₀ hf']
  refine lt_of_le_of_lt ?_ h
  rw [mul_comm]
  refine mul_le_mul_of_nonneg_right ?_ (abs_nonneg _)
  have := abs_le.1 hk
  rw [abs_le]
  constructor <;> linarith

end Rounded

open Projection Rounded in
/-- Rays of panoramas lead back to their pixels, up to rounding errors: the ray of a pixel within the full circle (for the equirectangular projection also
between the poles), followed to any distance and projected again, returns to the pixel, also if it points backwards. -/
theorem C156_rays (k : Kind) (hk : k ≠ .rectilinear) (I : Intr) (hfx : I.fx ≠ 0) (hfy : I.fy ≠ 0) (u : ℝ) (hu : 0 ≤ u) (hu1 : u ≤ 1 / 1000) (p : V2 ℝ)
    (hx : (1 + 3 * u) * |p.x - I.cx| < Real.pi * |I.fx|)
    (hy : k = .equirectangular → (1 + 3 * u) * |p.y - I.cy| < Real.pi / 2 * |I.fy|)
    (normed : Bool) (ray : V3 ℝ) (hr : RayPan u k I p normed ray) (t : ℝ) (ht : 0 < t) (P : V3 ℝ)
    (hP : Rd u (t * ray.x) P.x ∧ Rd u (t * ray.y) P.y ∧ Rd u (t * ray.z) P.z) (hd : minDepth ≤ |P.z|) (out : V2 Num)
    (ho : ImagePan u k I P out) :
    ∃ q : V2 ℝ, out.Is q ∧ |q.x - p.x| ≤ 12 * u * |p.x - I.cx| + u * |I.cx| ∧
      |q.y - p.y| ≤ 16 * u * |p.y - I.cy| + u * |I.cy| := by
  obtain ⟨a, α, s, z, b, β, y, h1, h2, h3, h4, h5, h6, h7, hn⟩ := hr
  obtain ⟨hPx, hPy, hPz⟩ := hP
  obtain ⟨ex, hex, hPx⟩ := hPx.form hu
  obtain ⟨ey, hey, hPy⟩ := hPy.form hu
  obtain ⟨ez, hez, hPz⟩ := hPz.form hu
  obtain ⟨es, hes, rfl⟩ := h3.form hu
  obtain ⟨ec, hec, rfl⟩ := h4.form hu
  have hm : (1 : ℝ) / 10 ^ 10 = minDepth := by norm_num [minDepth]
  have one : ∀ {e : ℝ}, |e - 1| ≤ u → |e - 1| ≤ 1 * u := fun h => by linarith
  have key : ∃ (k e f g : ℝ), 0 ≤ k ∧ |e - 1| ≤ u ∧ |f - 1| ≤ u ∧ |g - 1| ≤ u ∧
      ray.x = k * (Real.sin α * es) * e ∧ ray.y = -(k * y * f) ∧ ray.z = -(k * (Real.cos α * ec) * g) := by
    cases normed
    · simp only [Bool.false_eq_true, if_false] at hn
      subst hn
      exact ⟨1, 1, 1, 1, zero_le_one, by simpa using hu, by simpa using hu, by simpa using hu, by simp, by simp, by simp⟩
    · simp only [if_true] at hn
      obtain ⟨q, ⟨s, n, hs, hn, q1, q2, q3⟩, rfl⟩ := hn
      obtain ⟨e, he, e1⟩ := q1.form hu
      obtain ⟨f, hf, e2⟩ := q2.form hu
      obtain ⟨g, hg, e3⟩ := q3.form hu
      have hn0 : 0 ≤ n := by
        obtain ⟨m, hm, rfl⟩ := hn.form hu
        have := abs_le.1 hm
        exact mul_nonneg (Real.sqrt_nonneg _) (by linarith)
      exact ⟨1 / n, e, f, g, by positivity, he, hf, hg, by simp only [V3.neg_x, e1]; ring,
        by simp only [V3.neg_y, e2]; ring, by simp only [V3.neg_z, e3]; ring⟩
  obtain ⟨k0, e, f, g, hk0, he, hf, hg, e1, e2, e3⟩ := key
  rw [e1] at hPx
  rw [e2] at hPy
  rw [e3] at hPz
  have hk1 : k0 ≠ 0 := by
    rintro rfl
    rw [hPz] at hd
    norm_num [minDepth] at hd
  have hK : 0 < t * k0 := mul_pos ht (lt_of_le_of_ne hk0 (Ne.symm hk1))
  generalize hKd : t * k0 = K at hK
  have hx3 : |es * e * ex - 1| ≤ 301 / 100 * u :=
    fac_lin hu hu1 (by norm_num) (by norm_num) (fac_lin hu hu1 (k := 2001 / 1000) (by norm_num) (by norm_num) (one hes) (one he) (by norm_num))
      (one hex) (by norm_num)
  have hz3 : |ec * g * ez - 1| ≤ 301 / 100 * u :=
    fac_lin hu hu1 (by norm_num) (by norm_num) (fac_lin hu hu1 (k := 2001 / 1000) (by norm_num) (by norm_num) (one hec) (one hg) (by norm_num))
      (one hez) (by norm_num)
  have hy2 : |f * ey - 1| ≤ 2001 / 1000 * u := fac_lin hu hu1 (by norm_num) (by norm_num) (one hf) (one hey) (by norm_num)
  have hPx' : P.x = K * Real.sin α * (es * e * ex) := by rw [hPx, ← hKd]; ring
  have hPy' : P.y = -(K * y * (f * ey)) := by rw [hPy, ← hKd]; ring
  have hPz' : P.z = -(K * Real.cos α * (ec * g * ez)) := by rw [hPz, ← hKd]; ring
  obtain ⟨hα, eα, heα, hα'⟩ := angle_lt hu hu1 hfx h1 h2 hx
  unfold ImagePan at ho
  rw [hm, if_neg (not_lt.2 hd)] at ho
  obtain ⟨h, B, x, n, yy, i1, i2, i3, i4, i5, hq⟩ := ho
  rw [hPx', hPz', neg_neg] at i1
  rw [hPx', hPz'] at i4
  obtain ⟨q1, q2⟩ := quot_bound (k := 605 / 100) rfl hu hu1 (m := 301 / 100) (by norm_num) (by norm_num) (by norm_num)
  obtain ⟨gg, eh, hgg, heh, rfl⟩ := pan_angle hu hα hK q1 hx3 hz3 i1
  obtain ⟨en, hen, rfl⟩ := hyp_near hu hu1 hK hx3 hz3 i4
  obtain ⟨eB, heB, rfl⟩ := i2.form hu
  obtain ⟨eX, heX, rfl⟩ := i3.form hu
  have hgg' := hgg.trans q2
  refine ⟨⟨_, yy⟩, hq, ?_, ?_⟩
  · simp only
    have a1 := fac_lin hu hu1 (k := 807 / 100) (by norm_num) (by norm_num) heα hgg' (by norm_num)
    have a2 := fac_lin hu hu1 (k := 909 / 100) (by norm_num) (by norm_num) a1 (one heh) (by norm_num)
    have a3 := fac_lin hu hu1 (k := 1011 / 100) (by norm_num) (by norm_num) a2 (one heB) (by norm_num)
    have a4 := fac_lin hu hu1 (k := 12) (by norm_num) (by norm_num) a3 (one heX) (by norm_num)
    refine scaled (K := eα * gg * eh * eB) ?_ a4 heX
    rw [hα']
    field_simp
  · simp only
    cases k with
    | rectilinear => exact absurd rfl hk
    | cylindrical =>
      simp only at h7 i5
      subst h7
      obtain ⟨v, c, j1, j2, j3⟩ := i5
      obtain ⟨eb, heb, rfl⟩ := h5.form hu
      obtain ⟨eβ, heβ, rfl⟩ := h6.form hu
      obtain ⟨ev, hev, rfl⟩ := j1.form hu
      obtain ⟨ec', hec', rfl⟩ := j2.form hu
      obtain ⟨eY, heY, rfl⟩ := j3.form hu
      obtain ⟨hen0, hen1⟩ := inv_lin (k := 54 / 10) hu hu1 (by norm_num) (by norm_num) hen (by norm_num)
      have a1 := fac_lin hu hu1 (k := 2001 / 1000) (by norm_num) (by norm_num) (one heb) (one heβ) (by norm_num)
      have a2 := fac_lin hu hu1 (k := 401 / 100) (by norm_num) (by norm_num) a1 hy2 (by norm_num)
      have a3 := fac_lin hu hu1 (k := 502 / 100) (by norm_num) (by norm_num) a2 (one hev) (by norm_num)
      have a4 := fac_lin hu hu1 (k := 1045 / 100) (by norm_num) (by norm_num) a3 hen1 (by norm_num)
      have a5 := fac_lin hu hu1 (k := 1147 / 100) (by norm_num) (by norm_num) a4 (one hec') (by norm_num)
      have a6 := fac_lin hu hu1 (k := 16) (by norm_num) (by norm_num) a5 (one heY) (by norm_num)
      refine scaled (K := eb * eβ * (f * ey) * ev * en⁻¹ * ec') ?_ a6 heY
      rw [hPy']
      have := hK.ne'
      field_simp
    | equirectangular =>
      simp only at h7 i5
      obtain ⟨et, het, rfl⟩ := h7.form hu
      obtain ⟨v, c, j1, j2, j3⟩ := i5
      obtain ⟨hβ, eβ, heβ, hβ'⟩ := angle_lt hu hu1 hfy h5 h6 (hy rfl)
      have hpi := Real.pi_pos
      have b1 := abs_lt.1 hβ
      have hcos : 0 < Real.cos β := Real.cos_pos_of_mem_Ioo ⟨by linarith, by linarith⟩
      have ht3 : |et * (f * ey) - 1| ≤ 53 / 10 * u := fac_lin hu hu1 (by norm_num) (by norm_num) (one het) hy2 (by norm_num)
      obtain ⟨w1, w2⟩ := quot_bound (k := 107 / 10) rfl hu hu1 (m := 53 / 10) (by norm_num) (by norm_num) (by norm_num)
      have j1' : Arctan2 u (-(K / Real.cos β * Real.sin β * (et * (f * ey)))) (K / Real.cos β * Real.cos β * en) v := by
        have s1 : -(K / Real.cos β * Real.sin β * (et * (f * ey))) = P.y := by
          rw [hPy', Real.tan_eq_sin_div_cos]; ring
        have s2 : K / Real.cos β * Real.cos β * en = K * en := by field_simp
        rw [s1, s2]
        exact j1
      obtain ⟨gy, ev, hgy, hev, rfl⟩ := pan_angle hu (by linarith : |β| < Real.pi) (div_pos hK hcos) w1 ht3 hen j1'
      obtain ⟨ec', hec', rfl⟩ := j2.form hu
      obtain ⟨eY, heY, rfl⟩ := j3.form hu
      have a1 := fac_lin hu hu1 (k := 128 / 10) (by norm_num) (by norm_num) heβ (hgy.trans w2) (by norm_num)
      have a2 := fac_lin hu hu1 (k := 139 / 10) (by norm_num) (by norm_num) a1 (one hev) (by norm_num)
      have a3 := fac_lin hu hu1 (k := 1495 / 100) (by norm_num) (by norm_num) a2 (one hec') (by norm_num)
      have a4 := fac_lin hu hu1 (k := 16) (by norm_num) (by norm_num) a3 (one heY) (by norm_num)
      refine scaled (K := eβ * gy * ev * ec') ?_ a4 heY
      rw [hβ']
      field_simp

namespace Rounded

open Projection

/-- The directions of two vectors close to each other. -/
theorem arg_shift {v w : ℂ} {a b : ℝ} (ha : |w.re - v.re| ≤ a) (hb : |w.im - v.im| ≤ b) (hv : 2 * (a + b) ≤ ‖v‖) (hv0 : 0 < ‖v‖)
    (hs : (0 < v.re ∧ 0 < w.re) ∨ (0 < v.im ∧ 0 < w.im) ∨ (v.im < 0 ∧ w.im < 0)) :
    |Complex.arg w - Complex.arg v| ≤ 2 * (a + b) / ‖v‖ := by
  have hpi := Real.pi_pos
  obtain ⟨φ, hφ⟩ : ∃ φ, φ = Complex.arg v := ⟨_, rfl⟩
  have hr : v.re = ‖v‖ * Real.cos φ := by rw [hφ, Complex.norm_mul_cos_arg]
  have hi : v.im = ‖v‖ * Real.sin φ := by rw [hφ, Complex.norm_mul_sin_arg]
  have a0 := (abs_nonneg _).trans ha
  have b0 := (abs_nonneg _).trans hb
  have hsq := Real.sin_sq_add_cos_sq φ
  have c1 := Real.abs_cos_le_one φ
  have s1 := Real.abs_sin_le_one φ
  have p1 : |(w.re - v.re) * Real.cos φ| ≤ a := by
    rw [abs_mul]; have := mul_le_mul ha c1 (abs_nonneg _) a0; linarith
  have p2 : |(w.im - v.im) * Real.sin φ| ≤ b := by
    rw [abs_mul]; have := mul_le_mul hb s1 (abs_nonneg _) b0; linarith
  have p3 : |(w.im - v.im) * Real.cos φ| ≤ b := by
    rw [abs_mul]; have := mul_le_mul hb c1 (abs_nonneg _) b0; linarith
  have p4 : |(w.re - v.re) * Real.sin φ| ≤ a := by
    rw [abs_mul]; have := mul_le_mul ha s1 (abs_nonneg _) a0; linarith
  have hdot : ‖v‖ / 2 ≤ w.re * Real.cos φ + w.im * Real.sin φ := by
    have e : w.re * Real.cos φ + w.im * Real.sin φ = ‖v‖ * (Real.sin φ ^ 2 + Real.cos φ ^ 2) + (w.re - v.re) * Real.cos φ + (w.im - v.im) * Real.sin φ := by
      rw [hr, hi]; ring
    rw [e, hsq]
    have := (abs_le.1 p1).1
    have := (abs_le.1 p2).1
    linarith
  have hcross : |w.im * Real.cos φ - w.re * Real.sin φ| ≤ a + b := by
    have e : w.im * Real.cos φ - w.re * Real.sin φ = (w.im - v.im) * Real.cos φ - (w.re - v.re) * Real.sin φ := by
      rw [hr, hi]; ring
    rw [e]
    refine (abs_sub _ _).trans ?_
    linarith
  have hrough : |Complex.arg w - φ| < 3 * Real.pi / 2 := by
    have g1 := Complex.neg_pi_lt_arg w
    have g2 := Complex.arg_le_pi w
    have f1 := Complex.neg_pi_lt_arg v
    have f2 := Complex.arg_le_pi v
    rw [hφ, abs_lt]
    rcases hs with ⟨h1, h2⟩ | ⟨h1, h2⟩ | ⟨h1, h2⟩
    · have := abs_lt.1 (Complex.abs_arg_lt_pi_div_two_iff.2 (Or.inl h1))
      have := abs_lt.1 (Complex.abs_arg_lt_pi_div_two_iff.2 (Or.inl h2))
      constructor <;> linarith
    · have := Complex.arg_nonneg_iff.2 h1.le
      have := Complex.arg_nonneg_iff.2 h2.le
      constructor <;> linarith
    · have := Complex.arg_neg_iff.2 h1
      have := Complex.arg_neg_iff.2 h2
      constructor <;> linarith
  have hd0 : 0 < w.re * Real.cos φ + w.im * Real.sin φ := by linarith
  rw [← hφ]
  refine (arg_turn hrough hd0).trans ?_
  rw [div_le_div_iff₀ hd0 hv0]
  have h1 := mul_le_mul_of_nonneg_right hcross hv0.le
  have h2 := mul_le_mul_of_nonneg_left hdot (by linarith : 0 ≤ 2 * (a + b))
  linarith

/-- `np.arctan2` with a direction that is no half turn. -/
theorem Arctan2.form {u y x out : ℝ} (hu : 0 ≤ u) (h : Arctan2 u y x out) (hs : y ≠ 0 ∨ 0 < x) :
    ∃ e, |e - 1| ≤ u ∧ out = Complex.arg ⟨x, y⟩ * e := by
  rcases h with h | ⟨h1, h2, -⟩
  · exact h.form hu
  · rcases hs with h | h
    · exact absurd h1 h
    · linarith

/-- The computed length of a vector. -/
theorem hyp_vec {u x z n : ℝ} (hu : 0 ≤ u) (hu1 : u ≤ 1 / 1000) (hz : z ≠ 0) (h : Hyp u x z n) :
    ∃ e, |e - 1| ≤ 53 / 10 * u ∧ n = Real.sqrt (x ^ 2 + z ^ 2) * e := by
  have hn : ‖(⟨-z, x⟩ : ℂ)‖ = Real.sqrt (x ^ 2 + z ^ 2) := by
    rw [Complex.norm_def, Complex.normSq_mk]; ring_nf
  have hpos : 0 < Real.sqrt (x ^ 2 + z ^ 2) := Real.sqrt_pos.2 (by positivity)
  have h1 := Complex.norm_mul_cos_arg ⟨-z, x⟩
  have h2 := Complex.norm_mul_sin_arg ⟨-z, x⟩
  rw [hn] at h1 h2
  simp only at h1 h2
  refine hyp_near (α := Complex.arg ⟨-z, x⟩) (ex := 1) (ez := 1) hu hu1 hpos (by simp; linarith) (by simp; linarith) ?_
  rw [mul_one, mul_one, h1, h2, neg_neg]
  exact h

/-- The lengths of two vectors close to each other. -/
theorem norm_shift (x z x' z' : ℝ) : |Real.sqrt (x' ^ 2 + z' ^ 2) - Real.sqrt (x ^ 2 + z ^ 2)| ≤ |x' - x| + |z' - z| := by
  have hn : ∀ a b : ℝ, ‖(⟨a, b⟩ : ℂ)‖ = Real.sqrt (a ^ 2 + b ^ 2) := by
    intro a b
    rw [Complex.norm_def, Complex.normSq_mk]; ring_nf
  rw [← hn, ← hn]
  refine (abs_norm_sub_norm_le _ _).trans ?_
  exact Complex.norm_le_abs_re_add_abs_im _

/-- A computed pixel coordinate, from a value with an error. -/
theorem pan_pixel_near {u f c A A0 D e q : ℝ} (hu : 0 ≤ u) (hu1 : u ≤ 1 / 1000) (hD : |A - A0| ≤ D) (he : |e - 1| ≤ 2001 / 1000 * u)
    (h : Rd u (-f * (A * e) + c) q) :
    |q - (-f * A0 + c)| ≤ 11 / 10 * D * |f| + 4 * u * |-f * A0 + c - c| + u * |c| := by
  obtain ⟨g, hg, rfl⟩ := h.form hu
  have hD0 := (abs_nonneg _).trans hD
  have hk : |e * g - 1| ≤ 301 / 100 * u := fac_lin hu hu1 (by norm_num) (by norm_num) he (n := 1) (by linarith) (by norm_num)
  have hk2 : |e * g| ≤ 11 / 10 := by
    have := abs_le.1 hk
    rw [abs_le]; constructor <;> linarith
  have e1 : (-f * (A * e) + c) * g - (-f * A0 + c) = -f * (A - A0) * (e * g) + (-f * A0) * (e * g - 1) + c * (g - 1) := by ring
  rw [e1]
  refine (abs_add_three _ _ _).trans ?_
  rw [add_sub_cancel_right]
  have t1 : |-f * (A - A0) * (e * g)| ≤ 11 / 10 * D * |f| := by
    rw [abs_mul, abs_mul, abs_neg]
    have := mul_le_mul (mul_le_mul_of_nonneg_left hD (abs_nonneg f)) hk2 (abs_nonneg _) (by positivity)
    linarith
  have t2 : |-f * A0 * (e * g - 1)| ≤ 4 * u * |-f * A0| := by
    rw [abs_mul]
    have := mul_le_mul_of_nonneg_left hk (abs_nonneg (-f * A0))
    nlinarith [mul_nonneg (abs_nonneg (-f * A0)) hu]
  have t3 : |c * (g - 1)| ≤ u * |c| := by
    rw [abs_mul]
    have := mul_le_mul_of_nonneg_left hg (abs_nonneg c)
    linarith
  linarith

/-- The exact image of a point in a panorama that is not straight behind the camera. -/
theorem pan_is (k : Kind) (hk : k ≠ .rectilinear) (I : Intr) {n : V3 Num} {c : V3 ℝ} (h : n.Is c) (hz : minDepth ≤ |c.z|)
    (hs : c.x ≠ 0 ∨ c.z < 0) (hide : Bool) :
    (Projection.imageFromCamera k I n hide).Is ⟨-I.fx * Complex.arg ⟨-c.z, -c.x⟩ + I.cx,
      -I.fy * (match k with | .equirectangular => Complex.arg ⟨Real.sqrt (c.x ^ 2 + c.z ^ 2), c.y⟩ | _ => c.y / Real.sqrt (c.x ^ 2 + c.z ^ 2)) + I.cy⟩ := by
  have hmd : (1 : ℝ) / 10 ^ 10 = minDepth := by norm_num [minDepth]
  have hmp : 0 < minDepth := by norm_num [minDepth]
  have hz0 : c.z ≠ 0 := by
    intro h0
    rw [h0, abs_zero] at hz
    linarith
  have hsn := snap_far h (by rw [hmd]; exact hz)
  obtain ⟨hx, hy, hzz⟩ := h
  have hρ : 0 < Real.sqrt (c.x ^ 2 + c.z ^ 2) := Real.sqrt_pos.2 (by positivity)
  have ha : Num.Is (Num.arctan2 (-n.x) (-n.z)) (Complex.arg ⟨-c.z, -c.x⟩) :=
    hx.neg.arctan2 hzz.neg (hs.imp (fun h => neg_ne_zero.2 h) (fun h => by linarith))
  have hn : Num.Is (Num.sqrt (n.x.npow 2 + n.z.npow 2)) (Real.sqrt (c.x ^ 2 + c.z ^ 2)) :=
    ((hx.npow 2).add (hzz.npow 2)).sqrt (by positivity)
  have hX : Num.Is (-(Num.fin I.fx) * Num.arctan2 (-n.x) (-n.z) + Num.fin I.cx) (-I.fx * Complex.arg ⟨-c.z, -c.x⟩ + I.cx) :=
    (((Num.is_fin I.fx).neg.mul ha).add (Num.is_fin I.cx))
  cases k with
  | rectilinear => exact absurd rfl hk
  | cylindrical =>
    simp only [Projection.imageFromCamera, imageFromCameraCyl, hsn]
    have hY : Num.Is (-(Num.fin I.fy) * n.y / Num.sqrt (n.x.npow 2 + n.z.npow 2) + Num.fin I.cy) (-I.fy * (c.y / Real.sqrt (c.x ^ 2 + c.z ^ 2)) + I.cy) :=
      ((((Num.is_fin I.fy).neg.mul hy).div hn hρ.ne').add (Num.is_fin I.cy)).congr (by ring)
    unfold projCyl
    simp only
    rw [if_neg hY.ne_nan]
    exact ⟨hX, hY⟩
  | equirectangular =>
    simp only [Projection.imageFromCamera, imageFromCameraEqui, hsn]
    exact ⟨hX, (((Num.is_fin I.fy).neg.mul (hy.arctan2 hn (Or.inr hρ))).add (Num.is_fin I.cy))⟩

theorem shift_bound {m1 m2 u d r D : ℝ} (hr : 0 < r) (h : D ≤ m1 * d + m2 * u * r) : 2 * D / r ≤ 2 * m1 * (d / r) + 2 * m2 * u := by
  rw [div_le_iff₀ hr]
  have : (2 * m1 * (d / r) + 2 * m2 * u) * r = 2 * (m1 * d + m2 * u * r) := by
    field_simp
  rw [this]
  linarith

/-- The computed image of a point in a panorama. -/
theorem pan_point (k : Kind) (hk : k ≠ .rectilinear) (I : Intr) {u d : ℝ} (hu : 0 ≤ u) (hu1 : u ≤ 1 / 1000) {c v : V3 ℝ}
    (h1 : |v.x - c.x| ≤ d) (h2 : |v.y - c.y| ≤ d) (h3 : |v.z - c.z| ≤ d) (hz : 2 * minDepth ≤ |c.z|) (hfar : 8 * d ≤ |c.z|)
    (hs : c.z < 0 ∨ d < |c.x|) {out : V2 Num} (ho : ImagePan u k I v out) {n : V3 Num} (hn : n.Is c) (hide : Bool) :
    ∃ q q0 : V2 ℝ, out.Is q ∧ (Projection.imageFromCamera k I n hide).Is q0 ∧
      |q.x - q0.x| ≤ (7 * (d / Real.sqrt (c.x ^ 2 + c.z ^ 2)) + 25 * u) * (|I.fx| + |q0.x - I.cx|) + u * |I.cx| ∧
      |q.y - q0.y| ≤ (7 * (d / Real.sqrt (c.x ^ 2 + c.z ^ 2)) + 25 * u) * (|I.fy| + |q0.y - I.cy|) + u * |I.cy| := by
  have hmd : (1 : ℝ) / 10 ^ 10 = minDepth := by norm_num [minDepth]
  have hmp : 0 < minDepth := by norm_num [minDepth]
  have hd0 := (abs_nonneg _).trans h1
  have hz0 : 0 < |c.z| := by linarith
  have hz0' : c.z ≠ 0 := abs_pos.1 hz0
  have hs' : c.x ≠ 0 ∨ c.z < 0 := by
    rcases hs with h | h
    · exact Or.inr h
    · exact Or.inl (abs_pos.1 (by linarith))
  have hq0 := pan_is k hk I hn (by linarith) hs' hide
  obtain ⟨r, hr⟩ : ∃ r, r = Real.sqrt (c.x ^ 2 + c.z ^ 2) := ⟨_, rfl⟩
  have hrz : |c.z| ≤ r := by
    rw [hr, ← Real.sqrt_sq_eq_abs]
    exact Real.sqrt_le_sqrt (by nlinarith [sq_nonneg c.x])
  have hr0 : 0 < r := by linarith
  have hvz : |c.z| / 2 ≤ |v.z| := by
    have := abs_sub_abs_le_abs_sub c.z v.z
    rw [abs_sub_comm] at this
    linarith
  have hvz0 : v.z ≠ 0 := abs_pos.1 (by linarith)
  unfold ImagePan at ho
  rw [hmd, if_neg (by linarith)] at ho
  obtain ⟨h, b, x, nn, y, i1, i2, i3, i4, i5, hq⟩ := ho
  rw [← hr] at hq0 ⊢
  -- the horizontal angle
  have hside : (0 < -c.z ∧ 0 < -v.z) ∨ (0 < -c.x ∧ 0 < -v.x) ∨ (-c.x < 0 ∧ -v.x < 0) := by
    have g1 := abs_le.1 h1
    have g3 := abs_le.1 h3
    rcases hs with h | h
    · left
      rw [abs_of_neg h] at hfar hz0
      constructor <;> linarith
    · right
      rcases lt_abs.1 h with h | h
      · right; constructor <;> linarith
      · left; constructor <;> linarith
  have hv2 : v.x ≠ 0 ∨ v.z < 0 := by
    rcases hside with ⟨-, h⟩ | ⟨-, h⟩ | ⟨-, h⟩
    · right; linarith
    · left; intro h0; rw [h0] at h; simp at h
    · left; intro h0; rw [h0] at h; simp at h
  obtain ⟨eh, heh, rfl⟩ := i1.form hu (hv2.imp (fun h => neg_ne_zero.2 h) (fun h => by linarith))
  have hcn : ‖(⟨-c.z, -c.x⟩ : ℂ)‖ = r := by
    rw [hr, Complex.norm_def, Complex.normSq_mk]; ring_nf
  have hA : |Complex.arg ⟨-v.z, -v.x⟩ - Complex.arg ⟨-c.z, -c.x⟩| ≤ 4 * (d / r) := by
    have := arg_shift (v := ⟨-c.z, -c.x⟩) (w := ⟨-v.z, -v.x⟩) (a := d) (b := d) (by simp only; rw [show -v.z - -c.z = -(v.z - c.z) by ring, abs_neg]; exact h3)
      (by simp only; rw [show -v.x - -c.x = -(v.x - c.x) by ring, abs_neg]; exact h1) (by rw [hcn]; linarith) (by rw [hcn]; exact hr0) hside
    rw [hcn] at this
    refine this.trans (le_of_eq ?_)
    ring
  obtain ⟨eb, heb, rfl⟩ := i2.form hu
  have one : ∀ {e : ℝ}, |e - 1| ≤ u → |e - 1| ≤ 1 * u := fun h => by linarith
  have two : ∀ {e f : ℝ}, |e - 1| ≤ u → |f - 1| ≤ u → |e * f - 1| ≤ 2001 / 1000 * u := fun he hf =>
    fac_lin hu hu1 (by norm_num) (by norm_num) (one he) (one hf) (by norm_num)
  have hX := pan_pixel_near hu hu1 hA (two heh heb) (by
    rw [show -I.fx * (Complex.arg ⟨-v.z, -v.x⟩ * (eh * eb)) = -I.fx * (Complex.arg ⟨-v.z, -v.x⟩ * eh) * eb by ring]
    exact i3)
  have hdr : 0 ≤ d / r := by positivity
  have fin : ∀ {f q a D : ℝ}, 0 ≤ D → |q| ≤ 11 / 10 * D * |f| + 4 * u * |a| → D ≤ 6 * (d / r) + 18 * u →
      |q| ≤ (7 * (d / r) + 25 * u) * (|f| + |a|) := by
    intro f q a D hD0 hq hD
    have t1 := mul_le_mul_of_nonneg_right hD (abs_nonneg f)
    have t2 : 0 ≤ (d / r) * |f| := by positivity
    have t3 : 0 ≤ (d / r) * |a| := by positivity
    have t4 : 0 ≤ u * |f| := by positivity
    have t5 : 0 ≤ u * |a| := by positivity
    linarith
  -- the length
  obtain ⟨en, hen, rfl⟩ := hyp_vec hu hu1 hvz0 i4
  obtain ⟨r', hr'⟩ : ∃ r', r' = Real.sqrt (v.x ^ 2 + v.z ^ 2) := ⟨_, rfl⟩
  rw [← hr'] at i5
  have hrr : |r' - r| ≤ 2 * d := by
    rw [hr', hr]
    have := norm_shift c.x c.z v.x v.z
    linarith
  have hen' := abs_le.1 hen
  have hrr' := abs_le.1 hrr
  have hr'0 : 0 ≤ r' := by rw [hr']; exact Real.sqrt_nonneg _
  have hlen : |r' * en - r| ≤ 2 * d + 7 * u * r := by
    have e : r' * en - r = (r' - r) + r' * (en - 1) := by ring
    rw [e]
    refine (abs_add_le _ _).trans ?_
    rw [abs_mul, abs_of_nonneg hr'0]
    have h5 : r' ≤ 5 / 4 * r := by linarith
    have := mul_le_mul h5 hen (abs_nonneg _) (by positivity)
    linarith [mul_nonneg hu hr0.le]
  have hlen' := abs_le.1 hlen
  have hur : u * r ≤ r / 1000 := by
    have := mul_le_mul_of_nonneg_right hu1 hr0.le
    linarith
  have hn0 : r / 2 ≤ r' * en := by linarith
  refine ⟨⟨x, y⟩, _, hq, hq0, ?_, ?_⟩
  · simp only
    have := fin (f := I.fx) (q := 11 / 10 * (4 * (d / r)) * |I.fx| + 4 * u * |-I.fx * Complex.arg ⟨-c.z, -c.x⟩ + I.cx - I.cx|)
      (a := -I.fx * Complex.arg ⟨-c.z, -c.x⟩ + I.cx - I.cx) (by positivity) (le_of_eq (abs_of_nonneg (by positivity))) (by linarith : 4 * (d / r) ≤ _)
    rw [abs_of_nonneg (by positivity)] at this
    linarith
  · simp only
    cases k with
    | rectilinear => exact absurd rfl hk
    | cylindrical =>
      simp only at i5 ⊢
      obtain ⟨w, g, j1, j2, j3⟩ := i5
      obtain ⟨ew, hew, rfl⟩ := j1.form hu
      obtain ⟨eg, heg, rfl⟩ := j2.form hu
      obtain ⟨n', hn'⟩ : ∃ n', n' = r' * en := ⟨_, rfl⟩
      rw [← hn'] at hlen hn0 j3
      have hn'0 : 0 < n' := by linarith
      have hB : |v.y / n' - c.y / r| ≤ 2 * (d / r) + |c.y / r| * (4 * (d / r) + 14 * u) := by
        have e : v.y / n' - c.y / r = (v.y - c.y) / n' + c.y / r * ((r - n') / n') := by field_simp; ring
        rw [e]
        refine (abs_add_le _ _).trans ?_
        rw [abs_div, abs_mul, abs_div (r - n'), abs_of_pos hn'0, abs_sub_comm r n']
        have q1 : |v.y - c.y| / n' ≤ 2 * (d / r) := by
          rw [div_le_iff₀ hn'0]
          have : 2 * (d / r) * (r / 2) = d := by field_simp
          have := mul_le_mul_of_nonneg_left hn0 (by positivity : 0 ≤ 2 * (d / r))
          linarith
        have q2 : |n' - r| / n' ≤ 4 * (d / r) + 14 * u := by
          rw [div_le_iff₀ hn'0]
          have : (4 * (d / r) + 14 * u) * (r / 2) = 2 * d + 7 * u * r := by field_simp; ring
          have := mul_le_mul_of_nonneg_left hn0 (by positivity : 0 ≤ 4 * (d / r) + 14 * u)
          linarith
        have := mul_le_mul_of_nonneg_left q2 (abs_nonneg (c.y / r))
        linarith
      have hY := pan_pixel_near hu hu1 hB (two hew heg) (by
        rw [show -I.fy * (v.y / n' * (ew * eg)) = -I.fy * v.y * ew / n' * eg by ring]
        exact j3)
      refine hY.trans ?_
      rw [add_sub_cancel_right]
      have ea : |-I.fy * (c.y / r)| = |I.fy| * |c.y / r| := by rw [abs_mul, abs_neg]
      rw [ea]
      have t1 : 0 ≤ (d / r) * |I.fy| := by positivity
      have t2 : 0 ≤ (d / r) * (|I.fy| * |c.y / r|) := by positivity
      have t3 : 0 ≤ u * |I.fy| := by positivity
      have t4 : 0 ≤ u * (|I.fy| * |c.y / r|) := by positivity
      linarith
    | equirectangular =>
      simp only at i5 ⊢
      obtain ⟨w, g, j1, j2, j3⟩ := i5
      obtain ⟨ew, hew, rfl⟩ := j1.form hu (Or.inr (by linarith))
      obtain ⟨eg, heg, rfl⟩ := j2.form hu
      have hvn : r ≤ ‖(⟨r, c.y⟩ : ℂ)‖ := by
        have := Complex.abs_re_le_norm ⟨r, c.y⟩
        simp only [abs_of_pos hr0] at this
        exact this
      have hB : |Complex.arg ⟨r' * en, v.y⟩ - Complex.arg ⟨r, c.y⟩| ≤ 6 * (d / r) + 14 * u := by
        have := arg_shift (v := ⟨r, c.y⟩) (w := ⟨r' * en, v.y⟩) hlen h2 (by linarith) (by linarith) (Or.inl ⟨hr0, by simp only; linarith⟩)
        refine this.trans ?_
        refine le_trans (div_le_div_of_nonneg_left (by positivity) hr0 hvn) ?_
        refine (shift_bound (m1 := 3) (m2 := 7) (u := u) (d := d) hr0 (by linarith)).trans (le_of_eq ?_)
        ring
      have hY := pan_pixel_near hu hu1 hB (two hew heg) (by
        rw [show -I.fy * (Complex.arg ⟨r' * en, v.y⟩ * (ew * eg)) = -I.fy * (Complex.arg ⟨r' * en, v.y⟩ * ew) * eg by ring]
        exact j3)
      have := fin (f := I.fy) (q := 11 / 10 * (6 * (d / r) + 14 * u) * |I.fy| + 4 * u * |-I.fy * Complex.arg ⟨r, c.y⟩ + I.cy - I.cy|)
        (a := -I.fy * Complex.arg ⟨r, c.y⟩ + I.cy - I.cy) (by positivity) (le_of_eq (abs_of_nonneg (by positivity))) (by linarith)
      rw [abs_of_nonneg (by positivity)] at this
      linarith

end Rounded

open Projection Rounded Camera in
/-- The image of a point in a panorama is accurate up to rounding errors, if the entries of the rotation matrix are accurate up to `e`.  The point must be
away from the plane of the camera, and if it is behind the camera, away from the cut of the panorama. -/
theorem C157_points (k : Kind) (hk : k ≠ .rectilinear) (I : Intr) (u e : ℝ) (hu : 0 ≤ u) (hu1 : u ≤ 1 / 100000) (he1 : e ≤ 1 / 1000) (o : Orient)
    (R : M3) (hR : Near e R o.mat.R) (P : V3 ℝ) (hide : Bool) (c : V3 ℝ)
    (hc : (Spatial.cameraFromSpace o.mat P.num).Is c) (hz : 2 * minDepth ≤ |c.z|) (hfar : 8 * ((e + 6 * u) * size (P - o.pos)) ≤ |c.z|)
    (hs : c.z < 0 ∨ (e + 6 * u) * size (P - o.pos) < |c.x|) (out : V2 Num) (ho : ImageFromSpacePan u k I o.pos R P out) :
    ∃ q q0 : V2 ℝ, out.Is q ∧ (imageFromSpace ⟨k, I, o, noDistortion⟩ P.num hide).Is q0 ∧
      |q.x - q0.x| ≤ (7 * ((e + 6 * u) * size (P - o.pos) / Real.sqrt (c.x ^ 2 + c.z ^ 2)) + 25 * u) * (|I.fx| + |q0.x - I.cx|) + u * |I.cx| ∧
      |q.y - q0.y| ≤ (7 * ((e + 6 * u) * size (P - o.pos) / Real.sqrt (c.x ^ 2 + c.z ^ 2)) + 25 * u) * (|I.fy| + |q0.y - I.cy|) + u * |I.cy| := by
  obtain ⟨v, ⟨d, h1, h2, h3, k1, k2, k3⟩, hi⟩ := ho
  obtain ⟨n1, n2, n3, n4, n5, n6, n7, n8, n9⟩ := hR
  have he : 0 ≤ e := (abs_nonneg _).trans n1
  have hb := mat_le o
  simp only [Near, sub_zero] at hb
  obtain ⟨b1, b2, b3, b4, b5, b6, b7, b8, b9⟩ := hb
  have hcc : c = o.mat.R.applyR (P - o.pos) := camR_of_is ⟨k, I, o, noDistortion⟩ hc
  have x1 := row_near (d := P - o.pos) hu hu1 he he1 (h1.two hu) (h2.two hu) (h3.two hu) n1 n2 n3 b1 b2 b3 k1
  have x2 := row_near (d := P - o.pos) hu hu1 he he1 (h1.two hu) (h2.two hu) (h3.two hu) n4 n5 n6 b4 b5 b6 k2
  have x3 := row_near (d := P - o.pos) hu hu1 he he1 (h1.two hu) (h2.two hu) (h3.two hu) n7 n8 n9 b7 b8 b9 k3
  have y1 : |v.x - c.x| ≤ (e + 6 * u) * size (P - o.pos) := by rw [hcc]; exact x1
  have y2 : |v.y - c.y| ≤ (e + 6 * u) * size (P - o.pos) := by rw [hcc]; exact x2
  have y3 : |v.z - c.z| ≤ (e + 6 * u) * size (P - o.pos) := by rw [hcc]; exact x3
  exact pan_point k hk I hu (by linarith) y1 y2 y3 hz hfar hs hi hc hide

open Projection Rounded Camera in
/-- With doubles and functions that are accurate up to `2 ^ -50`, images of usual size are accurate to a millionth of a pixel. -/
theorem C157_double (k : Kind) (hk : k ≠ .rectilinear) (I : Intr) (o : Orient) (ho : Turn o) (R : M3) (hR : Rotation (1 / 2 ^ 50) o R) (P : V3 ℝ)
    (hide : Bool) (c : V3 ℝ) (hc : (Spatial.cameraFromSpace o.mat P.num).Is c) (hz : 2 * minDepth ≤ |c.z|)
    (hfar : size (P - o.pos) ≤ 10 * |c.z|) (hs : c.z < 0 ∨ size (P - o.pos) ≤ 10 ^ 9 * |c.x|)
    (hf : |I.fx| ≤ 10 ^ 4 ∧ |I.fy| ≤ 10 ^ 4) (hcx : |I.cx| ≤ 10 ^ 4 ∧ |I.cy| ≤ 10 ^ 4) (q0 : V2 ℝ)
    (hq : (imageFromSpace ⟨k, I, o, noDistortion⟩ P.num hide).Is q0)
    (hin : |q0.x - I.cx| ≤ 10 ^ 5 ∧ |q0.y - I.cy| ≤ 10 ^ 5) (out : V2 Num)
    (h : ImageFromSpacePan (1 / 2 ^ 50) k I o.pos R P out) :
    ∃ q : V2 ℝ, out.Is q ∧ |q.x - q0.x| ≤ 2 / 10 ^ 6 ∧ |q.y - q0.y| ≤ 2 / 10 ^ 6 := by
  have hmp : 0 < minDepth := by norm_num [minDepth]
  have hn := C151_matrix o ho (1 / 2 ^ 50) (by norm_num) (by norm_num) R hR
  have hz0 : 0 < |c.z| := by linarith
  have hrz : |c.z| ≤ Real.sqrt (c.x ^ 2 + c.z ^ 2) := by
    rw [← Real.sqrt_sq_eq_abs]
    exact Real.sqrt_le_sqrt (by nlinarith [sq_nonneg c.x])
  have hS : 0 ≤ size (P - o.pos) := by unfold size; positivity
  have hcz : |c.z| ≤ size (P - o.pos) := by
    have hb := mat_le o
    simp only [Near, sub_zero] at hb
    obtain ⟨b1, b2, b3, b4, b5, b6, b7, b8, b9⟩ := hb
    have hcc : c = o.mat.R.applyR (P - o.pos) := camR_of_is ⟨k, I, o, noDistortion⟩ hc
    rw [hcc]
    generalize P - o.pos = D
    simp only [M3.applyR, V3.dot, size]
    refine (abs_add_three _ _ _).trans ?_
    rw [abs_mul, abs_mul, abs_mul]
    nlinarith [abs_nonneg D.x, abs_nonneg D.y, abs_nonneg D.z]
  generalize hSd : size (P - o.pos) = S at *
  obtain ⟨q, q1, h1, h2, h3, h4⟩ := C157_points k hk I (1 / 2 ^ 50) (176 * (1 / 2 ^ 50)) (by norm_num) (by norm_num) (by norm_num) o R hn P hide c hc hz
    (by rw [hSd]; linarith) (by
      rw [hSd]
      refine hs.imp_right fun h => ?_
      have : 0 < S := by linarith
      have : 0 < |c.x| := by
        by_contra hh
        rw [not_lt] at hh
        linarith
      linarith) out h
  obtain rfl := V2.Is.unique h2 hq
  rw [hSd] at h3 h4
  have hr : (176 * (1 / 2 ^ 50) + 6 * (1 / 2 ^ 50)) * S / Real.sqrt (c.x ^ 2 + c.z ^ 2) ≤ 1820 / 2 ^ 50 := by
    rw [div_le_iff₀ (by linarith)]
    linarith
  have hr0 : 0 ≤ (176 * (1 / 2 ^ 50) + 6 * (1 / 2 ^ 50)) * S / Real.sqrt (c.x ^ 2 + c.z ^ 2) := by positivity
  generalize (176 * (1 / 2 ^ 50) + 6 * (1 / 2 ^ 50)) * S / Real.sqrt (c.x ^ 2 + c.z ^ 2) = D at h3 h4 hr hr0
  have fin : ∀ {a b c x : ℝ}, |a| ≤ 10 ^ 4 → |b| ≤ 10 ^ 5 → |c| ≤ 10 ^ 4 → x ≤ (7 * D + 25 * (1 / 2 ^ 50)) * (|a| + |b|) + 1 / 2 ^ 50 * |c| → x ≤ 2 / 10 ^ 6 := by
    intro a b c x ha hb hc hx
    have : (7 * D + 25 * (1 / 2 ^ 50)) * (|a| + |b|) ≤ (7 * (1820 / 2 ^ 50) + 25 * (1 / 2 ^ 50)) * (10 ^ 4 + 10 ^ 5) := by
      apply mul_le_mul <;> first | linarith | positivity
    norm_num at this ⊢
    norm_num at hx hc
    linarith
  exact ⟨q, h1, fin hf.1 hin.1 hcx.1 h3, fin hf.2 hin.2 hcx.2 h4⟩

namespace Rounded

open Projection Camera

/-- Without rounding errors the relation describes the exact projection, except for the side of points straight behind the camera. -/
theorem ImagePan.same (k : Kind) (hk : k ≠ .rectilinear) {I : Intr} {n : V3 Num} {c : V3 ℝ} (h : n.Is c) (hs : c.x ≠ 0 ∨ c.z < 0 ∨ |c.z| < minDepth)
    {hide : Bool} {out : V2 Num} (ho : ImagePan 0 k I c out) : V2.Same out (Projection.imageFromCamera k I n hide) := by
  have hmd : (1 : ℝ) / 10 ^ 10 = minDepth := by norm_num [minDepth]
  unfold ImagePan at ho
  split_ifs at ho with h1
  · cases k with
    | rectilinear => exact absurd rfl hk
    | cylindrical =>
      refine Or.inl ⟨ho, ?_⟩
      simp only [Projection.imageFromCamera, imageFromCameraCyl]
      rw [snap_near h.2.2 h1]
      exact projCyl_zero I
    | equirectangular =>
      simp only at ho
      obtain ⟨a, b, x, i1, i2, i3, hq⟩ := ho
      rw [Rd.zero_iff] at i1 i2 i3
      subst i1 i2 i3
      refine Or.inr ⟨_, hq, ?_⟩
      simp only [Projection.imageFromCamera, imageFromCameraEqui]
      rw [snap_near h.2.2 h1]
      refine (projEqui_zero I).congr ?_
      ext <;> simp
      ring
  · rw [hmd, not_lt] at h1
    have hs' : c.x ≠ 0 ∨ c.z < 0 := hs.imp_right (Or.resolve_right · (not_lt.2 h1))
    have hz0 : c.z ≠ 0 := by
      intro h0
      rw [h0, abs_zero] at h1
      norm_num [minDepth] at h1
    have hq0 := pan_is k hk I h h1 hs' hide
    obtain ⟨a, b, x, m, y, i1, i2, i3, i4, i5, hq⟩ := ho
    obtain ⟨ea, hea, rfl⟩ := i1.form le_rfl (hs'.imp (fun h => neg_ne_zero.2 h) (fun h => by linarith))
    obtain ⟨en, hen, rfl⟩ := hyp_vec le_rfl (by norm_num) hz0 i4
    have ea1 : ea = 1 := by
      have := abs_nonpos_iff.1 hea
      linarith
    have en1 : en = 1 := by
      have := abs_nonpos_iff.1 (hen.trans (by norm_num))
      linarith
    rw [Rd.zero_iff] at i2 i3
    subst ea1 en1 i2 i3
    have hρ : 0 < Real.sqrt (c.x ^ 2 + c.z ^ 2) := Real.sqrt_pos.2 (by positivity)
    refine Or.inr ⟨_, hq, hq0.congr ?_⟩
    cases k with
    | rectilinear => exact absurd rfl hk
    | cylindrical =>
      simp only at i5 ⊢
      obtain ⟨w, g, j1, j2, j3⟩ := i5
      rw [Rd.zero_iff] at j1 j2 j3
      subst j1 j2 j3
      ext <;> simp
      ring
    | equirectangular =>
      simp only at i5 ⊢
      obtain ⟨w, g, j1, j2, j3⟩ := i5
      obtain ⟨ew, hew, rfl⟩ := j1.form le_rfl (Or.inr (by rw [mul_one]; exact hρ))
      have ew1 : ew = 1 := by
        have := abs_nonpos_iff.1 hew
        linarith
      rw [Rd.zero_iff] at j2 j3
      subst ew1 j2 j3
      ext <;> simp

theorem RayPan.exact {u : ℝ} (hu : 0 ≤ u) (k : Kind) (hk : k ≠ .rectilinear) (I : Intr) (p : V2 ℝ) : RayPan u k I p false (rayR k I p) := by
  cases k with
  | rectilinear => exact absurd rfl hk
  | cylindrical =>
    refine ⟨_, _, _, _, _, _, _, Rd.exact hu _, Rd.exact hu _, Rd.exact hu _, Rd.exact hu _, Rd.exact hu _, Rd.exact hu _, rfl, ?_⟩
    simp only [Bool.false_eq_true, if_false, rayR]
    ext <;> simp
  | equirectangular =>
    refine ⟨_, _, _, _, _, _, _, Rd.exact hu _, Rd.exact hu _, Rd.exact hu _, Rd.exact hu _, Rd.exact hu _, Rd.exact hu _, Rd.exact hu _, ?_⟩
    simp only [Bool.false_eq_true, if_false, rayR]
    ext <;> simp

/-- Without rounding errors the relation describes the exact ray. -/
theorem RayPan.unique {k : Kind} (hk : k ≠ .rectilinear) {I : Intr} {p : V2 ℝ} {ray : V3 ℝ} (h : RayPan 0 k I p false ray) : ray = rayR k I p := by
  obtain ⟨a, α, s, z, b, β, y, h1, h2, h3, h4, h5, h6, h7, hn⟩ := h
  rw [Rd.zero_iff] at h1 h2 h3 h4 h5 h6
  subst h1 h2 h3 h4 h5 h6
  simp only [Bool.false_eq_true, if_false] at hn
  subst hn
  cases k with
  | rectilinear => exact absurd rfl hk
  | cylindrical =>
    simp only at h7
    subst h7
    ext <;> simp [rayR]
  | equirectangular =>
    simp only [Rd.zero_iff] at h7
    subst h7
    ext <;> simp [rayR]

theorem ImagePan.exists {u : ℝ} (hu : 0 ≤ u) (k : Kind) (I : Intr) (P : V3 ℝ) : ∃ out, ImagePan u k I P out := by
  unfold ImagePan
  split_ifs
  · cases k with
    | equirectangular => exact ⟨_, _, _, _, Rd.exact hu _, Rd.exact hu _, Rd.exact hu _, V2.is_num _⟩
    | rectilinear => exact ⟨_, rfl⟩
    | cylindrical => exact ⟨_, rfl⟩
  · cases k with
    | equirectangular =>
      exact ⟨_, _, _, _, _, _, Or.inl (Rd.exact hu _), Rd.exact hu _, Rd.exact hu _, ⟨_, _, _, Rd.exact hu _, Rd.exact hu _, Rd.exact hu _, Rd.exact hu _⟩,
        ⟨_, _, Or.inl (Rd.exact hu _), Rd.exact hu _, Rd.exact hu _⟩, V2.is_num _⟩
    | rectilinear =>
      exact ⟨_, _, _, _, _, _, Or.inl (Rd.exact hu _), Rd.exact hu _, Rd.exact hu _, ⟨_, _, _, Rd.exact hu _, Rd.exact hu _, Rd.exact hu _, Rd.exact hu _⟩,
        ⟨_, _, Rd.exact hu _, Rd.exact hu _, Rd.exact hu _⟩, V2.is_num _⟩
    | cylindrical =>
      exact ⟨_, _, _, _, _, _, Or.inl (Rd.exact hu _), Rd.exact hu _, Rd.exact hu _, ⟨_, _, _, Rd.exact hu _, Rd.exact hu _, Rd.exact hu _, Rd.exact hu _⟩,
        ⟨_, _, Rd.exact hu _, Rd.exact hu _, Rd.exact hu _⟩, V2.is_num _⟩

theorem ImageFromSpacePan.exists {u : ℝ} (hu : 0 ≤ u) (k : Kind) (I : Intr) (t : V3 ℝ) (R : M3) (P : V3 ℝ) :
    ∃ out, ImageFromSpacePan u k I t R P out := by
  obtain ⟨out, h⟩ := ImagePan.exists hu k I (R.applyR (P - t))
  exact ⟨out, _, ⟨P - t, Rd.exact hu _, Rd.exact hu _, Rd.exact hu _, Dot.exact hu _ _, Dot.exact hu _ _, Dot.exact hu _ _⟩, h⟩

end Rounded

open Projection Rounded Camera in
/-- Without rounding errors the relations describe the exact model: the rays, and the images of all points but those straight behind the camera. -/
theorem C157_exact (k : Kind) (hk : k ≠ .rectilinear) (I : Intr) (o : Orient) (ho : Turn o) (hide : Bool) :
    (∀ (p : V2 ℝ) (ray : V3 ℝ), I.fx ≠ 0 → I.fy ≠ 0 → RayPan 0 k I p false ray → (Projection.getRay k I p.num).Is ray) ∧
    ∀ (P c : V3 ℝ) (R : M3) (out : V2 Num), (Spatial.cameraFromSpace o.mat P.num).Is c → (c.x ≠ 0 ∨ c.z < 0 ∨ |c.z| < minDepth) → Rotation 0 o R →
      ImageFromSpacePan 0 k I o.pos R P out → V2.Same out (imageFromSpace ⟨k, I, o, noDistortion⟩ P.num hide) := by
  refine ⟨fun p ray hfx hfy h => ?_, fun P c R out hc hs hR h => ?_⟩
  · rw [h.unique hk]
    exact getRay_is k hfx hfy (V2.is_num p)
  · have hR' : R = o.mat.R := Near.zero (by simpa using C151_matrix o ho 0 le_rfl (by norm_num) R hR)
    subst hR'
    obtain ⟨v, ⟨d, h1, h2, h3, k1, k2, k3⟩, hi⟩ := h
    rw [Rd.zero_iff] at h1 h2 h3
    have hcc : c = o.mat.R.applyR (P - o.pos) := camR_of_is ⟨k, I, o, noDistortion⟩ hc
    have hv : v = c := by
      have hd : d = P - o.pos := by ext <;> assumption
      subst hd
      rw [hcc]
      ext
      · exact k1.zero
      · exact k2.zero
      · exact k3.zero
    subst hv
    exact ImagePan.same k hk hc hs hi

open Rounded in
example : ∃ ray, RayPan (1 / 2 ^ 53) .equirectangular ⟨100, 100, 50, 25, 100, 50⟩ ⟨50, 26⟩ false ray ∧ Projection.minDepth ≤ |ray.z| ∧
    (1 + 3 * (1 / 2 ^ 53)) * |(50 : ℝ) - 50| < Real.pi * |(100 : ℝ)| ∧ (1 + 3 * (1 / 2 ^ 53)) * |(26 : ℝ) - 25| < Real.pi / 2 * |(100 : ℝ)| := by
  refine ⟨_, RayPan.exact (by norm_num) _ (by simp) _ _, by norm_num [Projection.rayR, Projection.minDepth], ?_, ?_⟩
  · have := Real.pi_pos
    norm_num
    exact this
  · have := Real.pi_gt_three
    norm_num
    linarith

open Rounded in
example : ∃ out, ImageFromSpacePan (1 / 2 ^ 53) .cylindrical ⟨100, 100, 50, 25, 100, 50⟩ exOrient.pos exOrient.mat.R ⟨1, 2, 0⟩ out ∧
    ∃ q : V2 ℝ, out.Is q := by
  obtain ⟨out, h⟩ := ImageFromSpacePan.exists (u := 1 / 2 ^ 53) (by norm_num) .cylindrical ⟨100, 100, 50, 25, 100, 50⟩ exOrient.pos exOrient.mat.R ⟨1, 2, 0⟩
  obtain ⟨q, -, hq, -⟩ := C157_points .cylindrical (by simp) _ (1 / 2 ^ 53) 0 (by norm_num) (by norm_num) (by norm_num) exOrient _ (Near.refl le_rfl _) _ true _
    exOrient_cam (by norm_num [Projection.minDepth])
    (by norm_num [size, exOrient, Camera.Orient.pos, abs_of_nonneg, abs_of_nonpos]) (Or.inl (by norm_num)) out h
  exact ⟨out, h, q, hq⟩

open Rounded in
example : ∃ R out, Rotation (1 / 2 ^ 50) exOrient R ∧
    ImageFromSpacePan (1 / 2 ^ 50) .equirectangular ⟨100, 100, 50, 25, 100, 50⟩ exOrient.pos R ⟨1, 2, 0⟩ out ∧ ∃ q : V2 ℝ, out.Is q := by
  obtain ⟨out, h⟩ := ImageFromSpacePan.exists (u := 1 / 2 ^ 50) (by norm_num) .equirectangular ⟨100, 100, 50, 25, 100, 50⟩ exOrient.pos exOrient.mat.R ⟨1, 2, 0⟩
  have hR : Rotation (1 / 2 ^ 50) exOrient exOrient.mat.R := Rotation.exact (by norm_num) _ exOrient_turn
  have ha : ∀ w : ℂ, |-100 * Complex.arg w| ≤ 10 ^ 5 := fun w => by
    have := Complex.abs_arg_le_pi w
    have := Real.pi_lt_four
    rw [abs_mul]
    norm_num
    linarith
  obtain ⟨q, hq, -⟩ := C157_double .equirectangular (by simp) ⟨100, 100, 50, 25, 100, 50⟩ exOrient exOrient_turn _ hR ⟨1, 2, 0⟩ true _ exOrient_cam
    (by norm_num [Projection.minDepth]) (by norm_num [size, exOrient, Camera.Orient.pos, abs_of_nonneg, abs_of_nonpos]) (Or.inl (by norm_num))
    ⟨by norm_num, by norm_num⟩ ⟨by norm_num, by norm_num⟩ _
    (pan_is .equirectangular (by simp) ⟨100, 100, 50, 25, 100, 50⟩ exOrient_cam (by norm_num [Projection.minDepth]) (Or.inr (by norm_num)) true)
    ⟨by rw [add_sub_cancel_right]; exact ha _, by rw [add_sub_cancel_right]; exact ha _⟩ out h
  exact ⟨_, out, hR, h, q, hq⟩

open Rounded in
example : (Spatial.cameraFromSpace exOrient.mat (V3.num ⟨1, 2, 0⟩)).Is ⟨1, 2, -10⟩ ∧ Turn exOrient ∧ Rotation 0 exOrient exOrient.mat.R ∧
    ∃ out, ImageFromSpacePan 0 .equirectangular ⟨100, 100, 50, 25, 100, 50⟩ exOrient.pos exOrient.mat.R ⟨1, 2, 0⟩ out :=
  ⟨exOrient_cam, exOrient_turn, Rotation.exact le_rfl _ exOrient_turn, ImageFromSpacePan.exists le_rfl _ _ _ _ _⟩
