import Verif.Model.RoundedGps
import Verif.Props.RoundPan
import Verif.Proofs.Gps

/-! # C182: rounding errors of distances and positions from gps coordinates -/

namespace Rounded

open Geo

/-! ### half the chord between two places -/

/-- The square of half the chord between two places, angles in radians. -/
noncomputable def hv (φ1 o1 φ2 o2 : ℝ) : ℝ :=
  Real.sin ((φ2 - φ1) / 2) ^ 2 + Real.cos φ1 * Real.cos φ2 * Real.sin ((o2 - o1) / 2) ^ 2

noncomputable def vec (φ o : ℝ) : EuclideanSpace ℝ (Fin 3) := !₂[Real.cos φ * Real.cos o, Real.cos φ * Real.sin o, Real.sin φ]

theorem half_sq (x : ℝ) : Real.sin (x / 2) ^ 2 = (1 - Real.cos x) / 2 := by
  have := Real.cos_sq (x / 2)
  have h2 := Real.sin_sq_add_cos_sq (x / 2)
  rw [mul_div_cancel₀ x (two_ne_zero)] at this
  linarith

theorem vec_dist (φ1 o1 φ2 o2 : ℝ) : ‖vec φ1 o1 - vec φ2 o2‖ ^ 2 = 4 * hv φ1 o1 φ2 o2 := by
  rw [EuclideanSpace.norm_sq_eq, Fin.sum_univ_three]
  simp only [vec, hv, half_sq, Real.cos_sub, PiLp.sub_apply, Real.norm_eq_abs, sq_abs]
  simp
  have h1 := Real.sin_sq_add_cos_sq φ1
  have h2 := Real.sin_sq_add_cos_sq φ2
  have h3 := Real.sin_sq_add_cos_sq o1
  have h4 := Real.sin_sq_add_cos_sq o2
  grobner

theorem hv_nonneg (φ1 o1 φ2 o2 : ℝ) : 0 ≤ hv φ1 o1 φ2 o2 := by
  have := vec_dist φ1 o1 φ2 o2
  have := sq_nonneg ‖vec φ1 o1 - vec φ2 o2‖
  linarith

theorem sqrt_hv (φ1 o1 φ2 o2 : ℝ) : Real.sqrt (hv φ1 o1 φ2 o2) = ‖vec φ1 o1 - vec φ2 o2‖ / 2 := by
  rw [Real.sqrt_eq_iff_mul_self_eq (hv_nonneg _ _ _ _) (by positivity)]
  have := vec_dist φ1 o1 φ2 o2
  nlinarith

theorem vec_lip (φ o φ' o' : ℝ) : ‖vec φ' o' - vec φ o‖ ≤ |φ' - φ| + |o' - o| := by
  refine abs_le_of_sq_le_sq' ?_ (by positivity) |>.2
  rw [vec_dist]
  unfold hv
  have e : ∀ x : ℝ, Real.sin (x / 2) ^ 2 ≤ x ^ 2 / 4 := by
    intro x
    have := Real.abs_sin_le_abs (x := x / 2)
    have h := sq_le_sq.2 this
    nlinarith
  have h1 := e (φ - φ')
  have h2 := e (o - o')
  have h3 : Real.cos φ' * Real.cos φ ≤ 1 := by
    have := Real.abs_cos_le_one φ
    have := Real.abs_cos_le_one φ'
    refine (le_abs_self _).trans ?_
    rw [abs_mul]
    exact mul_le_one₀ (by assumption) (abs_nonneg _) (by assumption)
  have h4 := mul_le_mul_of_nonneg_right h3 (sq_nonneg (Real.sin ((o - o') / 2)))
  have h5 := sq_abs (φ' - φ)
  have h6 := sq_abs (o' - o)
  have h7 := mul_nonneg (abs_nonneg (φ' - φ)) (abs_nonneg (o' - o))
  nlinarith

/-- Half the chord changes by at most half of what the angles change by. -/
theorem hv_lip (φ1 o1 φ2 o2 φ1' o1' φ2' o2' : ℝ) : |Real.sqrt (hv φ1' o1' φ2' o2') - Real.sqrt (hv φ1 o1 φ2 o2)| ≤
    (|φ1' - φ1| + |o1' - o1| + |φ2' - φ2| + |o2' - o2|) / 2 := by
  rw [sqrt_hv, sqrt_hv]
  have h1 := vec_lip φ1 o1 φ1' o1'
  have h2 := vec_lip φ2 o2 φ2' o2'
  have h3 := abs_norm_sub_norm_le (vec φ1' o1' - vec φ2' o2') (vec φ1 o1 - vec φ2 o2)
  have e : vec φ1' o1' - vec φ2' o2' - (vec φ1 o1 - vec φ2 o2) = (vec φ1' o1' - vec φ1 o1) - (vec φ2' o2' - vec φ2 o2) := by abel
  rw [e] at h3
  have h4 := norm_sub_le (vec φ1' o1' - vec φ1 o1) (vec φ2' o2' - vec φ2 o2)
  rw [show ‖vec φ1' o1' - vec φ2' o2'‖ / 2 - ‖vec φ1 o1 - vec φ2 o2‖ / 2 = (‖vec φ1' o1' - vec φ2' o2'‖ - ‖vec φ1 o1 - vec φ2 o2‖) / 2 by ring,
    abs_div, abs_two]
  linarith

/-! ### the angles -/

theorem Deg2rad.rel {u d y : ℝ} (hu : 0 ≤ u) (hu1 : u ≤ 1 / 100000) (h : Deg2rad u d y) : ∃ g, |g - 1| ≤ 3001 / 1000 * u ∧ y = rad d * g := by
  obtain ⟨k, c, h1, h2, h3⟩ := h
  obtain ⟨e1, he1, rfl⟩ := h1.form hu
  obtain ⟨e2, he2, rfl⟩ := h2.form hu
  obtain ⟨e3, he3, rfl⟩ := h3.form hu
  refine ⟨e1 * e2 * e3, (fac_mul (fac_mul he1 he2) he3).trans ?_, by unfold rad; ring⟩
  nlinarith [mul_nonneg hu hu, mul_nonneg (mul_nonneg hu hu) hu]

theorem Deg2rad.lat {u d y : ℝ} (hu : 0 ≤ u) (hu1 : u ≤ 1 / 100000) (hd : |d| ≤ 90) (h : Deg2rad u d y) :
    |rad d| ≤ Real.pi / 2 ∧ |y - rad d| ≤ 473 / 100 * u := by
  obtain ⟨g, hg, rfl⟩ := h.rel hu hu1
  have hp := Real.pi_lt_d4
  have hp0 := Real.pi_pos
  have h1 : |rad d| ≤ Real.pi / 2 := by
    unfold rad
    rw [abs_mul, abs_of_pos (by positivity : 0 < Real.pi / 180)]
    nlinarith
  refine ⟨h1, ?_⟩
  rw [show rad d * g - rad d = rad d * (g - 1) by ring, abs_mul]
  have := mul_le_mul h1 hg (abs_nonneg _) (by positivity)
  nlinarith

theorem Deg2rad.lat_lt {u d y : ℝ} (hu : 0 ≤ u) (hu1 : u ≤ 1 / 100000) (hd : |d| ≤ 90 - 400 * u) (h : Deg2rad u d y) : 0 ≤ Real.cos y := by
  obtain ⟨g, hg, rfl⟩ := h.rel hu hu1
  have hp0 := Real.pi_pos
  have h1 : |rad d * g| ≤ Real.pi / 2 := by
    unfold rad
    have hg2 : |g| ≤ 1 + 3001 / 1000 * u := by
      have := abs_le.1 hg
      rw [abs_le]; constructor <;> linarith
    rw [abs_mul, abs_mul, abs_of_pos (by positivity : 0 < Real.pi / 180)]
    have h2 := mul_le_mul hd hg2 (abs_nonneg _) (by linarith)
    have h3 : (90 - 400 * u) * (1 + 3001 / 1000 * u) ≤ 90 := by nlinarith
    have h4 : |d| * |g| ≤ 90 := h2.trans h3
    have : |d| * (Real.pi / 180) * |g| = |d| * |g| * (Real.pi / 180) := by ring
    rw [this]
    nlinarith
  have := abs_le.1 h1
  exact Real.cos_nonneg_of_neg_pi_div_two_le_of_le this.1 this.2

theorem Deg2rad.lon {u d y : ℝ} (hu : 0 ≤ u) (hu1 : u ≤ 1 / 100000) (hd : |d| ≤ 360) (h : Deg2rad u d y) :
    |rad d| ≤ 2 * Real.pi ∧ |y - rad d| ≤ 1892 / 100 * u := by
  obtain ⟨g, hg, rfl⟩ := h.rel hu hu1
  have hp := Real.pi_lt_d4
  have hp0 := Real.pi_pos
  have h1 : |rad d| ≤ 2 * Real.pi := by
    unfold rad
    rw [abs_mul, abs_of_pos (by positivity : 0 < Real.pi / 180)]
    nlinarith
  refine ⟨h1, ?_⟩
  rw [show rad d * g - rad d = rad d * (g - 1) by ring, abs_mul]
  have := mul_le_mul h1 hg (abs_nonneg _) (by positivity)
  nlinarith

/-- Sums of non-negative terms with relative errors. -/
theorem rel_sum {A K f g c t : ℝ} (hA : 0 ≤ A) (hK : 0 ≤ K) (hf : |f - 1| ≤ c) (hg : |g - 1| ≤ c) (ht : 0 ≤ t) (h : t ^ 2 = A * f + K * g) :
    |t - Real.sqrt (A + K)| ≤ c * Real.sqrt (A + K) := by
  have hc := (abs_nonneg _).trans hf
  obtain ⟨s, hs⟩ : ∃ s, s = Real.sqrt (A + K) := ⟨_, rfl⟩
  have hs2 : s ^ 2 = A + K := by rw [hs]; exact Real.sq_sqrt (by positivity)
  have hs0 : 0 ≤ s := by rw [hs]; exact Real.sqrt_nonneg _
  rw [← hs]
  have f1 := abs_le.1 hf
  have g1 := abs_le.1 hg
  have b1 : t ^ 2 ≤ (1 + c) * s ^ 2 := by rw [h, hs2]; nlinarith
  have b2 : (1 - c) * s ^ 2 ≤ t ^ 2 := by rw [h, hs2]; nlinarith
  rw [abs_le]
  constructor
  · by_contra hcon
    push Not at hcon
    have : t < (1 - c) * s := by linarith
    have h3 : 0 ≤ (1 - c) * s := ht.trans this.le
    rcases hs0.eq_or_lt with h0 | h0
    · rw [← h0] at this; linarith
    have h4 : 0 ≤ 1 - c := by
      by_contra h5
      push Not at h5
      nlinarith
    have : t ^ 2 < ((1 - c) * s) ^ 2 := by nlinarith
    nlinarith [mul_nonneg h4 hc, sq_nonneg s, mul_nonneg (mul_nonneg h4 hc) (sq_nonneg s)]
  · by_contra hcon
    push Not at hcon
    have : (1 + c) * s < t := by linarith
    have h3 : 0 ≤ (1 + c) * s := by positivity
    have : ((1 + c) * s) ^ 2 < t ^ 2 := by nlinarith
    nlinarith [mul_nonneg hc (sq_nonneg s), mul_nonneg (mul_nonneg hc hc) (sq_nonneg s)]

theorem total {u S H T t a1 a2 a3 a4 : ℝ} (hu : 0 ≤ u) (hu1 : u ≤ 1 / 100000) (hS : S ≤ 1) (h1 : a1 ≤ 473 / 100 * u) (h2 : a2 ≤ 1892 / 100 * u)
    (h3 : a3 ≤ 473 / 100 * u) (h4 : a4 ≤ 1892 / 100 * u + 2522 / 100 * u) (k1 : |H - S| ≤ (a1 + a2 + a3 + a4) / 2) (k2 : |T - H| ≤ 316 / 100 * u)
    (k3 : |t - T| ≤ 1006 / 100 * u * T) : |t - S| ≤ 50 * u := by
  have s1 := abs_le.1 k1
  have s2 := abs_le.1 k2
  have s3 := abs_le.1 k3
  have hT : T ≤ 1001 / 1000 := by linarith
  have hm : 1006 / 100 * u * T ≤ 1008 / 100 * u := by nlinarith
  rw [abs_le]
  constructor <;> linarith

/-- What is computed for the square of half the chord. -/
theorem Haversine.near {u l1 n1 l2 n2 φ1 o1 φ2 o2 a t : ℝ} (hu : 0 ≤ u) (hu1 : u ≤ 1 / 100000) (hl1 : |l1| ≤ 90 - 400 * u) (hn1 : |n1| ≤ 360)
    (hl2 : |l2| ≤ 90 - 400 * u) (hn2 : |n2| ≤ 360) (d1 : Deg2rad u l1 φ1) (d2 : Deg2rad u n1 o1) (d3 : Deg2rad u l2 φ2) (d4 : Deg2rad u n2 o2)
    (h : Haversine u φ1 o1 φ2 o2 a) : 0 ≤ a ∧ (Rd u (Real.sqrt a) t → 0 ≤ t ∧ |t - Real.sqrt (hv (rad l1) (rad n1) (rad l2) (rad n2))| ≤ 50 * u) := by
  obtain ⟨dlon, dlat, x, y, s1, q1, c1, c2, p, s2, q2, r, k1, k2, k3, k4, k5, k6, k7, k8, k9, k10, k11, k12, k13⟩ := h
  have hc1 := d1.lat_lt hu hu1 hl1
  have hc2 := d3.lat_lt hu hu1 hl2
  obtain ⟨r1, e1⟩ := d1.lat hu hu1 (by linarith)
  obtain ⟨r2, e2⟩ := d2.lon hu hu1 hn1
  obtain ⟨r3, e3⟩ := d3.lat hu hu1 (by linarith)
  obtain ⟨r4, e4⟩ := d4.lon hu hu1 hn2
  obtain ⟨f1, hf1, rfl⟩ := k1.form hu
  obtain ⟨f2, hf2, rfl⟩ := k2.form hu
  obtain ⟨f3, hf3, rfl⟩ := k3.form hu
  obtain ⟨f4, hf4, rfl⟩ := k4.form hu
  obtain ⟨f5, hf5, rfl⟩ := k5.form hu
  obtain ⟨f6, hf6, rfl⟩ := k6.form hu
  obtain ⟨f7, hf7, rfl⟩ := k7.form hu
  obtain ⟨f8, hf8, rfl⟩ := k8.form hu
  obtain ⟨f9, hf9, rfl⟩ := k9.form hu
  obtain ⟨f10, hf10, rfl⟩ := k10.form hu
  obtain ⟨f11, hf11, rfl⟩ := k11.form hu
  obtain ⟨f12, hf12, rfl⟩ := k12.form hu
  obtain ⟨f13, hf13, rfl⟩ := k13.form hu
  obtain ⟨x, hx⟩ : ∃ x, x = (φ2 - φ1) * f2 / 2 * f3 := ⟨_, rfl⟩
  obtain ⟨y, hy⟩ : ∃ y, y = (o2 - o1) * f1 / 2 * f4 := ⟨_, rfl⟩
  rw [← hx, ← hy]
  have one : ∀ {f : ℝ}, |f - 1| ≤ u → |f - 1| ≤ 1 * u := fun h => by linarith
  have pos : ∀ {f : ℝ}, |f - 1| ≤ u → 0 ≤ f := fun h => by have := (abs_le.1 h).1; linarith
  have hu2 : u ≤ 1 / 1000 := by linarith
  have m2 : ∀ {f g : ℝ}, |f - 1| ≤ u → |g - 1| ≤ u → |f * g - 1| ≤ 2001 / 1000 * u := fun h h' =>
    fac_lin hu hu2 (by norm_num) (by norm_num) (one h) (one h') (by norm_num)
  -- the two angles
  have ex : |x - (φ2 - φ1) / 2| ≤ 316 / 100 * u := by
    rw [hx, show (φ2 - φ1) * f2 / 2 * f3 - (φ2 - φ1) / 2 = (φ2 - φ1) / 2 * (f2 * f3 - 1) by ring, abs_mul]
    have hp := Real.pi_lt_d4
    have a1 := abs_le.1 r1
    have a2 := abs_le.1 e1
    have a3 := abs_le.1 r3
    have a4 := abs_le.1 e3
    have : |(φ2 - φ1) / 2| ≤ 1575 / 1000 := by rw [abs_le]; constructor <;> linarith
    have := mul_le_mul this (m2 hf2 hf3) (abs_nonneg _) (by norm_num)
    nlinarith
  have ey : |2 * y - (o2 - o1)| ≤ 2522 / 100 * u := by
    rw [hy, show 2 * ((o2 - o1) * f1 / 2 * f4) - (o2 - o1) = (o2 - o1) * (f1 * f4 - 1) by ring, abs_mul]
    have hp := Real.pi_lt_d4
    have a1 := abs_le.1 r2
    have a2 := abs_le.1 e2
    have a3 := abs_le.1 r4
    have a4 := abs_le.1 e4
    have : |o2 - o1| ≤ 126 / 10 := by rw [abs_le]; constructor <;> linarith
    have := mul_le_mul this (m2 hf1 hf4) (abs_nonneg _) (by norm_num)
    nlinarith
  obtain ⟨K, hK⟩ : ∃ K, K = Real.cos φ1 * Real.cos φ2 * Real.sin y ^ 2 := ⟨_, rfl⟩
  have hK0 : 0 ≤ K := by rw [hK]; positivity
  have ha : ((Real.sin x * f5) ^ 2 * f6 + Real.cos φ1 * f7 * (Real.cos φ2 * f8) * f9 * ((Real.sin y * f10) ^ 2 * f11) * f12) * f13 =
      Real.sin x ^ 2 * (f5 * f5 * f6 * f13) + K * (f7 * f8 * f9 * (f10 * f10) * f11 * f12 * f13) := by rw [hK]; ring
  rw [ha]
  have p5 := pos hf5
  have p6 := pos hf6
  have p7 := pos hf7
  have p8 := pos hf8
  have p9 := pos hf9
  have p10 := pos hf10
  have p11 := pos hf11
  have p12 := pos hf12
  have p13 := pos hf13
  have ha0 : 0 ≤ Real.sin x ^ 2 * (f5 * f5 * f6 * f13) + K * (f7 * f8 * f9 * (f10 * f10) * f11 * f12 * f13) := by positivity
  refine ⟨ha0, fun ht => ?_⟩
  obtain ⟨f14, hf14, rfl⟩ := ht.form hu
  have p14 := pos hf14
  have ht0 : 0 ≤ Real.sqrt (Real.sin x ^ 2 * (f5 * f5 * f6 * f13) + K * (f7 * f8 * f9 * (f10 * f10) * f11 * f12 * f13)) * f14 := by positivity
  refine ⟨ht0, ?_⟩
  have F1 : |f5 * f5 * f6 * f13 * (f14 * f14) - 1| ≤ 1006 / 100 * u := by
    have g := m2 hf5 hf5
    have g := fac_lin (k := 3005 / 1000) hu hu2 (by norm_num) (by norm_num) g (one hf6) (by norm_num)
    have g := fac_lin (k := 4010 / 1000) hu hu2 (by norm_num) (by norm_num) g (one hf13) (by norm_num)
    exact fac_lin (k := 1006 / 100) hu hu2 (by norm_num) (by norm_num) g (m2 hf14 hf14) (by norm_num)
  have F2 : |f7 * f8 * f9 * (f10 * f10) * f11 * f12 * f13 * (f14 * f14) - 1| ≤ 1006 / 100 * u := by
    have g := m2 hf7 hf8
    have g := fac_lin (k := 3004 / 1000) hu hu2 (by norm_num) (by norm_num) g (one hf9) (by norm_num)
    have g := fac_lin (k := 5012 / 1000) hu hu2 (by norm_num) (by norm_num) g (m2 hf10 hf10) (by norm_num)
    have g := fac_lin (k := 6018 / 1000) hu hu2 (by norm_num) (by norm_num) g (one hf11) (by norm_num)
    have g := fac_lin (k := 7025 / 1000) hu hu2 (by norm_num) (by norm_num) g (one hf12) (by norm_num)
    have g := fac_lin (k := 8033 / 1000) hu hu2 (by norm_num) (by norm_num) g (one hf13) (by norm_num)
    exact fac_lin (k := 1006 / 100) hu hu2 (by norm_num) (by norm_num) g (m2 hf14 hf14) (by norm_num)
  have step3 := rel_sum (sq_nonneg (Real.sin x)) hK0 F1 F2 ht0 (by rw [mul_pow _ f14 2, Real.sq_sqrt ha0]; ring)
  -- the difference of the latitudes
  have step2 : |Real.sqrt (Real.sin x ^ 2 + K) - Real.sqrt (hv φ1 o1 φ2 (o1 + 2 * y))| ≤ 316 / 100 * u := by
    have h := norm_shift (Real.sin ((φ2 - φ1) / 2)) (Real.sqrt K) (Real.sin x) (Real.sqrt K)
    rw [Real.sq_sqrt hK0, sub_self, abs_zero, add_zero] at h
    have e : hv φ1 o1 φ2 (o1 + 2 * y) = Real.sin ((φ2 - φ1) / 2) ^ 2 + K := by
      unfold hv; rw [hK, show (o1 + 2 * y - o1) / 2 = y by ring]
    rw [e]
    exact h.trans ((Real.abs_sin_sub_sin_le _ _).trans ex)
  have step1 := hv_lip (rad l1) (rad n1) (rad l2) (rad n2) φ1 o1 φ2 (o1 + 2 * y)
  have e5 : |o1 + 2 * y - rad n2| ≤ 1892 / 100 * u + 2522 / 100 * u := by
    rw [show o1 + 2 * y - rad n2 = (2 * y - (o2 - o1)) + (o2 - rad n2) by ring]
    refine (abs_add_le _ _).trans ?_
    linarith
  -- half the chord is at most 1
  have hS : Real.sqrt (hv (rad l1) (rad n1) (rad l2) (rad n2)) ≤ 1 := by
    rw [Real.sqrt_le_one]
    unfold hv
    rw [hav]
    have := neg_one_le_dot (place_normSq l1 n1) (place_normSq l2 n2)
    linarith
  exact total hu hu1 hS e1 e2 e3 e5 step1 step2 step3

/-- The arcsine of a number close to a sine. -/
theorem arcsin_near {α β h : ℝ} (hα : 0 ≤ α) (hα1 : α ≤ Real.pi / 2) (hβ : 0 ≤ β) (hβ1 : β ≤ Real.pi / 2) (hh : |Real.sin α - Real.sin β| ≤ h) :
    (Real.cos α + Real.cos β) * |α - β| ≤ 2 * h ∧ |α - β| ≤ Real.pi * Real.sqrt (h / 2) := by
  have hp := Real.pi_pos
  wlog hab : β ≤ α generalizing α β
  · rw [abs_sub_comm] at hh ⊢
    rw [add_comm]
    exact this hβ hβ1 hα hα1 hh (le_of_not_ge hab)
  rw [abs_of_nonneg (by linarith : 0 ≤ α - β)]
  obtain ⟨d, hd⟩ : ∃ d, d = (α - β) / 2 := ⟨_, rfl⟩
  obtain ⟨m, hm⟩ : ∃ m, m = (α + β) / 2 := ⟨_, rfl⟩
  have ea : α = m + d := by rw [hd, hm]; ring
  have eb : β = m - d := by rw [hd, hm]; ring
  have hd0 : 0 ≤ d := by rw [hd]; linarith
  have hd1 : d ≤ Real.pi / 4 := by rw [hd]; linarith
  have es : Real.sin α - Real.sin β = 2 * Real.cos m * Real.sin d := by rw [ea, eb, Real.sin_add, Real.sin_sub]; ring
  have ec : Real.cos α + Real.cos β = 2 * Real.cos m * Real.cos d := by rw [ea, eb, Real.cos_add, Real.cos_sub]; ring
  have hm0 : 0 ≤ m := by rw [hm]; linarith
  have hm1 : m ≤ Real.pi / 2 - d := by rw [hd, hm]; linarith
  have hcm : 0 ≤ Real.cos m := Real.cos_nonneg_of_neg_pi_div_two_le_of_le (by linarith) (by linarith)
  have hcd : 0 < Real.cos d := Real.cos_pos_of_mem_Ioo ⟨by linarith, by linarith⟩
  have hsd : 0 ≤ Real.sin d := Real.sin_nonneg_of_nonneg_of_le_pi hd0 (by linarith)
  have hh' := (le_abs_self _).trans hh
  rw [es] at hh'
  have ed : α - β = 2 * d := by rw [hd]; ring
  rw [ed]
  constructor
  · rw [ec]
    have : d * Real.cos d ≤ Real.sin d := by
      rcases hd0.eq_or_lt with h | h
      · rw [← h]; simp
      · have := Real.lt_tan h (by linarith)
        rw [Real.tan_eq_sin_div_cos, lt_div_iff₀ hcd] at this
        exact this.le
    have := mul_le_mul_of_nonneg_left this hcm
    nlinarith
  · have h1 : Real.sin d ≤ Real.cos m := by
      have := Real.cos_le_cos_of_nonneg_of_le_pi hm0 (by linarith) hm1
      rwa [Real.cos_pi_div_two_sub] at this
    have h2 : 2 / Real.pi * d ≤ Real.sin d := Real.mul_le_sin hd0 (by linarith)
    have h3 : Real.sin d ^ 2 ≤ h / 2 := by nlinarith
    have h4 : Real.sin d ≤ Real.sqrt (h / 2) := Real.le_sqrt_of_sq_le h3
    have h5 := mul_le_mul_of_nonneg_left (h2.trans h4) hp.le
    have : Real.pi * (2 / Real.pi * d) = 2 * d := by field_simp
    linarith

/-- The three operations that make a distance of half an angle. -/
theorem scale {u w c d α : ℝ} (hu : 0 ≤ u) (hu1 : u ≤ 1 / 100000) (h1 : Rd u α w) (h2 : Rd u (2 * w) c) (h3 : Rd u (6371000 * c) d) :
    |d - earth * (2 * α)| ≤ earth * (2 * (3001 / 1000 * u * |α|)) := by
  obtain ⟨e1, he1, rfl⟩ := h1.form hu
  obtain ⟨e2, he2, rfl⟩ := h2.form hu
  obtain ⟨e3, he3, rfl⟩ := h3.form hu
  have hk : |e1 * e2 * e3 - 1| ≤ 3001 / 1000 * u := by
    refine (fac_mul (fac_mul he1 he2) he3).trans ?_
    nlinarith [mul_nonneg hu hu, mul_nonneg (mul_nonneg hu hu) hu]
  unfold earth
  rw [show 6371000 * (2 * (α * e1) * e2) * e3 - 6371000 * (2 * α) = 6371000 * 2 * (α * (e1 * e2 * e3 - 1)) by ring, abs_mul, abs_mul α]
  have := mul_le_mul_of_nonneg_left hk (abs_nonneg α)
  rw [abs_of_pos (by norm_num : (0 : ℝ) < 6371000 * 2)]
  linarith

/-- Half the chord belongs to half the angle. -/
theorem sqrt_hv_angle {l1 n1 l2 n2 t : ℝ} (ht : IsAngle (place l1 n1) (place l2 n2) t) :
    Real.sqrt (hv (rad l1) (rad n1) (rad l2) (rad n2)) = Real.sin (t / 2) := by
  unfold hv
  rw [hav, ← ht.2.2, ← half_sq]
  exact Real.sqrt_sq (Real.sin_nonneg_of_nonneg_of_le_pi (by linarith [ht.1]) (by linarith [ht.1, ht.2.1]))

/-- All that is known about a computed distance. -/
theorem Distance.near {u l1 n1 l2 n2 t : ℝ} {out : Num} (hu : 0 ≤ u) (hu1 : u ≤ 1 / 100000) (hl1 : |l1| ≤ 90 - 400 * u) (hn1 : |n1| ≤ 360)
    (hl2 : |l2| ≤ 90 - 400 * u) (hn2 : |n2| ≤ 360) (ht : IsAngle (place l1 n1) (place l2 n2) t) (h : Distance u l1 n1 l2 n2 out) :
    (out = .nan ∧ 1 < Real.sin (t / 2) + 50 * u) ∨ ∃ d α, Num.Is out d ∧ 0 ≤ α ∧ α ≤ Real.pi / 2 ∧ |Real.sin α - Real.sin (t / 2)| ≤ 50 * u ∧
      |d - earth * (2 * α)| ≤ earth * (2 * (3001 / 1000 * u * α)) := by
  obtain ⟨φ1, o1, φ2, o2, a, d1, d2, d3, d4, ha, h⟩ := h
  have key := fun s => Haversine.near (t := s) hu hu1 hl1 hn1 hl2 hn2 d1 d2 d3 d4 ha
  rw [sqrt_hv_angle ht] at key
  have ha0 := (key 0).1
  rw [if_neg (not_lt.2 ha0)] at h
  obtain ⟨s, hs, h⟩ := h
  obtain ⟨hs0, hs1⟩ := (key s).2 hs
  split_ifs at h with hc
  · left
    refine ⟨h, ?_⟩
    have := (abs_le.1 hs1).2
    linarith
  · right
    obtain ⟨w, c, d, h1, h2, h3, h4⟩ := h
    have hα : 0 ≤ Real.arcsin s := Real.arcsin_nonneg.2 hs0
    refine ⟨d, Real.arcsin s, h4, hα, Real.arcsin_le_pi_div_two s, ?_, ?_⟩
    · rwa [Real.sin_arcsin (by linarith) (not_lt.1 hc)]
    · have := scale hu hu1 h1 h2 h3
      rwa [abs_of_nonneg hα] at this

theorem cos_quarter {β : ℝ} (h0 : 0 ≤ β) (h1 : β ≤ Real.pi / 4) : 1414 / 2000 ≤ Real.cos β ∧ Real.sin β ≤ 70715 / 100000 := by
  have hp := Real.pi_pos
  have h2 : Real.cos (Real.pi / 4) ≤ Real.cos β := Real.cos_le_cos_of_nonneg_of_le_pi h0 (by linarith) h1
  have h3 : Real.sin β ≤ Real.sin (Real.pi / 4) := Real.sin_le_sin_of_le_of_le_pi_div_two (by linarith) (by linarith) h1
  rw [Real.cos_pi_div_four] at h2
  rw [Real.sin_pi_div_four] at h3
  have h4 : (1414 : ℝ) / 1000 ≤ Real.sqrt 2 := Real.le_sqrt_of_sq_le (by norm_num)
  have h5 : Real.sqrt 2 ≤ 14143 / 10000 := by rw [Real.sqrt_le_left (by norm_num)]; norm_num
  constructor <;> linarith

/-- Distances up to a quarter of the circumference. -/
theorem Distance.quarter {u l1 n1 l2 n2 t : ℝ} {out : Num} (hu : 0 ≤ u) (hu1 : u ≤ 1 / 100000) (hl1 : |l1| ≤ 90 - 400 * u) (hn1 : |n1| ≤ 360)
    (hl2 : |l2| ≤ 90 - 400 * u) (hn2 : |n2| ≤ 360) (ht : IsAngle (place l1 n1) (place l2 n2) t) (hq : t ≤ Real.pi / 2)
    (h : Distance u l1 n1 l2 n2 out) : ∃ d, Num.Is out d ∧ |d - earth * t| ≤ 148 * u * earth := by
  have hp := Real.pi_pos
  obtain ⟨c1, c2⟩ := cos_quarter (by linarith [ht.1] : 0 ≤ t / 2) (by linarith)
  rcases h.near hu hu1 hl1 hn1 hl2 hn2 ht with ⟨-, h⟩ | ⟨d, α, h1, h2, h3, h4, h5⟩
  · exfalso; linarith
  · refine ⟨d, h1, ?_⟩
    obtain ⟨k, -⟩ := arcsin_near h2 h3 (by linarith [ht.1] : 0 ≤ t / 2) (by linarith) h4
    have hs : Real.sin α ≤ 7077 / 10000 := by have := (abs_le.1 h4).2; linarith
    have hs0 : 0 ≤ Real.sin α := Real.sin_nonneg_of_nonneg_of_le_pi h2 (by linarith)
    have hcα : 0 ≤ Real.cos α := Real.cos_nonneg_of_neg_pi_div_two_le_of_le (by linarith) h3
    have hc : 7 / 10 ≤ Real.cos α := by
      have := Real.sin_sq_add_cos_sq α
      nlinarith
    have k2 : |α - t / 2| ≤ 711 / 10 * u := by
      have : (1407 / 1000) * |α - t / 2| ≤ (Real.cos α + Real.cos (t / 2)) * |α - t / 2| :=
        mul_le_mul_of_nonneg_right (by linarith) (abs_nonneg _)
      nlinarith
    have hα : α ≤ 4 / 5 := by
      have := (abs_le.1 k2).2
      have := Real.pi_lt_d4
      linarith
    have he : 0 < earth := by unfold earth; norm_num
    have e : d - earth * t = (d - earth * (2 * α)) + earth * (2 * (α - t / 2)) := by ring
    rw [e]
    refine (abs_add_le _ _).trans ?_
    rw [abs_mul earth, abs_mul, abs_of_pos he, abs_two]
    have g1 : earth * (2 * (3001 / 1000 * u * α)) ≤ earth * (2 * (241 / 100 * u)) := by
      refine mul_le_mul_of_nonneg_left ?_ he.le
      nlinarith
    have g2 : earth * (2 * |α - t / 2|) ≤ earth * (2 * (711 / 10 * u)) := mul_le_mul_of_nonneg_left (by linarith) he.le
    nlinarith [mul_nonneg hu he.le]

end Rounded
namespace Rounded

open Geo

/-! ### the direction -/

/-- The computed product of numbers of at most 1. -/
theorem prod_near {u a a' b b' p A B C : ℝ} (hu : 0 ≤ u) (hu1 : u ≤ 1 / 100000) (hA : 0 ≤ A) (hB : 0 ≤ B) (ha : |a' - a| ≤ A * u) (h1 : |a| ≤ 1)
    (hb : |b' - b| ≤ B * u) (h2 : |b| ≤ 1) (hp : Rd u (a' * b') p) (hC : A + B + 1 + (A * B + A + B) / 50000 ≤ C) : |p - a * b| ≤ C * u := by
  obtain ⟨e, he, rfl⟩ := hp.form hu
  have h := near_mul (near_mul ha h1 hb h2) (by rw [abs_mul]; exact mul_le_one₀ h1 (abs_nonneg _) h2) he (by simp)
  rw [mul_one] at h
  refine h.trans ?_
  have h3 := mul_le_mul_of_nonneg_right hC hu
  have h4 : u * u ≤ u / 100000 := by nlinarith
  have h5 : u * u * u ≤ u / 100000 := by nlinarith
  have hAB := mul_nonneg hA hB
  have e : (1 + ((1 + A * u) * (1 + B * u) - 1)) * (1 + u) - 1 = (A + B + 1) * u + (A * B + A + B) * (u * u) + A * B * (u * u * u) := by ring
  rw [e]
  have g1 := mul_le_mul_of_nonneg_left h4 (by positivity : 0 ≤ A * B + A + B)
  have g2 := mul_le_mul_of_nonneg_left h5 hAB
  have g3 : 0 ≤ (A + B) * u := by positivity
  linarith

/-- The directions of two vectors. -/
theorem unit_near {v w p q : ℂ} (hp : ‖p‖ = 1) (hw : w = ‖w‖ * p) (hv : v = ‖v‖ * q) : ‖v‖ * ‖p - q‖ ≤ 2 * ‖w - v‖ := by
  have e : (‖v‖ : ℂ) * (p - q) = ((‖v‖ : ℂ) - ‖w‖) * p + (w - v) := by
    calc (‖v‖ : ℂ) * (p - q) = ‖v‖ * p - ‖v‖ * q := by ring
      _ = ‖v‖ * p - v := by rw [← hv]
      _ = ((‖v‖ : ℂ) - ‖w‖) * p + (‖w‖ * p - v) := by ring
      _ = _ := by rw [← hw]
  have h : ‖(‖v‖ : ℂ) * (p - q)‖ = ‖v‖ * ‖p - q‖ := by rw [norm_mul, Complex.norm_real, Real.norm_eq_abs, abs_of_nonneg (norm_nonneg _)]
  rw [← h, e]
  refine (norm_add_le _ _).trans ?_
  rw [norm_mul, hp, mul_one, ← Complex.ofReal_sub, Complex.norm_real, Real.norm_eq_abs]
  have := abs_norm_sub_norm_le v w
  rw [norm_sub_rev] at this
  linarith

theorem unit_norm (ψ : ℝ) : ‖(⟨Real.cos ψ, Real.sin ψ⟩ : ℂ)‖ = 1 := by
  rw [Complex.norm_def, Complex.normSq_mk, Real.sqrt_eq_one]
  have := Real.sin_sq_add_cos_sq ψ
  nlinarith

/-- The computed direction belongs to the vector that is computed. -/
theorem Arctan2Any.near {u y x out : ℝ} (hu : 0 ≤ u) (h : Arctan2Any u y x out) :
    ∃ ψ g, |ψ| ≤ Real.pi ∧ |g - 1| ≤ u ∧ out = ψ * g ∧ (⟨x, y⟩ : ℂ) = ‖(⟨x, y⟩ : ℂ)‖ * ⟨Real.cos ψ, Real.sin ψ⟩ := by
  have hp := Real.pi_pos
  have pi_case : ∀ ψ, y = 0 → x ≤ 0 → Real.cos ψ = -1 → Real.sin ψ = 0 →
      (⟨x, y⟩ : ℂ) = ‖(⟨x, y⟩ : ℂ)‖ * ⟨Real.cos ψ, Real.sin ψ⟩ := by
    intro ψ hy hx h1 h2
    subst hy
    have : ‖(⟨x, 0⟩ : ℂ)‖ = -x := by
      have : (⟨x, 0⟩ : ℂ) = (x : ℂ) := rfl
      rw [this, Complex.norm_real, Real.norm_eq_abs, abs_of_nonpos hx]
    rw [this, h1, h2]
    apply Complex.ext <;> simp
  rcases h with h | ⟨hy, hx, h | h⟩
  · obtain ⟨g, hg, e⟩ := h.form hu
    refine ⟨_, g, Complex.abs_arg_le_pi _, hg, e, ?_⟩
    apply Complex.ext
    · simp [Complex.norm_mul_cos_arg]
    · simp [Complex.norm_mul_sin_arg]
  · obtain ⟨g, hg, e⟩ := h.form hu
    exact ⟨Real.pi, g, by rw [abs_of_pos hp], hg, e, pi_case _ hy hx Real.cos_pi Real.sin_pi⟩
  · obtain ⟨g, hg, e⟩ := h.form hu
    exact ⟨-Real.pi, g, by rw [abs_neg, abs_of_pos hp], hg, e, pi_case _ hy hx (by simp) (by simp)⟩

/-- Radians to degrees and back. -/
theorem there_and_back {u r d b : ℝ} (hu : 0 ≤ u) (hu1 : u ≤ 1 / 100000) (h1 : Rad2deg u r d) (h2 : Deg2rad u d b) :
    ∃ g, |g - 1| ≤ 602 / 100 * u ∧ b = r * g := by
  obtain ⟨g, hg, rfl⟩ := h2.rel hu hu1
  obtain ⟨k, c, k1, k2, k3⟩ := h1
  obtain ⟨e1, he1, rfl⟩ := k1.form hu
  obtain ⟨e2, he2, rfl⟩ := k2.form hu
  obtain ⟨e3, he3, rfl⟩ := k3.form hu
  obtain ⟨e1p, e1i⟩ := fac_inv (by linarith) he1
  have hp := Real.pi_pos
  have hu2 : u ≤ 1 / 1000 := by linarith
  have i1 : |e1⁻¹ - 1| ≤ 1001 / 1000 * u := by
    refine e1i.trans ?_
    have : 0 < 1 - u := by linarith
    rw [inv_eq_one_div, sub_le_iff_le_add, div_le_iff₀ this]
    nlinarith
  have g1 := fac_lin (k := 2003 / 1000) hu hu2 (by norm_num) (by norm_num) i1 (by linarith : |e2 - 1| ≤ 1 * u) (by norm_num)
  have g2 := fac_lin (k := 3006 / 1000) hu hu2 (by norm_num) (by norm_num) g1 (by linarith : |e3 - 1| ≤ 1 * u) (by norm_num)
  have g3 := fac_lin (k := 602 / 100) hu hu2 (by norm_num) (by norm_num) g2 hg (by norm_num)
  refine ⟨_, g3, ?_⟩
  unfold rad
  field_simp

/-- All that is known about a computed bearing. -/
theorem Bearing.near {u l1 n1 l2 n2 β b : ℝ} (hu : 0 ≤ u) (hu1 : u ≤ 1 / 100000) (hl1 : |l1| ≤ 90) (hn1 : |n1| ≤ 360)
    (hl2 : |l2| ≤ 90) (hn2 : |n2| ≤ 360) (h : Bearing u l1 n1 l2 n2 β) (hb : Deg2rad u β b) :
    ∃ (ψ : ℝ) (w : ℂ), |b - ψ| ≤ 221 / 10 * u ∧ w = ‖w‖ * ⟨Real.cos ψ, Real.sin ψ⟩ ∧
      |w.re - (place l2 n2).dot (north l1 n1)| ≤ 80 * u ∧ |w.im - (place l2 n2).dot (east l1 n1)| ≤ 59 * u := by
  obtain ⟨φ1, o1, φ2, o2, dL, c2, sL, x, c1, s2, p, s1, q, cL, r, y, a, d1, d2, d3, d4, k1, k2, k3, k4, k5, k6, k7, k8, k9, k10, k11, k12, ka, kd⟩ := h
  obtain ⟨-, e1⟩ := d1.lat hu hu1 hl1
  obtain ⟨r2, e2⟩ := d2.lon hu hu1 hn1
  obtain ⟨-, e3⟩ := d3.lat hu hu1 hl2
  obtain ⟨r4, e4⟩ := d4.lon hu hu1 hn2
  have eL : |dL - (rad n2 - rad n1)| ≤ 5045 / 100 * u := by
    obtain ⟨f, hf, rfl⟩ := k1.form hu
    have hp := Real.pi_lt_d4
    have a1 := abs_le.1 r2
    have a2 := abs_le.1 e2
    have a3 := abs_le.1 r4
    have a4 := abs_le.1 e4
    have h1 : |o2 - o1| ≤ 126 / 10 := by rw [abs_le]; constructor <;> linarith
    have h2 := mul_le_mul h1 hf (abs_nonneg _) (by norm_num)
    rw [← abs_mul] at h2
    have h2 := abs_le.1 h2
    rw [show (o2 - o1) * f - (rad n2 - rad n1) = (o2 - o1) * (f - 1) + (o2 - rad n2) - (o1 - rad n1) by ring, abs_le]
    constructor <;> linarith
  have hc2 := near_cos hu e3 k2
  have hsL := near_sin hu eL k3
  have hc1 := near_cos hu e1 k5
  have hs2 := near_sin hu e3 k6
  have hs1 := near_sin hu e1 k8
  have hcL := near_cos hu eL k10
  have bc := Real.abs_cos_le_one
  have bs := Real.abs_sin_le_one
  have hx := prod_near (C := 59) hu hu1 (by norm_num) (by norm_num) hc2 (bc _) hsL (bs _) k4 (by norm_num)
  have hp := prod_near (C := 1247 / 100) hu hu1 (by norm_num) (by norm_num) hc1 (bc _) hs2 (bs _) k7 (by norm_num)
  have hq := prod_near (C := 1247 / 100) hu hu1 (by norm_num) (by norm_num) hs1 (bs _) hc2 (bc _) k9 (by norm_num)
  have hr := prod_near (C := 6495 / 100) hu hu1 (by norm_num) (by norm_num) hq
    (by rw [abs_mul]; exact mul_le_one₀ (bs _) (abs_nonneg _) (bc _)) hcL (bc _) k11 (by norm_num)
  have hy : |y - (place l2 n2).dot (north l1 n1)| ≤ 80 * u := by
    rw [(Gps.frame l1 n1 l2 n2).1]
    obtain ⟨f, hf, rfl⟩ := k12.form hu
    have t1 := abs_le.1 hp
    have t2 := abs_le.1 hr
    have u1 := dot_le_one (place_normSq l2 n2) (Gps.onb l1 n1).2.1
    have u2 := neg_one_le_dot (place_normSq l2 n2) (Gps.onb l1 n1).2.1
    rw [(Gps.frame l1 n1 l2 n2).1] at u1 u2
    have h1 : |p - r| ≤ 3 / 2 := by
      rw [abs_le]; constructor <;> linarith
    have h2 := mul_le_mul h1 hf (abs_nonneg _) (by norm_num)
    rw [← abs_mul] at h2
    have h2 := abs_le.1 h2
    rw [show (p - r) * f - (Real.cos (rad l1) * Real.sin (rad l2) - Real.sin (rad l1) * Real.cos (rad l2) * Real.cos (rad n2 - rad n1)) =
      (p - r) * (f - 1) + (p - Real.cos (rad l1) * Real.sin (rad l2)) - (r - Real.sin (rad l1) * Real.cos (rad l2) * Real.cos (rad n2 - rad n1)) by ring, abs_le]
    constructor <;> linarith
  have hx' : |x - (place l2 n2).dot (east l1 n1)| ≤ 59 * u := by
    rw [(Gps.frame l1 n1 l2 n2).2]; exact hx
  obtain ⟨ψ, g, hψ, hg, rfl, hw⟩ := ka.near hu
  obtain ⟨g', hg', rfl⟩ := there_and_back hu hu1 kd hb
  refine ⟨ψ, ⟨y, x⟩, ?_, hw, hy, hx'⟩
  have hgg := fac_lin (k := 703 / 100) hu (by linarith) (by norm_num) (by norm_num) (by linarith : |g - 1| ≤ 1 * u) hg' (by norm_num)
  rw [show ψ * g * g' - ψ = ψ * (g * g' - 1) by ring, abs_mul]
  have := mul_le_mul hψ hgg (abs_nonneg _) Real.pi_pos.le
  have hp := Real.pi_lt_d4
  nlinarith

/-- One coordinate of the result. -/
theorem coord {u E t r s v S Sb S0 : ℝ} (hu : 0 ≤ u) (hu1 : u ≤ 1 / 100000) (hE : 0 < E) (ht : 0 ≤ t) (ht1 : t ≤ 15708 / 10000)
    (hr : |r - E * t| ≤ 155 * u * E) (hs : Rd u Sb s) (hb : |Sb| ≤ 1) (hS : |Sb - S| ≤ 221 / 10 * u) (hd : t * |S - S0| ≤ 4370 / 10 * u)
    (hv : Rd u (r * s) v) : |v - E * (t * S0)| ≤ 631 * u * E := by
  obtain ⟨e1, he1, rfl⟩ := hs.form hu
  obtain ⟨e2, he2, rfl⟩ := hv.form hu
  have hg := fac_lin (k := 2001 / 1000) hu (by linarith) (by norm_num) (by norm_num) (by linarith : |e1 - 1| ≤ 1 * u) (by linarith : |e2 - 1| ≤ 1 * u)
    (by norm_num)
  obtain ⟨g, hgd⟩ : ∃ g, g = e1 * e2 := ⟨_, rfl⟩
  rw [← hgd] at hg
  have e : r * (Sb * e1) * e2 - E * (t * S0) = (r - E * t) * (Sb * g) + E * (t * (Sb * (g - 1) + (Sb - S))) + E * (t * (S - S0)) := by
    rw [hgd]; ring
  rw [e]
  have hgb : |g| ≤ 1001 / 1000 := by have := abs_le.1 hg; rw [abs_le]; constructor <;> linarith
  have b1 : |Sb * g| ≤ 1001 / 1000 := by
    rw [abs_mul]
    have := mul_le_mul hb hgb (abs_nonneg _) (by norm_num)
    linarith
  have t1 : |(r - E * t) * (Sb * g)| ≤ 1552 / 10 * u * E := by
    rw [abs_mul]
    have := mul_le_mul hr b1 (abs_nonneg _) (by positivity)
    nlinarith [mul_nonneg hu hE.le]
  have b2 : |Sb * (g - 1) + (Sb - S)| ≤ 2411 / 100 * u := by
    refine (abs_add_le _ _).trans ?_
    rw [abs_mul]
    have := mul_le_mul hb hg (abs_nonneg _) (by norm_num)
    linarith
  have t2 : |E * (t * (Sb * (g - 1) + (Sb - S)))| ≤ E * (379 / 10 * u) := by
    rw [abs_mul, abs_mul, abs_of_pos hE, abs_of_nonneg ht]
    refine mul_le_mul_of_nonneg_left ?_ hE.le
    have := mul_le_mul ht1 b2 (abs_nonneg _) (by norm_num)
    linarith
  have t3 : |E * (t * (S - S0))| ≤ E * (4370 / 10 * u) := by
    rw [abs_mul, abs_mul, abs_of_pos hE, abs_of_nonneg ht]
    exact mul_le_mul_of_nonneg_left hd hE.le
  have := abs_add_three ((r - E * t) * (Sb * g)) (E * (t * (Sb * (g - 1) + (Sb - S)))) (E * (t * (S - S0)))
  nlinarith [mul_nonneg hu hE.le]

end Rounded

open Rounded Geo

/-- **C182.** Distances up to a quarter of the circumference of the earth. -/
theorem C182_distance (u lat1 lon1 lat2 lon2 t : ℝ) (hu : 0 ≤ u) (hu1 : u ≤ 1 / 100000) (h1 : |lat1| ≤ 90 - 400 * u) (h2 : |lon1| ≤ 360)
    (h3 : |lat2| ≤ 90 - 400 * u) (h4 : |lon2| ≤ 360) (ht : IsAngle (place lat1 lon1) (place lat2 lon2) t) (hq : t ≤ Real.pi / 2) (out : Num)
    (h : Distance u lat1 lon1 lat2 lon2 out) : ∃ d, Num.Is out d ∧ |d - earth * t| ≤ 148 * u * earth :=
  h.quarter hu hu1 h1 h2 h3 h4 ht hq

/-- **C182.** All distances: the result is nan only close to the opposite point of the earth. -/
theorem C182_far (u lat1 lon1 lat2 lon2 t : ℝ) (hu : 0 ≤ u) (hu1 : u ≤ 1 / 100000) (h1 : |lat1| ≤ 90 - 400 * u) (h2 : |lon1| ≤ 360)
    (h3 : |lat2| ≤ 90 - 400 * u) (h4 : |lon2| ≤ 360) (ht : IsAngle (place lat1 lon1) (place lat2 lon2) t) (out : Num)
    (h : Distance u lat1 lon1 lat2 lon2 out) :
    (out = .nan ∧ Real.pi - t ≤ 2 * Real.pi * Real.sqrt (25 * u)) ∨
      ∃ d, Num.Is out d ∧ |d - earth * t| ≤ (2 * Real.pi * Real.sqrt (25 * u) + 10 * u) * earth := by
  have hp := Real.pi_pos
  have hp4 := Real.pi_lt_d4
  have q0 : 0 ≤ t / 2 := by linarith [ht.1]
  have q1 : t / 2 ≤ Real.pi / 2 := by linarith [ht.2.1]
  rcases h.near hu hu1 h1 h2 h3 h4 ht with ⟨h, h'⟩ | ⟨d, α, k1, k2, k3, k4, k5⟩
  · left
    refine ⟨h, ?_⟩
    have hs := Real.sin_le_one (t / 2)
    have := (arcsin_near (h := 50 * u) (by positivity) le_rfl q0 q1 (by rw [Real.sin_pi_div_two, abs_of_nonneg (by linarith)]; linarith)).2
    rw [abs_of_nonneg (by linarith), show 50 * u / 2 = 25 * u by ring] at this
    linarith
  · right
    refine ⟨d, k1, ?_⟩
    have := (arcsin_near k2 k3 q0 q1 k4).2
    rw [show 50 * u / 2 = 25 * u by ring] at this
    have he : 0 < earth := by unfold earth; norm_num
    have e : d - earth * t = (d - earth * (2 * α)) + earth * (2 * (α - t / 2)) := by ring
    rw [e]
    refine (abs_add_le _ _).trans ?_
    rw [abs_mul earth, abs_mul, abs_of_pos he, abs_two]
    have g1 : earth * (2 * (3001 / 1000 * u * α)) ≤ earth * (10 * u) := by
      refine mul_le_mul_of_nonneg_left ?_ he.le
      nlinarith
    have g2 := mul_le_mul_of_nonneg_left this he.le
    nlinarith

/-- **C182.** Distances between points with heights: the result is nan only close to the opposite point of the earth, and finite otherwise. -/
theorem C182_heights_far (u lat1 lon1 z1 lat2 lon2 z2 t : ℝ) (hu : 0 ≤ u) (hu1 : u ≤ 1 / 100000) (h1 : |lat1| ≤ 90 - 400 * u) (h2 : |lon1| ≤ 360)
    (h3 : |lat2| ≤ 90 - 400 * u) (h4 : |lon2| ≤ 360) (ht : IsAngle (place lat1 lon1) (place lat2 lon2) t) (out : Num)
    (h : DistanceHeights u lat1 lon1 z1 lat2 lon2 z2 out) :
    (out = .nan ∧ Real.pi - t ≤ 2 * Real.pi * Real.sqrt (25 * u)) ∨ ∃ d, Num.Is out d := by
  obtain ⟨d, hd, h⟩ := h
  rcases h with ⟨rfl, h⟩ | ⟨-, -, n, -, -, -, ho⟩
  · rcases C182_far u lat1 lon1 lat2 lon2 t hu hu1 h1 h2 h3 h4 ht _ hd with ⟨-, h'⟩ | ⟨r, hr, -⟩
    · exact .inl ⟨h, h'⟩
    · simp [Num.Is] at hr
  · exact .inr ⟨n, ho⟩

/-- **C182.** Distances between points with heights. -/
theorem C182_heights (u lat1 lon1 z1 lat2 lon2 z2 t : ℝ) (hu : 0 ≤ u) (hu1 : u ≤ 1 / 100000) (h1 : |lat1| ≤ 90 - 400 * u) (h2 : |lon1| ≤ 360)
    (h3 : |lat2| ≤ 90 - 400 * u) (h4 : |lon2| ≤ 360) (ht : IsAngle (place lat1 lon1) (place lat2 lon2) t) (hq : t ≤ Real.pi / 2) (out : Num)
    (h : DistanceHeights u lat1 lon1 z1 lat2 lon2 z2 out) :
    ∃ d, Num.Is out d ∧ |d - Real.sqrt ((earth * t) ^ 2 + (z1 - z2) ^ 2)| ≤ 155 * u * earth + 6 * u * |z1 - z2| := by
  obtain ⟨d, hd, h⟩ := h
  obtain ⟨r, hr, her⟩ := hd.quarter hu hu1 h1 h2 h3 h4 ht hq
  rcases h with ⟨rfl, -⟩ | ⟨r', k, n, hr', hk, hn, ho⟩
  · simp [Num.Is] at hr
  obtain rfl : r = r' := hr.rv_eq.symm.trans hr'.rv_eq
  refine ⟨n, ho, ?_⟩
  obtain ⟨a, b, c, j1, j2, j3, j4⟩ := hn
  obtain ⟨f1, hf1, rfl⟩ := j1.form hu
  obtain ⟨f2, hf2, rfl⟩ := j2.form hu
  obtain ⟨f3, hf3, rfl⟩ := j3.form hu
  obtain ⟨f4, hf4, rfl⟩ := j4.form hu
  have pos : ∀ {f : ℝ}, |f - 1| ≤ u → 0 ≤ f := fun h => by have := (abs_le.1 h).1; linarith
  have p1 := pos hf1
  have p2 := pos hf2
  have p3 := pos hf3
  have p4 := pos hf4
  have fac : ∀ {f : ℝ}, |f - 1| ≤ u → |f * f3 * (f4 * f4) - 1| ≤ 401 / 100 * u := by
    intro f hf
    have one : ∀ {f : ℝ}, |f - 1| ≤ u → |f - 1| ≤ 1 * u := fun h => by linarith
    have g := fac_lin (k := 2001 / 1000) hu (by linarith) (by norm_num) (by norm_num) (one hf) (one hf3) (by norm_num)
    have g' := fac_lin (k := 2001 / 1000) hu (by linarith) (by norm_num) (by norm_num) (one hf4) (one hf4) (by norm_num)
    exact fac_lin (k := 401 / 100) hu (by linarith) (by norm_num) (by norm_num) g g' (by norm_num)
  have hs : 0 ≤ (r ^ 2 * f1 + |k| ^ 2 * f2) * f3 := by positivity
  have step2 := rel_sum (sq_nonneg r) (sq_nonneg |k|) (fac hf1) (fac hf2) (by positivity : 0 ≤ Real.sqrt ((r ^ 2 * f1 + |k| ^ 2 * f2) * f3) * f4)
    (by rw [mul_pow _ f4 2, Real.sq_sqrt hs]; ring)
  have step1 := norm_shift (earth * t) |z1 - z2| r |k|
  rw [sq_abs (z1 - z2)] at step1
  have hkz : |(|k| - |z1 - z2|)| ≤ u * |z1 - z2| := (abs_abs_sub_abs_le _ _).trans hk
  have hsz : Real.sqrt (r ^ 2 + |k| ^ 2) ≤ |r| + |k| := by
    rw [Real.sqrt_le_left (by positivity)]
    nlinarith [sq_abs r, abs_nonneg r, abs_nonneg k, mul_nonneg (abs_nonneg r) (abs_nonneg k)]
  have he : 0 < earth := by unfold earth; norm_num
  have hp4 := Real.pi_lt_d4
  have hrb : |r| ≤ 158 / 100 * earth := by
    have h5 := abs_le.1 her
    have h6 : earth * t ≤ 1571 / 1000 * earth := by nlinarith
    have h7 : 0 ≤ earth * t := mul_nonneg he.le ht.1
    have h8 : 148 * u * earth ≤ 2 / 1000 * earth := by nlinarith
    rw [abs_le]; constructor <;> linarith
  have hkb : |k| ≤ 101 / 100 * |z1 - z2| := by
    have := (abs_le.1 hkz).2
    nlinarith [abs_nonneg (z1 - z2)]
  have hm : 401 / 100 * u * Real.sqrt (r ^ 2 + |k| ^ 2) ≤ 401 / 100 * u * (158 / 100 * earth + 101 / 100 * |z1 - z2|) :=
    mul_le_mul_of_nonneg_left (by linarith) (by positivity)
  have t0 := abs_sub_le (Real.sqrt ((r ^ 2 * f1 + |k| ^ 2 * f2) * f3) * f4) (Real.sqrt (r ^ 2 + |k| ^ 2)) (Real.sqrt ((earth * t) ^ 2 + (z1 - z2) ^ 2))
  have hue := mul_nonneg hu he.le
  have huz := mul_nonneg hu (abs_nonneg (z1 - z2))
  nlinarith

/-- Distances between points without heights or with the same height. -/
theorem Rounded.DistanceOf.quarter {u l1 n1 l2 n2 t : ℝ} {z1 z2 : Option ℝ} {out : Num} (hu : 0 ≤ u) (hu1 : u ≤ 1 / 100000) (hl1 : |l1| ≤ 90 - 400 * u)
    (hn1 : |n1| ≤ 360) (hl2 : |l2| ≤ 90 - 400 * u) (hn2 : |n2| ≤ 360) (ht : IsAngle (place l1 n1) (place l2 n2) t) (hq : t ≤ Real.pi / 2)
    (hz : z1 = none ∨ z2 = none ∨ z1 = z2) (h : DistanceOf u l1 n1 z1 l2 n2 z2 out) : ∃ d, Num.Is out d ∧ |d - earth * t| ≤ 155 * u * earth := by
  have he : 0 < earth := by unfold earth; norm_num
  have plain : Distance u l1 n1 l2 n2 out → ∃ d, Num.Is out d ∧ |d - earth * t| ≤ 155 * u * earth := by
    intro h
    obtain ⟨d, k1, k2⟩ := h.quarter hu hu1 hl1 hn1 hl2 hn2 ht hq
    exact ⟨d, k1, k2.trans (by nlinarith [mul_nonneg hu he.le])⟩
  cases z1 with
  | none => exact plain h
  | some a =>
    cases z2 with
    | none => exact plain h
    | some b =>
      obtain rfl : a = b := by simpa using hz
      obtain ⟨d, k1, k2⟩ := C182_heights u l1 n1 a l2 n2 a t hu hu1 hl1 hn1 hl2 hn2 ht hq out h
      refine ⟨d, k1, ?_⟩
      rw [sub_self, abs_zero, mul_zero, add_zero, zero_pow two_ne_zero, add_zero, Real.sqrt_sq (mul_nonneg he.le ht.1)] at k2
      exact k2

/-- **C182.** Positions computed from gps coordinates: the other place is reached by going the angle `t` in the direction `b`. -/
theorem C182_space (u lat1 lon1 lat2 lon2 t b : ℝ) (hu : 0 ≤ u) (hu1 : u ≤ 1 / 100000) (h1 : |lat1| ≤ 90 - 400 * u) (h2 : |lon1| ≤ 360)
    (h3 : |lat2| ≤ 90 - 400 * u) (h4 : |lon2| ≤ 360) (ht : 0 ≤ t) (hq : t ≤ Real.pi / 2) (hw : walk lat1 lon1 t b = place lat2 lon2) (z1 z2 : Option ℝ)
    (hz : z1 = none ∨ z2 = none ∨ z1 = z2) (X Y : Num) (h : SpaceFromGPS u lat1 lon1 z1 lat2 lon2 z2 X Y) :
    ∃ x y, Num.Is X x ∧ Num.Is Y y ∧ |x - earth * (t * Real.sin b)| ≤ 631 * u * earth ∧ |y - earth * (t * Real.cos b)| ≤ 631 * u * earth := by
  obtain ⟨d, β, a, hd, hβ, ha, h⟩ := h
  have hp := Real.pi_pos
  have hp4 := Real.pi_lt_d4
  obtain ⟨w1, w2, w3⟩ := Gps.walk_dots lat1 lon1 t b
  rw [hw] at w1 w2 w3
  have hang : IsAngle (place lat1 lon1) (place lat2 lon2) t := ⟨ht, by linarith, by rw [← w1]; simp only [V3.dot]; ring⟩
  obtain ⟨r, hr, her⟩ := DistanceOf.quarter hu hu1 h1 h2 h3 h4 hang hq hz hd
  obtain ⟨ψ, w, k1, k2, k3, k4⟩ := hβ.near hu hu1 (by linarith) h2 (by linarith) h4 ha
  rw [w2] at k3
  rw [w3] at k4
  rcases h with ⟨rfl, -⟩ | ⟨r', s, c, vx, vy, hr', hs, hc, hx, hy, oX, oY⟩
  · simp [Num.Is] at hr
  obtain rfl : r = r' := hr.rv_eq.symm.trans hr'.rv_eq
  have he : 0 < earth := by unfold earth; norm_num
  have hst : 0 ≤ Real.sin t := Real.sin_nonneg_of_nonneg_of_le_pi ht (by linarith)
  -- the direction
  have hv : ‖((Real.sin t : ℂ) * ⟨Real.cos b, Real.sin b⟩)‖ = Real.sin t := by
    rw [norm_mul, unit_norm, mul_one, Complex.norm_real, Real.norm_eq_abs, abs_of_nonneg hst]
  have hun := unit_near (v := (Real.sin t : ℂ) * ⟨Real.cos b, Real.sin b⟩) (q := ⟨Real.cos b, Real.sin b⟩) (unit_norm ψ) k2 (by rw [hv])
  rw [hv] at hun
  have hdist : ‖w - (Real.sin t : ℂ) * ⟨Real.cos b, Real.sin b⟩‖ ≤ 139 * u := by
    refine (Complex.norm_le_abs_re_add_abs_im _).trans ?_
    simp only [Complex.sub_re, Complex.sub_im, Complex.re_ofReal_mul, Complex.im_ofReal_mul]
    linarith
  have htt : t ≤ Real.pi / 2 * Real.sin t := by
    have := mul_le_mul_of_nonneg_left (Real.mul_le_sin ht hq) (by positivity : 0 ≤ Real.pi / 2)
    rwa [show Real.pi / 2 * (2 / Real.pi * t) = t by field_simp] at this
  have hdir : ∀ z, |z| ≤ ‖(⟨Real.cos ψ, Real.sin ψ⟩ : ℂ) - ⟨Real.cos b, Real.sin b⟩‖ → t * |z| ≤ 4370 / 10 * u := by
    intro z hz
    have g1 := mul_le_mul_of_nonneg_left hz hst
    have g2 := mul_le_mul_of_nonneg_right htt (abs_nonneg z)
    have g3 : Real.pi / 2 * (Real.sin t * |z|) ≤ Real.pi / 2 * (278 * u) := mul_le_mul_of_nonneg_left (by linarith) (by positivity)
    nlinarith
  have ht1 : t ≤ 15708 / 10000 := by linarith
  refine ⟨vx, vy, oX, oY, ?_, ?_⟩
  · exact coord hu hu1 he ht ht1 her hs (Real.abs_sin_le_one _) ((Real.abs_sin_sub_sin_le _ _).trans k1)
      (hdir _ (by simpa using Complex.abs_im_le_norm ((⟨Real.cos ψ, Real.sin ψ⟩ : ℂ) - ⟨Real.cos b, Real.sin b⟩))) hx
  · exact coord hu hu1 he ht ht1 her hc (Real.abs_cos_le_one _) ((Real.abs_cos_sub_cos_le _ _).trans k1)
      (hdir _ (by simpa using Complex.abs_re_le_norm ((⟨Real.cos ψ, Real.sin ψ⟩ : ℂ) - ⟨Real.cos b, Real.sin b⟩))) hy

namespace Rounded

open Geo

/-- Computations without errors are among those that are considered. -/
theorem Distance.exists {u : ℝ} (hu : 0 ≤ u) (l1 n1 l2 n2 : ℝ) : ∃ out, Distance u l1 n1 l2 n2 out ∧ (out = .nan ∨ ∃ d, Num.Is out d) := by
  have D : ∀ d : ℝ, Deg2rad u d (d * (Real.pi / 180)) := fun d => ⟨_, _, Rd.exact hu _, Rd.exact hu _, Rd.exact hu _⟩
  have H : ∀ φ1 o1 φ2 o2 : ℝ, ∃ a, Haversine u φ1 o1 φ2 o2 a := fun φ1 o1 φ2 o2 => ⟨_, _, _, _, _, _, _, _, _, _, _, _, _, Rd.exact hu _, Rd.exact hu _,
    Rd.exact hu _, Rd.exact hu _, Rd.exact hu _, Rd.exact hu _, Rd.exact hu _, Rd.exact hu _, Rd.exact hu _, Rd.exact hu _, Rd.exact hu _, Rd.exact hu _,
    Rd.exact hu _⟩
  obtain ⟨a, ha⟩ := H (l1 * (Real.pi / 180)) (n1 * (Real.pi / 180)) (l2 * (Real.pi / 180)) (n2 * (Real.pi / 180))
  by_cases h : a < 0
  · exact ⟨.nan, ⟨_, _, _, _, a, D _, D _, D _, D _, ha, by rw [if_pos h]⟩, Or.inl rfl⟩
  · by_cases h' : 1 < Real.sqrt a
    · exact ⟨.nan, ⟨_, _, _, _, a, D _, D _, D _, D _, ha, by rw [if_neg h]; exact ⟨_, Rd.exact hu _, by rw [if_pos h']⟩⟩, Or.inl rfl⟩
    · refine ⟨.fin (6371000 * (2 * Real.arcsin (Real.sqrt a))), ⟨_, _, _, _, a, D _, D _, D _, D _, ha, ?_⟩, Or.inr ⟨_, Num.is_fin _⟩⟩
      rw [if_neg h]
      refine ⟨_, Rd.exact hu _, ?_⟩
      rw [if_neg h']
      exact ⟨_, _, _, Rd.exact hu _, Rd.exact hu _, Rd.exact hu _, Num.is_fin _⟩

theorem SpaceFromGPS.exists {u : ℝ} (hu : 0 ≤ u) (l1 n1 l2 n2 : ℝ) : ∃ X Y, SpaceFromGPS u l1 n1 none l2 n2 none X Y := by
  have D : ∀ d : ℝ, Deg2rad u d (d * (Real.pi / 180)) := fun d => ⟨_, _, Rd.exact hu _, Rd.exact hu _, Rd.exact hu _⟩
  have B : ∃ β, Bearing u l1 n1 l2 n2 β := ⟨_, _, _, _, _, _, _, _, _, _, _, _, _, _, _, _, _, _, D _, D _, D _, D _, Rd.exact hu _, Rd.exact hu _,
    Rd.exact hu _, Rd.exact hu _, Rd.exact hu _, Rd.exact hu _, Rd.exact hu _, Rd.exact hu _, Rd.exact hu _, Rd.exact hu _, Rd.exact hu _, Rd.exact hu _,
    Or.inl (Rd.exact hu _), _, _, Rd.exact hu _, Rd.exact hu _, Rd.exact hu _⟩
  obtain ⟨β, hβ⟩ := B
  obtain ⟨out, ho, h | ⟨d, hd⟩⟩ := Distance.exists hu l1 n1 l2 n2
  · exact ⟨.nan, .nan, out, β, _, ho, hβ, D _, Or.inl ⟨h, rfl, rfl⟩⟩
  · exact ⟨.fin _, .fin _, out, β, _, ho, hβ, D _, Or.inr ⟨_, _, _, _, _, hd, Rd.exact hu _, Rd.exact hu _, Rd.exact hu _, Rd.exact hu _, Num.is_fin _, Num.is_fin _⟩⟩

end Rounded

/-- A quarter of the equator. -/
example : ∃ X Y x y, SpaceFromGPS (1 / 2 ^ 50) 0 0 none 0 90 none X Y ∧ Num.Is X x ∧ Num.Is Y y ∧ |x - earth * (Real.pi / 2)| ≤ 4 / 10 ^ 6 ∧ |y| ≤ 4 / 10 ^ 6 := by
  obtain ⟨X, Y, h⟩ := SpaceFromGPS.exists (u := 1 / 2 ^ 50) (by positivity) 0 0 0 90
  have hw : walk 0 0 (Real.pi / 2) (Real.pi / 2) = place 0 90 := by
    have e : rad 90 = Real.pi / 2 := by unfold rad; ring
    have e0 : rad 0 = 0 := by unfold rad; ring
    ext <;> simp [walk, place, north, east, e, e0]
  obtain ⟨x, y, h1, h2, h3, h4⟩ := C182_space (1 / 2 ^ 50) 0 0 0 90 (Real.pi / 2) (Real.pi / 2) (by positivity) (by norm_num) (by norm_num) (by norm_num)
    (by norm_num) (by rw [abs_of_pos] <;> norm_num) (by positivity) le_rfl hw none none (Or.inl rfl) X Y h
  rw [Real.sin_pi_div_two, mul_one] at h3
  rw [Real.cos_pi_div_two, mul_zero, mul_zero, sub_zero] at h4
  have : (631 : ℝ) * (1 / 2 ^ 50) * earth ≤ 4 / 10 ^ 6 := by unfold earth; norm_num
  exact ⟨X, Y, x, y, h, h1, h2, h3.trans this, h4.trans this⟩

/-- Distances in double precision. -/
example (lat1 lon1 lat2 lon2 t : ℝ) (h1 : |lat1| ≤ 89) (h2 : |lon1| ≤ 360) (h3 : |lat2| ≤ 89) (h4 : |lon2| ≤ 360)
    (ht : IsAngle (place lat1 lon1) (place lat2 lon2) t) (hq : t ≤ Real.pi / 2) :
    ∃ out d, Distance (1 / 2 ^ 50) lat1 lon1 lat2 lon2 out ∧ Num.Is out d ∧ |d - earth * t| ≤ 1 / 10 ^ 6 := by
  obtain ⟨out, ho, -⟩ := Distance.exists (u := 1 / 2 ^ 50) (by positivity) lat1 lon1 lat2 lon2
  obtain ⟨d, k1, k2⟩ := C182_distance (1 / 2 ^ 50) lat1 lon1 lat2 lon2 t (by positivity) (by norm_num) (h1.trans (by norm_num)) h2
    (h3.trans (by norm_num)) h4 ht hq out ho
  have : (148 : ℝ) * (1 / 2 ^ 50) * earth ≤ 1 / 10 ^ 6 := by unfold earth; norm_num
  exact ⟨out, d, ho, k1, k2.trans this⟩

/-- The distances that can be computed for a pair of opposite points. -/
example : ∃ out, Distance (1 / 2 ^ 50) 0 0 0 180 out ∧ (out = .nan ∨ ∃ d, Num.Is out d ∧ |d - earth * Real.pi| ≤ 6) := by
  obtain ⟨out, ho, -⟩ := Distance.exists (u := 1 / 2 ^ 50) (by positivity) 0 0 0 180
  have ht : IsAngle (place 0 0) (place 0 180) Real.pi := by
    have e : rad 180 = Real.pi := by unfold rad; ring
    have e0 : rad 0 = 0 := by unfold rad; ring
    exact ⟨Real.pi_pos.le, le_rfl, by simp [place, V3.dot, e, e0]⟩
  refine ⟨out, ho, ?_⟩
  rcases C182_far (1 / 2 ^ 50) 0 0 0 180 Real.pi (by positivity) (by norm_num) (by norm_num) (by norm_num) (by norm_num)
    (by rw [abs_of_pos (by norm_num)]; norm_num) ht out ho with ⟨h, -⟩ | ⟨d, h1, h2⟩
  · exact Or.inl h
  · refine Or.inr ⟨d, h1, h2.trans ?_⟩
    have hs : Real.sqrt (25 * (1 / 2 ^ 50)) ≤ 1491 / 10 ^ 10 := by rw [Real.sqrt_le_left (by norm_num)]; norm_num
    have hp := Real.pi_lt_d4
    have hp0 := Real.pi_pos
    unfold earth
    have : 2 * Real.pi * Real.sqrt (25 * (1 / 2 ^ 50)) ≤ 2 * 3.1416 * (1491 / 10 ^ 10) :=
      mul_le_mul (by linarith) hs (Real.sqrt_nonneg _) (by norm_num)
    norm_num at this ⊢
    linarith

/-- Opposite points with heights. -/
example : ∃ out, DistanceHeights (1 / 2 ^ 50) 0 0 3 0 180 5 out ∧ IsAngle (place 0 0) (place 0 180) Real.pi := by
  have ht : IsAngle (place 0 0) (place 0 180) Real.pi := by
    have e : rad 180 = Real.pi := by unfold rad; ring
    have e0 : rad 0 = 0 := by unfold rad; ring
    exact ⟨Real.pi_pos.le, le_rfl, by simp [place, V3.dot, e, e0]⟩
  obtain ⟨d, hd, h⟩ := Distance.exists (u := 1 / 2 ^ 50) (by positivity) 0 0 0 180
  rcases h with h | ⟨r, hr⟩
  · exact ⟨.nan, ⟨d, hd, .inl ⟨h, rfl⟩⟩, ht⟩
  · exact ⟨.fin _, ⟨d, hd, .inr ⟨r, _, _, hr, Rd.exact (by positivity) _, ⟨_, _, _, Rd.exact (by positivity) _, Rd.exact (by positivity) _,
      Rd.exact (by positivity) _, Rd.exact (by positivity) _⟩, Num.is_fin _⟩⟩, ht⟩

/-- **C182.** For opposite points on the equator nan can come out, however small the errors are. -/
theorem C182_opposite (u lon : ℝ) (hu : 0 < u) : Distance u 0 lon 0 (lon + 180) .nan := by
  have D : ∀ d : ℝ, Deg2rad u d (d * (Real.pi / 180)) := fun d => ⟨_, _, Rd.exact hu.le _, Rd.exact hu.le _, Rd.exact hu.le _⟩
  have e : ((lon + 180) * (Real.pi / 180) - lon * (Real.pi / 180)) / 2 = Real.pi / 2 := by ring
  refine ⟨_, _, _, _, 1 + u, D _, D _, D _, D _, ⟨_, _, _, _, _, _, _, _, _, _, _, _, Rd.exact hu.le _, Rd.exact hu.le _,
    Rd.exact hu.le _, Rd.exact hu.le _, Rd.exact hu.le _, Rd.exact hu.le _, Rd.exact hu.le _, Rd.exact hu.le _, Rd.exact hu.le _, Rd.exact hu.le _,
    Rd.exact hu.le _, Rd.exact hu.le _, ?_⟩, ?_⟩
  · rw [e]
    simp [Rd, abs_of_pos hu]
  · rw [if_neg (by linarith)]
    refine ⟨_, Rd.exact hu.le _, ?_⟩
    rw [if_pos]
    rw [Real.lt_sqrt (by norm_num)]
    linarith
