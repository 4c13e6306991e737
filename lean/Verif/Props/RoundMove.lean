import Verif.Props.RoundGps

/-! # C183: rounding errors of going along great circles -/

namespace Rounded

open Geo

/-- The arcsine of a number close to a sine. -/
theorem arcsin_lip {α β h : ℝ} (hα : |α| ≤ Real.pi / 2) (hβ : |β| ≤ Real.pi / 2) (hh : |Real.sin α - Real.sin β| ≤ h) :
    (Real.cos α + Real.cos β) * |α - β| ≤ 2 * h := by
  have hp := Real.pi_pos
  wlog hab : β ≤ α generalizing α β
  · rw [abs_sub_comm] at hh ⊢
    rw [add_comm]
    exact this hβ hα hh (le_of_not_ge hab)
  have a1 := abs_le.1 hα
  have b1 := abs_le.1 hβ
  rw [abs_of_nonneg (by linarith : 0 ≤ α - β)]
  obtain ⟨d, hd⟩ : ∃ d, d = (α - β) / 2 := ⟨_, rfl⟩
  obtain ⟨m, hm⟩ : ∃ m, m = (α + β) / 2 := ⟨_, rfl⟩
  have ea : α = m + d := by rw [hd, hm]; ring
  have eb : β = m - d := by rw [hd, hm]; ring
  have hd0 : 0 ≤ d := by rw [hd]; linarith
  have hd1 : d ≤ Real.pi / 2 := by rw [hd]; linarith
  have es : Real.sin α - Real.sin β = 2 * Real.cos m * Real.sin d := by rw [ea, eb, Real.sin_add, Real.sin_sub]; ring
  have ec : Real.cos α + Real.cos β = 2 * Real.cos m * Real.cos d := by rw [ea, eb, Real.cos_add, Real.cos_sub]; ring
  have hcm : 0 ≤ Real.cos m := Real.cos_nonneg_of_neg_pi_div_two_le_of_le (by rw [hm]; linarith) (by rw [hm]; linarith)
  have hh' := (le_abs_self _).trans hh
  rw [es] at hh'
  have ed : α - β = 2 * d := by rw [hd]; ring
  rw [ed, ec]
  have : d * Real.cos d ≤ Real.sin d := by
    rcases hd1.eq_or_lt with h | h
    · rw [h, Real.cos_pi_div_two, Real.sin_pi_div_two]; norm_num
    rcases hd0.eq_or_lt with h0 | h0
    · rw [← h0]; simp
    · have := Real.lt_tan h0 h
      rw [Real.tan_eq_sin_div_cos, lt_div_iff₀ (Real.cos_pos_of_mem_Ioo ⟨by linarith, h⟩)] at this
      exact this.le
  have := mul_le_mul_of_nonneg_left this hcm
  nlinarith

/-- The angles of two directions, up to whole turns. -/
theorem turn_near {ψ Δ K : ℝ} (h : ‖(⟨Real.cos ψ, Real.sin ψ⟩ : ℂ) - ⟨Real.cos Δ, Real.sin Δ⟩‖ ≤ K) :
    ∃ k : ℤ, |ψ - (Δ + k * (2 * Real.pi))| ≤ Real.pi / 2 * K := by
  have hp := Real.pi_pos
  refine ⟨round ((ψ - Δ) / (2 * Real.pi)), ?_⟩
  obtain ⟨k, hk⟩ : ∃ k, k = round ((ψ - Δ) / (2 * Real.pi)) := ⟨_, rfl⟩
  have hr := abs_sub_round ((ψ - Δ) / (2 * Real.pi))
  rw [← hk] at hr ⊢
  obtain ⟨x, hx⟩ : ∃ x, x = ψ - (Δ + k * (2 * Real.pi)) := ⟨_, rfl⟩
  have hxp : |x| ≤ Real.pi := by
    have e : x = ((ψ - Δ) / (2 * Real.pi) - k) * (2 * Real.pi) := by rw [hx]; field_simp; ring
    rw [e, abs_mul, abs_of_pos (by positivity : 0 < 2 * Real.pi)]
    nlinarith
  rw [← hx]
  have hn : ‖(⟨Real.cos ψ, Real.sin ψ⟩ : ℂ) - ⟨Real.cos Δ, Real.sin Δ⟩‖ ^ 2 = (2 * Real.sin (|x| / 2)) ^ 2 := by
    have e1 : ψ = x + Δ + k * (2 * Real.pi) := by rw [hx]; ring
    have hc : Real.cos (x + Δ) = Real.cos ψ := by rw [e1, Real.cos_add_int_mul_two_pi]
    have hs : Real.sin (x + Δ) = Real.sin ψ := by rw [e1, Real.sin_add_int_mul_two_pi]
    rw [← Complex.normSq_eq_norm_sq, Complex.normSq_apply, mul_pow, half_sq, Real.cos_abs]
    simp only [Complex.sub_re, Complex.sub_im]
    rw [← hc, ← hs, Real.cos_add, Real.sin_add]
    have h1 := Real.sin_sq_add_cos_sq x
    have h2 := Real.sin_sq_add_cos_sq Δ
    grobner
  have hb : 0 ≤ |x| / 2 := by positivity
  have hms : 2 / Real.pi * (|x| / 2) ≤ Real.sin (|x| / 2) := Real.mul_le_sin hb (by linarith)
  have hs0 : 0 ≤ 2 * Real.sin (|x| / 2) := by
    have : 0 ≤ 2 / Real.pi * (|x| / 2) := by positivity
    linarith
  have hle := (abs_le_of_sq_le_sq hn.ge (norm_nonneg _)).trans h
  rw [abs_of_nonneg hs0] at hle
  have h3 := mul_le_mul_of_nonneg_left (by linarith : 2 * (2 / Real.pi * (|x| / 2)) ≤ K) (by positivity : 0 ≤ Real.pi / 2)
  rwa [show Real.pi / 2 * (2 * (2 / Real.pi * (|x| / 2))) = |x| by field_simp] at h3

/-- Radians to degrees. -/
theorem Rad2deg.rel {u r d : ℝ} (hu : 0 ≤ u) (hu1 : u ≤ 1 / 100000) (h : Rad2deg u r d) : ∃ g, |g - 1| ≤ 3006 / 1000 * u ∧ rad d = r * g := by
  obtain ⟨k, c, k1, k2, k3⟩ := h
  obtain ⟨e1, he1, rfl⟩ := k1.form hu
  obtain ⟨e2, he2, rfl⟩ := k2.form hu
  obtain ⟨e3, he3, rfl⟩ := k3.form hu
  obtain ⟨e1p, e1i⟩ := fac_inv (by linarith) he1
  have hp := Real.pi_pos
  have hu2 : u ≤ 1 / 1000 := by linarith
  have i1 : |e1⁻¹ - 1| ≤ 1001 / 1000 * u := by
    refine e1i.trans ?_
    have : 0 < 1 - u := by linarith
    rw [inv_eq_one_div, sub_le_iff_le_add, div_le_iff₀ this]
    nlinarith
  have g1 := fac_lin (k := 2003 / 1000) hu hu2 (by norm_num) (by norm_num) i1 (by linarith : |e2 - 1| ≤ 1 * u) (by norm_num)
  have g2 := fac_lin (k := 3006 / 1000) hu hu2 (by norm_num) (by norm_num) g1 (by linarith : |e3 - 1| ≤ 1 * u) (by norm_num)
  refine ⟨_, g2, ?_⟩
  unfold rad
  field_simp

theorem Deg2rad.turn {u d y : ℝ} (hu : 0 ≤ u) (hu1 : u ≤ 1 / 100000) (hd : |d| ≤ 360) (h : Deg2rad u d y) : |y - rad d| ≤ 189 / 10 * u :=
  Deg2rad.near hu hu1 hd h

theorem within_one {z s c u : ℝ} (h : s ^ 2 + c ^ 2 = 1) (hz : |z - s| ≤ 53 * u) (hn : 106 * u < c ^ 2) : |z| ≤ 1 := by
  have h5 := abs_sub_abs_le_abs_sub z s
  have h7 : |s| ^ 2 = s ^ 2 := sq_abs _
  have h9 := abs_nonneg s
  nlinarith

/-- A sum of two numbers. -/
theorem sum_near {u a a' b b' s A B M C : ℝ} (hu : 0 ≤ u) (hu1 : u ≤ 1 / 100000) (hA : 0 ≤ A) (hB : 0 ≤ B) (ha : |a' - a| ≤ A * u) (hb : |b' - b| ≤ B * u)
    (hM : |a + b| ≤ M) (h : Rd u (a' + b') s) (hC : A + B + M + (A + B) / 100000 ≤ C) : |s - (a + b)| ≤ C * u := by
  obtain ⟨f, hf, rfl⟩ := h.form hu
  have h1 : |a' + b' - (a + b)| ≤ (A + B) * u := by
    rw [show a' + b' - (a + b) = (a' - a) + (b' - b) by ring]
    exact (abs_add_le _ _).trans (by linarith)
  have h2 : |a' + b'| ≤ M + (A + B) / 100000 := by
    have := abs_sub_abs_le_abs_sub (a' + b') (a + b)
    have h3 : (A + B) * u ≤ (A + B) / 100000 := by nlinarith
    linarith
  rw [show (a' + b') * f - (a + b) = (a' + b') * (f - 1) + (a' + b' - (a + b)) by ring]
  refine (abs_add_le _ _).trans ?_
  rw [abs_mul]
  have h3 := mul_le_mul h2 hf (abs_nonneg _) ((abs_nonneg _).trans h2)
  nlinarith

set_option maxHeartbeats 800000 in
/-- Going along a great circle, with errors in the angle and in the direction. -/
theorem MoveDistance.near {u lat lon R d bearing δ β φ2 : ℝ} {outLat outLon : Num} (hu : 0 ≤ u) (hu1 : u ≤ 1 / 100000) (h1 : |lat| ≤ 90) (h2 : |lon| ≤ 360)
    (ha : ∀ a, Rd u (d / R) a → |a - δ| ≤ 6 * u) (hb : ∀ b, Deg2rad u bearing b → |b - β| ≤ 221 / 10 * u)
    (hφ : |φ2| ≤ Real.pi / 2) (hz : (walk lat lon δ β).z = Real.sin φ2) (hc : 0 < Real.cos (rad lat))
    (hn : 106 * u < Real.cos φ2 ^ 2) (hp : 0 < Real.cos φ2) (h : MoveDistance u lat lon R d bearing outLat outLon) :
    ∃ la lo lon2, Num.Is outLat la ∧ Num.Is outLon lo ∧ walk lat lon δ β = place (φ2 * (180 / Real.pi)) lon2 ∧
      |rad la - φ2| ≤ 113 * u / Real.cos φ2 ∧ |rad lo - rad lon2| ≤ 403 * u / (Real.cos (rad lat) * Real.cos φ2) ∧ |rad lo - rad lon| ≤ Real.pi + 61 * u := by
  have hpi := Real.pi_pos
  have hp4 := Real.pi_lt_d4
  obtain ⟨φ, o, b, a, s1, ca, c1, sa, cb, p, q, r, z, k1, k2, k3, k4, k5, k6, k7, k8, k9, k10, k11, k12, k13, h⟩ := h
  obtain ⟨-, eφ⟩ := k1.lat hu hu1 h1
  obtain ⟨ro, eo⟩ := k2.lon hu hu1 h2
  have eb := hb _ k3
  have ea := ha _ k4
  have bc := Real.abs_cos_le_one
  have bs := Real.abs_sin_le_one
  have hs1 := near_sin hu eφ k5
  have hca := near_cos hu ea k6
  have hc1 := near_cos hu eφ k7
  have hsa := near_sin hu ea k8
  have hcb := near_cos hu eb k9
  have b2 : ∀ {x y : ℝ}, |x| ≤ 1 → |y| ≤ 1 → |x * y| ≤ 1 := fun h h' => by rw [abs_mul]; exact mul_le_one₀ h (abs_nonneg _) h'
  have hP := prod_near (C := 1374 / 100) hu hu1 (by norm_num) (by norm_num) hs1 (bs _) hca (bc _) k10 (by norm_num)
  have hQ := prod_near (C := 1374 / 100) hu hu1 (by norm_num) (by norm_num) hc1 (bc _) hsa (bs _) k11 (by norm_num)
  have hR := prod_near (C := 3785 / 100) hu hu1 (by norm_num) (by norm_num) hQ (b2 (bc _) (bs _)) hcb (bc _) k12 (by norm_num)
  have ez : Real.sin (rad lat) * Real.cos δ + Real.cos (rad lat) * Real.sin δ * Real.cos (β) = Real.sin φ2 := by
    rw [← hz, (Gps.walk_coords lat lon δ (β)).2.2]
  have hZ : |z - Real.sin φ2| ≤ 53 * u := by
    rw [← ez]
    refine sum_near hu hu1 (by norm_num) (by norm_num) hP hR (M := 1) ?_ k13 (by norm_num)
    rw [ez]; exact bs _
  -- no nan
  have hz1 : |z| ≤ 1 := within_one (Real.sin_sq_add_cos_sq φ2) hZ hn
  rw [if_neg (not_lt.2 hz1)] at h
  obtain ⟨w, sb, m1, m2, sw, n, x, ψ, l, la, lo, j1, j2, j3, j4, j5, j6, j7, j8, j9, j10, j11, j12, j13⟩ := h
  -- the latitude
  obtain ⟨α, hα⟩ : ∃ α, α = Real.arcsin z := ⟨_, rfl⟩
  rw [← hα] at j1
  have sα : Real.sin α = z := by rw [hα]; exact Real.sin_arcsin (abs_le.1 hz1).1 (abs_le.1 hz1).2
  have hαp : |α| ≤ Real.pi / 2 := by rw [hα, abs_le]; exact ⟨Real.neg_pi_div_two_le_arcsin z, Real.arcsin_le_pi_div_two z⟩
  have cα : 0 ≤ Real.cos α := Real.cos_nonneg_of_neg_pi_div_two_le_of_le (by linarith [(abs_le.1 hαp).1]) (abs_le.1 hαp).2
  have hlip := arcsin_lip (h := 53 * u) hαp hφ (by rw [sα]; exact hZ)
  obtain ⟨c2, hc2⟩ : ∃ c2, c2 = Real.cos φ2 := ⟨_, rfl⟩
  obtain ⟨cl, hcl⟩ : ∃ cl, cl = Real.cos (rad lat) := ⟨_, rfl⟩
  have c2le : c2 ≤ 1 := by rw [hc2]; exact Real.cos_le_one _
  have clle : cl ≤ 1 := by rw [hcl]; exact Real.cos_le_one _
  rw [← hc2] at hp hlip hn ⊢
  rw [← hcl] at hc ⊢
  have hα2 : |α - φ2| ≤ 106 * u / c2 := by
    rw [le_div_iff₀ hp]
    have := mul_nonneg cα (abs_nonneg (α - φ2))
    linarith
  obtain ⟨f1, hf1, rfl⟩ := j1.form hu
  have hw : |α * f1 - α| ≤ 1571 / 1000 * u := by
    rw [show α * f1 - α = α * (f1 - 1) by ring, abs_mul]
    exact (mul_le_mul hαp hf1 (abs_nonneg _) (by positivity)).trans (mul_le_mul_of_nonneg_right (by linarith) hu)
  -- the direction of the longitude
  have hsw : |sw - Real.sin φ2| ≤ 5558 / 100 * u := by
    have e := near_sin hu (a := α) hw j5
    rw [sα] at e
    have := abs_sub_le sw z (Real.sin φ2)
    linarith
  have hsb := near_sin hu eb j2
  have hM1 := prod_near (C := 3111 / 100) hu hu1 (by norm_num) (by norm_num) hsb (bs _) hsa (bs _) j3 (by norm_num)
  have hM2 := prod_near (C := 38) hu hu1 (by norm_num) (by norm_num) hM1 (b2 (bs _) (bs _)) hc1 (bc _) j4 (by norm_num)
  have hN := prod_near (C := 6233 / 100) hu hu1 (by norm_num) (by norm_num) hs1 (bs _) hsw (bs _) j6 (by norm_num)
  -- the exact end point
  have hwn := Gps.walk_normSq lat lon δ (β)
  obtain ⟨wx, wy, wz⟩ := Gps.walk_coords lat lon δ (β)
  obtain ⟨A, hA⟩ : ∃ A, A = Real.cos δ * Real.cos (rad lat) - Real.sin δ * Real.cos (β) * Real.sin (rad lat) := ⟨_, rfl⟩
  obtain ⟨B, hB⟩ : ∃ B, B = Real.sin δ * Real.sin (β) := ⟨_, rfl⟩
  have hAB : A ^ 2 + B ^ 2 = c2 ^ 2 := by
    have t1 := Real.sin_sq_add_cos_sq δ
    have t2 := Real.sin_sq_add_cos_sq (rad lat)
    have t3 := Real.sin_sq_add_cos_sq (β)
    have t4 := Real.sin_sq_add_cos_sq φ2
    rw [hc2]
    have : Real.cos φ2 ^ 2 = 1 - (Real.sin (rad lat) * Real.cos δ + Real.cos (rad lat) * Real.sin δ * Real.cos (β)) ^ 2 := by rw [ez]; linarith
    rw [this, hA, hB]
    grobner
  obtain ⟨Δ, hΔ⟩ : ∃ Δ, Δ = Complex.arg ⟨A, B⟩ := ⟨_, rfl⟩
  have nAB : ‖(⟨A, B⟩ : ℂ)‖ = c2 := by
    rw [Complex.norm_def, Complex.normSq_mk, show A * A + B * B = c2 ^ 2 by rw [← hAB]; ring, Real.sqrt_sq hp.le]
  have eA : A = c2 * Real.cos Δ := by
    have := Complex.norm_mul_cos_arg ⟨A, B⟩
    rw [nAB, ← hΔ] at this; exact this.symm
  have eB : B = c2 * Real.sin Δ := by
    have := Complex.norm_mul_sin_arg ⟨A, B⟩
    rw [nAB, ← hΔ] at this; exact this.symm
  have ex : Real.cos δ - Real.sin (rad lat) * Real.sin φ2 = cl * c2 * Real.cos Δ := by
    rw [mul_assoc, ← eA, ← ez, hA, hcl]
    have t2 := Real.sin_sq_add_cos_sq (rad lat)
    grobner
  have ey : Real.sin (β) * Real.sin δ * Real.cos (rad lat) = cl * c2 * Real.sin Δ := by
    rw [mul_assoc cl, ← eB, hB, hcl]; ring
  have hcc : 0 < cl * c2 := mul_pos hc hp
  have hX : |x - cl * c2 * Real.cos Δ| ≤ 71 * u := by
    rw [← ex, sub_eq_add_neg]
    refine sum_near hu hu1 (by norm_num) (by norm_num) hca (b' := -n) (B := 6233 / 100) ?_ (M := 1) ?_ (by rwa [← sub_eq_add_neg]) (by norm_num)
    · rwa [neg_sub_neg, abs_sub_comm]
    · rw [← sub_eq_add_neg, ex, abs_mul, abs_of_pos hcc]
      exact mul_le_one₀ (mul_le_one₀ clle hp.le c2le) (abs_nonneg _) (bc _)
  have hY : |m2 - cl * c2 * Real.sin Δ| ≤ 38 * u := by rw [← ey]; exact hM2
  obtain ⟨χ, g, hχ, hg, rfl, hχw⟩ := j8.near hu
  have hnv : ‖((cl * c2 : ℝ) : ℂ) * ⟨Real.cos Δ, Real.sin Δ⟩‖ = cl * c2 := by
    rw [norm_mul, unit_norm, mul_one, Complex.norm_real, Real.norm_eq_abs, abs_of_pos hcc]
  have hun := unit_near (v := ((cl * c2 : ℝ) : ℂ) * ⟨Real.cos Δ, Real.sin Δ⟩) (q := ⟨Real.cos Δ, Real.sin Δ⟩) (unit_norm χ) hχw (by rw [hnv])
  rw [hnv] at hun
  have hdist : ‖(⟨x, m2⟩ : ℂ) - ((cl * c2 : ℝ) : ℂ) * ⟨Real.cos Δ, Real.sin Δ⟩‖ ≤ 109 * u := by
    refine (Complex.norm_le_abs_re_add_abs_im _).trans ?_
    simp only [Complex.sub_re, Complex.sub_im, Complex.re_ofReal_mul, Complex.im_ofReal_mul]
    linarith
  obtain ⟨k, hk⟩ := turn_near (K := 218 * u / (cl * c2)) (ψ := χ) (Δ := Δ) (by
    rw [le_div_iff₀ hcc]
    linarith)
  have hk2 : |χ - (Δ + k * (2 * Real.pi))| ≤ 343 * u / (cl * c2) := by
    refine hk.trans ?_
    rw [← mul_div_assoc, div_le_div_iff_of_pos_right hcc]
    have := mul_le_mul_of_nonneg_right hp4.le hu
    linarith
  -- the longitude
  obtain ⟨f2, hf2, rfl⟩ := j9.form hu
  obtain ⟨f3, hf3, e3⟩ := j11.rel hu hu1
  obtain ⟨f4, hf4, e4⟩ := j10.rel hu hu1
  have iu : u ≤ u / (cl * c2) := by
    rw [le_div_iff₀ hcc]
    exact mul_le_of_le_one_right hu (mul_le_one₀ clle hp.le c2le)
  have iu2 : u ≤ u / c2 := by
    rw [le_div_iff₀ hp]
    exact mul_le_of_le_one_right hu c2le
  refine ⟨la, lo, lon + (Δ + k * (2 * Real.pi)) * (180 / Real.pi), j12, j13, ?_, ?_, ?_⟩
  · have er : rad (lon + (Δ + k * (2 * Real.pi)) * (180 / Real.pi)) = rad lon + Δ + k * (2 * Real.pi) := by
      unfold rad
      field_simp
      ring
    have es : rad (φ2 * (180 / Real.pi)) = φ2 := rad_rad2deg φ2
    ext
    · rw [wx]
      simp only [place, er, es]
      rw [Real.cos_add_int_mul_two_pi, ← hA, ← hB, eA, eB, Real.cos_add, hc2]
      ring
    · rw [wy]
      simp only [place, er, es]
      rw [Real.sin_add_int_mul_two_pi, ← hA, ← hB, eA, eB, Real.sin_add, hc2]
      ring
    · rw [hz]
      simp only [place, es]
  · rw [e4, show α * f1 * f4 - φ2 = α * (f1 * f4 - 1) + (α - φ2) by ring]
    refine (abs_add_le _ _).trans ?_
    have g1 := fac_lin (k := 4010 / 1000) hu (by linarith) (by norm_num) (by norm_num) (by linarith : |f1 - 1| ≤ 1 * u) hf4 (by norm_num)
    rw [abs_mul]
    have := (mul_le_mul hαp g1 (abs_nonneg _) (by positivity)).trans (mul_le_mul_of_nonneg_right (by linarith : Real.pi / 2 ≤ 1571 / 1000) (by positivity))
    have e5 : 113 * u / c2 = 106 * u / c2 + 7 * (u / c2) := by ring
    rw [e5]
    linarith
  · have er : rad (lon + (Δ + k * (2 * Real.pi)) * (180 / Real.pi)) = rad lon + (Δ + k * (2 * Real.pi)) := by
      unfold rad
      field_simp
    rw [e3, er]
    have g1 := fac_lin (k := 4010 / 1000) hu (by linarith) (by norm_num) (by norm_num) (by linarith : |f2 - 1| ≤ 1 * u) hf3 (by norm_num)
    have hob : |o| ≤ 6286 / 1000 := by
      have := abs_sub_abs_le_abs_sub o (rad lon)
      linarith
    have hχg : |χ * g - χ| ≤ 315 / 100 * u := by
      rw [show χ * g - χ = χ * (g - 1) by ring, abs_mul]
      exact (mul_le_mul hχ hg (abs_nonneg _) (by positivity)).trans (mul_le_mul_of_nonneg_right (by linarith) hu)
    have hχb : |χ * g| ≤ 315 / 100 := by
      have := abs_sub_abs_le_abs_sub (χ * g) χ
      linarith
    have hsum : |o + χ * g| ≤ 944 / 100 := (abs_add_le _ _).trans (by linarith)
    have t1 : |(o + χ * g) * (f2 * f3 - 1)| ≤ 3786 / 100 * u := by
      rw [abs_mul]
      have := mul_le_mul hsum g1 (abs_nonneg _) (by norm_num)
      linarith
    have t2 : |(o - rad lon) + (χ * g - χ)| ≤ 2207 / 100 * u := (abs_add_le _ _).trans (by linarith)
    constructor
    · rw [show (o + χ * g) * f2 * f3 - (rad lon + (Δ + k * (2 * Real.pi))) = (o + χ * g) * (f2 * f3 - 1) + ((o - rad lon) + (χ * g - χ)) + (χ - (Δ + k * (2 * Real.pi))) by ring]
      refine (abs_add_three _ _ _).trans ?_
      have e5 : 403 * u / (cl * c2) = 343 * u / (cl * c2) + 60 * (u / (cl * c2)) := by ring
      rw [e5]
      linarith
    · rw [show (o + χ * g) * f2 * f3 - rad lon = (o + χ * g) * (f2 * f3 - 1) + ((o - rad lon) + (χ * g - χ)) + χ by ring]
      refine (abs_add_three _ _ _).trans ?_
      linarith

theorem vec_lip_cos {φ o φ' o' : ℝ} (hc : 0 ≤ Real.cos φ) : ‖vec φ' o' - vec φ o‖ ≤ |φ' - φ| + Real.cos φ * |o' - o| := by
  have h1 := vec_lip φ o' φ' o'
  rw [sub_self, abs_zero, add_zero] at h1
  have h2 : ‖vec φ o' - vec φ o‖ ≤ Real.cos φ * |o' - o| := by
    refine abs_le_of_sq_le_sq' ?_ (by positivity) |>.2
    rw [vec_dist]
    unfold hv
    rw [sub_self, zero_div, Real.sin_zero, mul_pow, sq_abs]
    have := Real.abs_sin_le_abs (x := (o - o') / 2)
    have h := sq_le_sq.2 this
    nlinarith [sq_nonneg (Real.cos φ), mul_le_mul_of_nonneg_left h (sq_nonneg (Real.cos φ))]
  have h3 := norm_sub_le_norm_sub_add_norm_sub (vec φ' o') (vec φ o') (vec φ o)
  linarith

/-- Angles and chords. -/
theorem angle_le_chord {l1 n1 l2 n2 t : ℝ} (ht : IsAngle (place l1 n1) (place l2 n2) t) :
    t ≤ Real.pi / 2 * ‖vec (rad l1) (rad n1) - vec (rad l2) (rad n2)‖ ∧ ‖vec (rad l1) (rad n1) - vec (rad l2) (rad n2)‖ ≤ t := by
  have hp := Real.pi_pos
  have h := sqrt_hv_angle ht
  rw [sqrt_hv] at h
  have h1 := Real.mul_le_sin (by linarith [ht.1] : 0 ≤ t / 2) (by linarith [ht.2.1])
  have h2 := Real.sin_le (by linarith [ht.1] : 0 ≤ t / 2)
  constructor
  · have e : ‖vec (rad l1) (rad n1) - vec (rad l2) (rad n2)‖ = 2 * Real.sin (t / 2) := by linarith
    rw [e]
    have := mul_le_mul_of_nonneg_left h1 hp.le
    rw [show Real.pi * (2 / Real.pi * (t / 2)) = t by field_simp] at this
    linarith
  · linarith

/-- The same as a distance between places. -/
theorem MoveDistance.place_near {u lat lon R d bearing δ β lat2 lon2 : ℝ} {outLat outLon : Num} (hu : 0 ≤ u) (hu1 : u ≤ 1 / 100000) (h1 : |lat| ≤ 90)
    (h2 : |lon| ≤ 360) (ha : ∀ a, Rd u (d / R) a → |a - δ| ≤ 6 * u) (hb : ∀ b, Deg2rad u bearing b → |b - β| ≤ 221 / 10 * u)
    (hl : |lat2| ≤ 90) (hw : walk lat lon δ β = place lat2 lon2) (hc : 0 < Real.cos (rad lat))
    (hn : 106 * u < Real.cos (rad lat2) ^ 2) (h : MoveDistance u lat lon R d bearing outLat outLon) :
    ∃ la lo t, Num.Is outLat la ∧ Num.Is outLon lo ∧ IsAngle (place la lo) (place lat2 lon2) t ∧
      t ≤ (178 / Real.cos (rad lat2) + 634 / Real.cos (rad lat)) * u ∧ |rad la - rad lat2| ≤ 113 * u / Real.cos (rad lat2) ∧
      |rad lo - rad lon| ≤ Real.pi + 61 * u := by
  have hpi := Real.pi_pos
  have hp4 := Real.pi_lt_d4
  have hφ : |rad lat2| ≤ Real.pi / 2 := by
    unfold rad
    rw [abs_mul, abs_of_pos (by positivity : 0 < Real.pi / 180)]
    nlinarith
  have hc0 : 0 ≤ Real.cos (rad lat2) := Real.cos_nonneg_of_neg_pi_div_two_le_of_le (by linarith [(abs_le.1 hφ).1]) (abs_le.1 hφ).2
  have hcp : 0 < Real.cos (rad lat2) := by
    rcases hc0.eq_or_lt with h | h
    · rw [← h] at hn; linarith
    · exact h
  obtain ⟨la, lo, l2, k1, k2, k3, k4, k5, k6⟩ := h.near hu hu1 h1 h2 ha hb hφ (by rw [hw]; rfl) hc hn hcp
  rw [rad2deg_rad, hw] at k3
  refine ⟨la, lo, arc (place la lo) (place lat2 lon2), k1, k2, arc_isAngle (place_normSq _ _) (place_normSq _ _), ?_, k4, k6⟩
  rw [k3]
  refine (angle_le_chord (arc_isAngle (place_normSq la lo) (place_normSq lat2 l2))).1.trans ?_
  have hv := vec_lip_cos (φ := rad lat2) (o := rad l2) (φ' := rad la) (o' := rad lo) hc0
  have h5 : Real.cos (rad lat2) * |rad lo - rad l2| ≤ 403 * u / Real.cos (rad lat) := by
    refine (mul_le_mul_of_nonneg_left k5 hc0).trans (le_of_eq ?_)
    field_simp
  have h6 : ‖vec (rad la) (rad lo) - vec (rad lat2) (rad l2)‖ ≤ 113 * (u / Real.cos (rad lat2)) + 403 * (u / Real.cos (rad lat)) := by
    refine hv.trans ((add_le_add k4 h5).trans (le_of_eq ?_))
    ring
  have i1 : 0 ≤ u / Real.cos (rad lat2) := by positivity
  have i2 : 0 ≤ u / Real.cos (rad lat) := by positivity
  refine (mul_le_mul (by linarith : Real.pi / 2 ≤ 15708 / 10000) h6 (norm_nonneg _) (by norm_num)).trans ?_
  have e : (178 / Real.cos (rad lat2) + 634 / Real.cos (rad lat)) * u = 178 * (u / Real.cos (rad lat2)) + 634 * (u / Real.cos (rad lat)) := by ring
  rw [e]
  linarith

end Rounded

open Rounded Geo

/-- **C183.** Going along a great circle: how far the computed place is from the true one. -/
theorem C183_move (u lat lon R d bearing : ℝ) (hu : 0 ≤ u) (hu1 : u ≤ 1 / 100000) (h1 : |lat| ≤ 90) (h2 : |lon| ≤ 360) (h3 : |bearing| ≤ 360)
    (hd : |d / R| ≤ 6) (lat2 lon2 : ℝ) (hl : |lat2| ≤ 90) (hw : walk lat lon (d / R) (rad bearing) = place lat2 lon2) (hc : 0 < Real.cos (rad lat))
    (hn : 106 * u < Real.cos (rad lat2) ^ 2) (outLat outLon : Num) (h : MoveDistance u lat lon R d bearing outLat outLon) :
    ∃ la lo t, Num.Is outLat la ∧ Num.Is outLon lo ∧ IsAngle (place la lo) (place lat2 lon2) t ∧
      t ≤ (178 / Real.cos (rad lat2) + 634 / Real.cos (rad lat)) * u := by
  obtain ⟨la, lo, t, k1, k2, k3, k4, -⟩ := h.place_near hu hu1 h1 h2 (δ := d / R) (β := rad bearing)
    (fun a k => by
      unfold Rd at k
      have := mul_le_mul_of_nonneg_left hd hu
      linarith) (fun b k => (k.turn hu hu1 h3).trans (mul_le_mul_of_nonneg_right (by norm_num) hu)) hl hw hc hn
  exact ⟨la, lo, t, k1, k2, k3, k4⟩

namespace Rounded

/-- The length of a vector. -/
theorem Hyp.near {u x y n : ℝ} (hu : 0 ≤ u) (hu1 : u ≤ 1 / 100000) (h : Hyp u x y n) :
    |n - Real.sqrt (x ^ 2 + y ^ 2)| ≤ 3004 / 1000 * u * Real.sqrt (x ^ 2 + y ^ 2) := by
  obtain ⟨a, b, c, k1, k2, k3, k4⟩ := h
  obtain ⟨e1, he1, rfl⟩ := k1.form hu
  obtain ⟨e2, he2, rfl⟩ := k2.form hu
  obtain ⟨e3, he3, rfl⟩ := k3.form hu
  obtain ⟨e4, he4, rfl⟩ := k4.form hu
  have hu2 : u ≤ 1 / 1000 := by linarith
  have g1 := fac_lin (k := 2001 / 1000) hu hu2 (by norm_num) (by norm_num) (by linarith : |e1 - 1| ≤ 1 * u) (by linarith : |e3 - 1| ≤ 1 * u) (by norm_num)
  have g2 := fac_lin (k := 2001 / 1000) hu hu2 (by norm_num) (by norm_num) (by linarith : |e2 - 1| ≤ 1 * u) (by linarith : |e3 - 1| ≤ 1 * u) (by norm_num)
  have p1 : 0 ≤ e1 := by linarith [(abs_le.1 he1).1]
  have p2 : 0 ≤ e2 := by linarith [(abs_le.1 he2).1]
  have p3 : 0 ≤ e3 := by linarith [(abs_le.1 he3).1]
  have h5 := rel_sum (t := Real.sqrt ((x ^ 2 * e1 + y ^ 2 * e2) * e3)) (sq_nonneg x) (sq_nonneg y) g1 g2 (Real.sqrt_nonneg _)
    (by rw [Real.sq_sqrt (by positivity)]; ring)
  obtain ⟨t, ht⟩ : ∃ t, t = Real.sqrt ((x ^ 2 * e1 + y ^ 2 * e2) * e3) := ⟨_, rfl⟩
  obtain ⟨r, hr⟩ : ∃ r, r = Real.sqrt (x ^ 2 + y ^ 2) := ⟨_, rfl⟩
  have hr0 : 0 ≤ r := by rw [hr]; exact Real.sqrt_nonneg _
  have ht0 : 0 ≤ t := by rw [ht]; exact Real.sqrt_nonneg _
  rw [← ht, ← hr] at h5
  rw [← ht, ← hr]
  rw [show t * e4 - r = t * (e4 - 1) + (t - r) by ring]
  refine (abs_add_le _ _).trans ?_
  rw [abs_mul, abs_of_nonneg ht0]
  have h6 : t ≤ 1001 / 1000 * r := by
    have := (abs_le.1 h5).2
    nlinarith
  have h7 := mul_le_mul h6 he4 (abs_nonneg _) (by positivity)
  nlinarith [mul_nonneg hu hr0]

/-- What `gpsFromSpace` goes: the distance and the direction. -/
theorem GpsFromSpace.near {u R x y ψ β n : ℝ} (hu : 0 ≤ u) (hu1 : u ≤ 1 / 100000) (hR : 0 < R) (hrR : Real.sqrt (x ^ 2 + y ^ 2) ≤ R)
    (h1 : Arctan2Any u x y ψ) (h2 : Rad2deg u ψ β) (h3 : Hyp u x y n) :
    (∀ a, Rd u (n / R) a → |a - Real.sqrt (x ^ 2 + y ^ 2) / R| ≤ 6 * u) ∧
    ∃ b, x = Real.sqrt (x ^ 2 + y ^ 2) * Real.sin b ∧ y = Real.sqrt (x ^ 2 + y ^ 2) * Real.cos b ∧ ∀ c, Deg2rad u β c → |c - b| ≤ 221 / 10 * u := by
  have hp4 := Real.pi_lt_d4
  have hn := h3.near hu hu1
  obtain ⟨b, g, hb, hg, rfl, e⟩ := h1.near hu
  have en : ‖(⟨y, x⟩ : ℂ)‖ = Real.sqrt (x ^ 2 + y ^ 2) := by
    rw [Complex.norm_def, Complex.normSq_mk]; congr 1; ring
  rw [en] at e
  obtain ⟨r, hr⟩ : ∃ r, r = Real.sqrt (x ^ 2 + y ^ 2) := ⟨_, rfl⟩
  have hr0 : 0 ≤ r := by rw [hr]; exact Real.sqrt_nonneg _
  rw [← hr] at e hn hrR ⊢
  constructor
  · intro a ha
    obtain ⟨f, hf, rfl⟩ := ha.form hu
    obtain ⟨δ, hδ⟩ : ∃ δ, δ = r / R := ⟨_, rfl⟩
    have hδ0 : 0 ≤ δ := by rw [hδ]; positivity
    have hδ1 : δ ≤ 1 := by rw [hδ, div_le_one hR]; exact hrR
    have e1 : |n / R - δ| ≤ 3004 / 1000 * u := by
      rw [hδ, ← sub_div, abs_div, abs_of_pos hR, div_le_iff₀ hR]
      refine hn.trans ?_
      exact mul_le_mul_of_nonneg_left hrR (by positivity)
    rw [← hδ, show n / R * f - δ = n / R * (f - 1) + (n / R - δ) by ring]
    refine (abs_add_le _ _).trans ?_
    have h4 : |n / R| ≤ 2 := by
      have := abs_sub_abs_le_abs_sub (n / R) δ
      rw [abs_of_nonneg hδ0] at this
      linarith
    rw [abs_mul]
    have := mul_le_mul h4 hf (abs_nonneg _) (by norm_num)
    linarith
  · refine ⟨b, ?_, ?_, ?_⟩
    · have := congrArg Complex.im e
      rwa [Complex.im_ofReal_mul] at this
    · have := congrArg Complex.re e
      rwa [Complex.re_ofReal_mul] at this
    · intro c hc
      obtain ⟨f1, hf1, e1⟩ := there_and_back hu hu1 h2 hc
      have hu2 : u ≤ 1 / 1000 := by linarith
      have g2 := fac_lin (k := 7027 / 1000) hu hu2 (by norm_num) (by norm_num) (by linarith : |g - 1| ≤ 1 * u) hf1 (by norm_num)
      rw [e1, show b * g * f1 - b = b * (g * f1 - 1) by ring, abs_mul]
      refine (mul_le_mul (hb.trans hp4.le) g2 (abs_nonneg _) (by norm_num)).trans ?_
      nlinarith

theorem walk_polar {lat lon R x y r b b' : ℝ} (h1 : x = r * Real.sin b) (h2 : y = r * Real.cos b) (h3 : x = r * Real.sin b') (h4 : y = r * Real.cos b') :
    walk lat lon (r / R) b = walk lat lon (r / R) b' := by
  by_cases hr : r = 0
  · rw [hr, zero_div]
    unfold walk
    simp [V3.mulS]
  · have e1 : Real.sin b = Real.sin b' := mul_left_cancel₀ hr (h1.symm.trans h3)
    have e2 : Real.cos b = Real.cos b' := mul_left_cancel₀ hr (h2.symm.trans h4)
    unfold walk
    rw [e1, e2]

end Rounded

/-- **C183.** From positions in space to gps coordinates: how far the computed place is from the true one. -/
theorem C183_from_space (u lat lon R x y : ℝ) (hu : 0 ≤ u) (hu1 : u ≤ 1 / 100000) (h1 : |lat| ≤ 90) (h2 : |lon| ≤ 360) (hR : 0 < R)
    (r b : ℝ) (hr : 0 ≤ r) (hrR : r ≤ R) (hx : x = r * Real.sin b) (hy : y = r * Real.cos b) (lat2 lon2 : ℝ) (hl : |lat2| ≤ 90)
    (hw : walk lat lon (r / R) b = place lat2 lon2) (hc : 0 < Real.cos (rad lat)) (hn : 106 * u < Real.cos (rad lat2) ^ 2) (outLat outLon : Num)
    (h : GpsFromSpace u lat lon R x y outLat outLon) :
    ∃ la lo t, Num.Is outLat la ∧ Num.Is outLon lo ∧ IsAngle (place la lo) (place lat2 lon2) t ∧
      t ≤ (178 / Real.cos (rad lat2) + 634 / Real.cos (rad lat)) * u ∧ |rad la - rad lat2| ≤ 113 * u / Real.cos (rad lat2) ∧
      |rad lo - rad lon| ≤ Real.pi + 61 * u := by
  obtain ⟨ψ, β, n, k1, k2, k3, k4⟩ := h
  have er : Real.sqrt (x ^ 2 + y ^ 2) = r := by
    rw [hx, hy, show (r * Real.sin b) ^ 2 + (r * Real.cos b) ^ 2 = r ^ 2 * (Real.sin b ^ 2 + Real.cos b ^ 2) by ring, Real.sin_sq_add_cos_sq, mul_one,
      Real.sqrt_sq hr]
  have hN := GpsFromSpace.near hu hu1 hR (er.symm ▸ hrR) k1 k2 k3
  rw [er] at hN
  obtain ⟨ha, b', hx', hy', hb'⟩ := hN
  exact k4.place_near hu hu1 h1 h2 ha hb' hl (by rw [← walk_polar hx hy hx' hy', hw]) hc hn

namespace Rounded

theorem MoveDistance.exists {u : ℝ} (hu : 0 ≤ u) (lat lon R d b : ℝ) : ∃ o1 o2, MoveDistance u lat lon R d b o1 o2 := by
  have D : ∀ d : ℝ, Deg2rad u d (d * (Real.pi / 180)) := fun d => ⟨_, _, Rd.exact hu _, Rd.exact hu _, Rd.exact hu _⟩
  have A : ∀ y x : ℝ, Arctan2Any u y x (Complex.arg ⟨x, y⟩) := fun y x => Or.inl (Rd.exact hu _)
  have G : ∀ r : ℝ, Rad2deg u r (r * (180 / Real.pi)) := fun r => ⟨_, _, Rd.exact hu _, Rd.exact hu _, Rd.exact hu _⟩
  obtain ⟨z, hz⟩ : ∃ z, z = Real.sin (lat * (Real.pi / 180)) * Real.cos (d / R) + Real.cos (lat * (Real.pi / 180)) * Real.sin (d / R) * Real.cos (b * (Real.pi / 180)) :=
    ⟨_, rfl⟩
  by_cases h : 1 < |z|
  · refine ⟨.nan, .nan, _, _, _, _, _, _, _, _, _, _, _, _, z, D _, D _, D _, Rd.exact hu _, Rd.exact hu _, Rd.exact hu _, Rd.exact hu _, Rd.exact hu _, Rd.exact hu _,
      Rd.exact hu _, Rd.exact hu _, Rd.exact hu _, by rw [hz]; exact Rd.exact hu _, ?_⟩
    rw [if_pos h]
    exact ⟨rfl, rfl⟩
  · have E : ∃ la lo : ℝ, ∃ w sb m1 m2 sw n x ψ l, Rd u (Real.arcsin z) w ∧ Rd u (Real.sin (b * (Real.pi / 180))) sb ∧ Rd u (sb * Real.sin (d / R)) m1 ∧
        Rd u (m1 * Real.cos (lat * (Real.pi / 180))) m2 ∧ Rd u (Real.sin w) sw ∧ Rd u (Real.sin (lat * (Real.pi / 180)) * sw) n ∧ Rd u (Real.cos (d / R) - n) x ∧
        Arctan2Any u m2 x ψ ∧ Rd u (lon * (Real.pi / 180) + ψ) l ∧ Rad2deg u w la ∧ Rad2deg u l lo :=
      ⟨_, _, _, _, _, _, _, _, _, _, _, Rd.exact hu _, Rd.exact hu _, Rd.exact hu _, Rd.exact hu _, Rd.exact hu _, Rd.exact hu _, Rd.exact hu _, A _ _, Rd.exact hu _,
        G _, G _⟩
    obtain ⟨la, lo, w, sb, m1, m2, sw, n, x, ψ, l, e1, e2, e3, e4, e5, e6, e7, e8, e9, e10, e11⟩ := E
    refine ⟨.fin la, .fin lo, _, _, _, _, _, _, _, _, _, _, _, _, z, D _, D _, D _, Rd.exact hu _, Rd.exact hu _, Rd.exact hu _, Rd.exact hu _, Rd.exact hu _, Rd.exact hu _,
      Rd.exact hu _, Rd.exact hu _, Rd.exact hu _, by rw [hz]; exact Rd.exact hu _, ?_⟩
    rw [if_neg h]
    exact ⟨w, sb, m1, m2, sw, n, x, ψ, l, la, lo, e1, e2, e3, e4, e5, e6, e7, e8, e9, e10, e11, Num.is_fin _, Num.is_fin _⟩

end Rounded

/-- A quarter of the equator, in double precision: less than a millionth of a metre away from the place. -/
example : ∃ o1 o2 la lo t, MoveDistance (1 / 2 ^ 50) 0 0 earth (earth * (Real.pi / 2)) 90 o1 o2 ∧ Num.Is o1 la ∧ Num.Is o2 lo ∧
    IsAngle (place la lo) (place 0 90) t ∧ earth * t ≤ 1 / 10 ^ 5 := by
  obtain ⟨o1, o2, h⟩ := MoveDistance.exists (u := 1 / 2 ^ 50) (by positivity) 0 0 earth (earth * (Real.pi / 2)) 90
  have he : 0 < earth := by unfold earth; norm_num
  have hp4 := Real.pi_lt_d4
  have hp := Real.pi_pos
  have e9 : rad 90 = Real.pi / 2 := by unfold rad; ring
  have e0 : rad 0 = 0 := by unfold rad; ring
  have ed : earth * (Real.pi / 2) / earth = Real.pi / 2 := mul_div_cancel_left₀ _ he.ne'
  obtain ⟨la, lo, t, k1, k2, k3, k4⟩ := C183_move (1 / 2 ^ 50) 0 0 earth (earth * (Real.pi / 2)) 90 (by positivity) (by norm_num) (by norm_num) (by norm_num)
    (by rw [abs_of_pos] <;> norm_num) (by rw [ed, abs_of_pos (by positivity)]; linarith) 0 90 (by norm_num)
    (by rw [ed]; ext <;> simp [walk, place, north, east, e9, e0]) (by rw [e0, Real.cos_zero]; norm_num) (by rw [e0, Real.cos_zero]; norm_num) o1 o2 h
  refine ⟨o1, o2, la, lo, t, h, k1, k2, k3, ?_⟩
  rw [e0, Real.cos_zero] at k4
  refine (mul_le_mul_of_nonneg_left k4 he.le).trans ?_
  unfold earth
  norm_num

/-- Positions in space and back. -/
example : ∃ o1 o2 la lo, GpsFromSpace (1 / 2 ^ 50) 0 0 earth 0 0 o1 o2 ∧ Num.Is o1 la ∧ Num.Is o2 lo := by
  obtain ⟨ψ, h1⟩ : ∃ ψ, Arctan2Any (1 / 2 ^ 50) 0 0 ψ := ⟨_, Or.inl (Rd.exact (by positivity) _)⟩
  obtain ⟨β, h2⟩ : ∃ β, Rad2deg (1 / 2 ^ 50) ψ β := ⟨_, _, _, Rd.exact (by positivity) _, Rd.exact (by positivity) _, Rd.exact (by positivity) _⟩
  obtain ⟨n, h3⟩ : ∃ n, Hyp (1 / 2 ^ 50) 0 0 n :=
    ⟨_, _, _, _, Rd.exact (by positivity) _, Rd.exact (by positivity) _, Rd.exact (by positivity) _, Rd.exact (by positivity) _⟩
  obtain ⟨o1, o2, h⟩ := MoveDistance.exists (u := 1 / 2 ^ 50) (by positivity) 0 0 earth n β
  have he : 0 < earth := by unfold earth; norm_num
  have e0 : rad 0 = 0 := by unfold rad; ring
  have hg : GpsFromSpace (1 / 2 ^ 50) 0 0 earth 0 0 o1 o2 := ⟨ψ, β, n, h1, h2, h3, h⟩
  obtain ⟨la, lo, t, k1, k2, -⟩ := C183_from_space (1 / 2 ^ 50) 0 0 earth 0 0 (by positivity) (by norm_num) (by norm_num) (by norm_num) he 0 0 le_rfl he.le
    (by simp) (by simp) 0 0 (by norm_num) (by ext <;> simp [walk, place, north, east, e0]) (by rw [e0, Real.cos_zero]; norm_num)
    (by rw [e0, Real.cos_zero]; norm_num) o1 o2 hg
  exact ⟨o1, o2, la, lo, hg, k1, k2⟩
