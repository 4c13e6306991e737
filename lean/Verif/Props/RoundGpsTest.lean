import Verif.Props.RoundMove
import Verif.Props.DrawnGps

/-! # C183: the property test of gps coordinates with rounding errors -/

namespace Rounded

open Geo

/-! ### places -/

/-- Every direction belongs to a place. -/
theorem exists_place {v : V3 ℝ} (hv : v.normSq = 1) : ∃ lat lon, v = place lat lon ∧ |lat| ≤ 90 := by
  have hp := Real.pi_pos
  have hn : v.x ^ 2 + v.y ^ 2 + v.z ^ 2 = 1 := by
    rw [← hv]; simp only [V3.normSq]
  obtain ⟨hz1, hz2⟩ := abs_le.1 (abs_le_one_iff_mul_self_le_one.2 (by nlinarith [sq_nonneg v.x, sq_nonneg v.y] : v.z * v.z ≤ 1))
  have hs := Real.sin_arcsin hz1 hz2
  have hc := Real.cos_arcsin v.z
  have hnx : ‖(⟨v.x, v.y⟩ : ℂ)‖ = Real.sqrt (1 - v.z ^ 2) := by
    rw [Complex.norm_def, Complex.normSq_mk]; congr 1; linarith
  refine ⟨Real.arcsin v.z * (180 / Real.pi), Complex.arg ⟨v.x, v.y⟩ * (180 / Real.pi), ?_, ?_⟩
  · have h1 := Complex.norm_mul_cos_arg ⟨v.x, v.y⟩
    have h2 := Complex.norm_mul_sin_arg ⟨v.x, v.y⟩
    rw [hnx] at h1 h2
    ext
    · simp only [place, rad_rad2deg, hc]; exact h1.symm
    · simp only [place, rad_rad2deg, hc]; exact h2.symm
    · simp only [place, rad_rad2deg, hs]
  · rw [abs_mul, abs_of_pos (by positivity : 0 < 180 / Real.pi), ← le_div_iff₀ (by positivity)]
    have e : 90 / (180 / Real.pi) = Real.pi / 2 := by field_simp; norm_num
    rw [e, abs_le]
    exact ⟨Real.neg_pi_div_two_le_arcsin _, Real.arcsin_le_pi_div_two _⟩

/-- Every place is reached along a great circle. -/
theorem exists_walk (lat lon : ℝ) {v : V3 ℝ} (hv : v.normSq = 1) : ∃ b, walk lat lon (arc (place lat lon) v) b = v := by
  obtain ⟨b, hb⟩ : ∃ b, b = Complex.arg ⟨v.dot (north lat lon), v.dot (east lat lon)⟩ := ⟨_, rfl⟩
  have hn : ‖(⟨v.dot (north lat lon), v.dot (east lat lon)⟩ : ℂ)‖ = Real.sin (arc (place lat lon) v) := by
    rw [← Gps.sin_arc lat lon hv, Complex.norm_def, Complex.normSq_mk]; congr 1; ring
  have h1 := Complex.norm_mul_cos_arg ⟨v.dot (north lat lon), v.dot (east lat lon)⟩
  have h2 := Complex.norm_mul_sin_arg ⟨v.dot (north lat lon), v.dot (east lat lon)⟩
  rw [hn, ← hb] at h1 h2
  have h3 := (arc_isAngle (place_normSq lat lon) hv).2.2
  have hc : v.dot (place lat lon) = (place lat lon).dot v := by simp only [V3.dot]; ring
  refine ⟨b, ?_⟩
  have e := Gps.expand lat lon v
  simp only at h1 h2
  rw [hc, ← h3, ← h1, ← h2] at e
  refine Eq.trans ?_ e.symm
  unfold walk
  generalize Real.cos (arc (place lat lon) v) = A
  generalize Real.sin (arc (place lat lon) v) = B
  ext <;> simp only [V3.mulS_x, V3.mulS_y, V3.mulS_z, V3.add_x, V3.add_y, V3.add_z] <;> ring

theorem angle_walk {lat lon t b : ℝ} (h0 : 0 ≤ t) (h1 : t ≤ Real.pi) : IsAngle (place lat lon) (walk lat lon t b) t :=
  ⟨h0, h1, by rw [← (Gps.walk_dots lat lon t b).1]; simp only [V3.dot]; ring⟩

/-- Latitudes differ by no more than the angle between places. -/
theorem lat_arc {l1 n1 l2 n2 t : ℝ} (h1 : |l1| ≤ 90) (h2 : |l2| ≤ 90) (ht : IsAngle (place l1 n1) (place l2 n2) t) : |rad l1 - rad l2| ≤ t := by
  have hp := Real.pi_pos
  have b : ∀ l : ℝ, |l| ≤ 90 → |rad l| ≤ Real.pi / 2 := by
    intro l hl
    unfold rad
    rw [abs_mul, abs_of_pos (by positivity : 0 < Real.pi / 180)]
    nlinarith
  have b1 := abs_le.1 (b l1 h1)
  have b2 := abs_le.1 (b l2 h2)
  have c1 := Real.cos_nonneg_of_neg_pi_div_two_le_of_le b1.1 b1.2
  have c2 := Real.cos_nonneg_of_neg_pi_div_two_le_of_le b2.1 b2.2
  by_contra hlt
  push Not at hlt
  have hle : |rad l1 - rad l2| ≤ Real.pi := by rw [abs_le]; constructor <;> linarith [b1.1, b1.2, b2.1, b2.2]
  have := Real.cos_lt_cos_of_nonneg_of_le_pi ht.1 hle hlt
  rw [Real.cos_abs, Real.cos_sub, ht.2.2] at this
  have e : (place l1 n1).dot (place l2 n2) = Real.cos (rad l1) * Real.cos (rad l2) * Real.cos (rad n1 - rad n2) + Real.sin (rad l1) * Real.sin (rad l2) := by
    rw [Real.cos_sub]; simp only [place, V3.dot]; ring
  rw [e] at this
  have := mul_le_mul_of_nonneg_left (Real.cos_le_one (rad n1 - rad n2)) (mul_nonneg c1 c2)
  linarith

/-- Dots with unit vectors change by no more than the angle. -/
theorem dot_angle {v w n : V3 ℝ} {t : ℝ} (hn : n.normSq = 1) (hv : v.normSq = 1) (hw : w.normSq = 1) (ht : IsAngle v w t) : |v.dot n - w.dot n| ≤ t := by
  have h1 : (v.dot n - w.dot n) ^ 2 ≤ (v - w).normSq * n.normSq := by
    simp only [V3.normSq, V3.dot, V3.sub_x, V3.sub_y, V3.sub_z]
    nlinarith [sq_nonneg ((v.x - w.x) * n.y - (v.y - w.y) * n.x), sq_nonneg ((v.x - w.x) * n.z - (v.z - w.z) * n.x),
      sq_nonneg ((v.y - w.y) * n.z - (v.z - w.z) * n.y)]
  have h2 : (v - w).normSq = v.normSq + w.normSq - 2 * v.dot w := by
    simp only [V3.normSq, V3.dot, V3.sub_x, V3.sub_y, V3.sub_z]; ring
  rw [h2, hn, hv, hw, ← ht.2.2] at h1
  have h3 := Real.one_sub_sq_div_two_le_cos (x := t)
  exact abs_le_of_sq_le_sq (by linarith) ht.1

/-- Angles between walks, from the differences of the vectors walked. -/
theorem walk_lip (lat lon : ℝ) {s t b b' : ℝ} (hs : 0 ≤ s) (ht : 0 ≤ t) (hs1 : s ≤ Real.pi) (ht1 : t ≤ Real.pi) :
    arc (walk lat lon s b) (walk lat lon t b') ≤
      415 / 100 * ‖(s : ℂ) * ⟨Real.cos b, Real.sin b⟩ - (t : ℂ) * ⟨Real.cos b', Real.sin b'⟩‖ := by
  have hp := Real.pi_pos
  have hp4 := Real.pi_lt_d4
  obtain ⟨K, hK⟩ : ∃ K, K = ‖(s : ℂ) * ⟨Real.cos b, Real.sin b⟩ - (t : ℂ) * ⟨Real.cos b', Real.sin b'⟩‖ := ⟨_, rfl⟩
  have hK0 : 0 ≤ K := by rw [hK]; exact norm_nonneg _
  have ns : ∀ (s b : ℝ), 0 ≤ s → ‖(s : ℂ) * ⟨Real.cos b, Real.sin b⟩‖ = s := by
    intro s b hs
    rw [norm_mul, unit_norm, mul_one, Complex.norm_real, Real.norm_eq_abs, abs_of_nonneg hs]
  have h1 : |s - t| ≤ K := by
    have := abs_norm_sub_norm_le ((s : ℂ) * ⟨Real.cos b, Real.sin b⟩) ((t : ℂ) * ⟨Real.cos b', Real.sin b'⟩)
    rwa [ns s b hs, ns t b' ht, ← hK] at this
  have h2 := unit_near (w := (s : ℂ) * ⟨Real.cos b, Real.sin b⟩) (v := (t : ℂ) * ⟨Real.cos b', Real.sin b'⟩) (q := ⟨Real.cos b', Real.sin b'⟩) (unit_norm b)
    (by rw [ns s b hs]) (by rw [ns t b' ht])
  rw [ns t b' ht, ← hK] at h2
  rw [← hK]
  refine (arc_triangle (v := walk lat lon t b) (Gps.walk_normSq _ _ _ _) (Gps.walk_normSq _ _ _ _) (Gps.walk_normSq _ _ _ _)).trans ?_
  have a1 : arc (walk lat lon s b) (walk lat lon t b) = |s - t| := by
    symm
    apply IsAngle.eq_arc
    refine ⟨abs_nonneg _, by rw [abs_le]; constructor <;> linarith, ?_⟩
    rw [Real.cos_abs, DrawnGps.walk_walk]
  have a2 : arc (walk lat lon t b) (walk lat lon t b') ≤ Real.pi * K := by
    have hA := arc_isAngle (Gps.walk_normSq lat lon t b) (Gps.walk_normSq lat lon t b')
    obtain ⟨θ, hθ⟩ : ∃ θ, θ = arc (walk lat lon t b) (walk lat lon t b') := ⟨_, rfl⟩
    rw [← hθ] at hA ⊢
    have hd : (walk lat lon t b).dot (walk lat lon t b') = 1 - Real.sin t ^ 2 * (1 - Real.cos (b - b')) := by
      obtain ⟨o1, o2, o3, o4, o5, o6⟩ := Gps.onb lat lon
      have q1 := Real.sin_sq_add_cos_sq t
      rw [Real.cos_sub]
      simp only [walk, V3.normSq, V3.dot, V3.mulS_x, V3.mulS_y, V3.mulS_z, V3.add_x, V3.add_y, V3.add_z] at *
      generalize Real.cos t = A at *
      generalize Real.sin t = B at *
      generalize Real.cos b = C at *
      generalize Real.sin b = D at *
      generalize Real.cos b' = C' at *
      generalize Real.sin b' = D' at *
      linear_combination A ^ 2 * o1 + B ^ 2 * C * C' * o2 + B ^ 2 * D * D' * o3 + A * B * (C + C') * o4 + A * B * (D + D') * o5 + B ^ 2 * (C * D' + D * C') * o6 + q1
    have hn : ‖(⟨Real.cos b, Real.sin b⟩ : ℂ) - ⟨Real.cos b', Real.sin b'⟩‖ ^ 2 = 2 * (1 - Real.cos (b - b')) := by
      rw [← Complex.normSq_eq_norm_sq, Complex.normSq_apply, Real.cos_sub]
      simp only [Complex.sub_re, Complex.sub_im]
      have q1 := Real.sin_sq_add_cos_sq b
      have q2 := Real.sin_sq_add_cos_sq b'
      linear_combination q1 + q2
    obtain ⟨N, hN⟩ : ∃ N, N = ‖(⟨Real.cos b, Real.sin b⟩ : ℂ) - ⟨Real.cos b', Real.sin b'⟩‖ := ⟨_, rfl⟩
    rw [← hN] at h2 hn
    have hN0 : 0 ≤ N := by rw [hN]; exact norm_nonneg _
    have hs2 : (2 * Real.sin (θ / 2)) ^ 2 = (Real.sin t * N) ^ 2 := by
      rw [mul_pow, half_sq, hA.2.2, hd, mul_pow, hn]; ring
    have st0 := Real.sin_nonneg_of_nonneg_of_le_pi ht ht1
    have sθ0 := Real.sin_nonneg_of_nonneg_of_le_pi (by linarith [hA.1] : 0 ≤ θ / 2) (by linarith [hA.2.1])
    have e1 := (abs_le_of_sq_le_sq hs2.le (mul_nonneg st0 hN0))
    rw [abs_of_nonneg (by linarith)] at e1
    have e2 := mul_le_mul_of_nonneg_right (Real.sin_le ht) hN0
    have e3 := Real.mul_le_sin (by linarith [hA.1] : 0 ≤ θ / 2) (by linarith [hA.2.1])
    have e4 := mul_le_mul_of_nonneg_left (by linarith : 2 * (2 / Real.pi * (θ / 2)) ≤ 2 * K) (by positivity : 0 ≤ Real.pi / 2)
    rw [show Real.pi / 2 * (2 * (2 / Real.pi * (θ / 2))) = θ by field_simp] at e4
    linarith
  rw [a1]
  nlinarith

end Rounded

namespace Rounded

open Geo

/-! ### the test of gps coordinates -/

theorem cos_lat {l : ℝ} (h : |rad l| ≤ rad 89 + 1 / 6000) : 1 / 91 ≤ Real.cos (rad l) := by
  have hp := Real.pi_gt_d4
  have hp4 := Real.pi_lt_d4
  have e : rad 89 = Real.pi * (89 / 180) := by unfold rad; ring
  rw [e] at h
  have h1 := Real.one_sub_mul_le_cos (abs_nonneg (rad l)) (by linarith)
  rw [Real.cos_abs] at h1
  have h2 : 2 / Real.pi * |rad l| ≤ 89 / 90 + 1 / 9000 := by
    rw [div_mul_eq_mul_div, div_le_iff₀ (by linarith)]
    nlinarith
  linarith

theorem lat_bound {l k : ℝ} (h : |rad l| ≤ rad 89 + k) (hk : k ≤ 1 / 5900) : |l| ≤ 8901 / 100 := by
  have hp := Real.pi_gt_d4
  unfold rad at h
  rw [abs_mul, abs_of_pos (by positivity : 0 < Real.pi / 180)] at h
  nlinarith

/-- One of the computed places. -/
theorem test_move {u lat lon R d bearing t b : ℝ} {o1 o2 : Num} (hu : 0 ≤ u) (hu1 : u ≤ 1 / 10 ^ 15) (h1 : |lat| ≤ 89) (h2 : |lon| ≤ 89)
    (ht : 0 ≤ t) (ht1 : t ≤ 1 / 6000)
    (ha : ∀ a, Rd u (d / R) a → |a - t| ≤ 6 * u) (hb : ∀ c, Deg2rad u bearing c → |c - b| ≤ 221 / 10 * u) (h : MoveDistance u lat lon R d bearing o1 o2) :
    ∃ la lo, Num.Is o1 la ∧ Num.Is o2 lo ∧ arc (place la lo) (walk lat lon t b) ≤ 73900 * u ∧ |la| ≤ 8901 / 100 ∧ |lo| ≤ 360 := by
  have hp := Real.pi_gt_d4
  have hp4 := Real.pi_lt_d4
  have hu5 : u ≤ 1 / 100000 := hu1.trans (by norm_num)
  obtain ⟨lat2, lon2, hw, hl2⟩ := exists_place (Gps.walk_normSq lat lon t b)
  have hang := angle_walk (lat := lat) (lon := lon) (b := b) ht (by linarith)
  rw [hw] at hang
  have hla := lat_arc (by linarith) hl2 hang
  have hr : ∀ x : ℝ, |x| ≤ 89 → |rad x| ≤ rad 89 := by
    intro x hx
    unfold rad
    rw [abs_mul, abs_of_pos (by positivity : 0 < Real.pi / 180)]
    exact mul_le_mul_of_nonneg_right hx (by positivity)
  have hr1 := hr lat h1
  have hr2 := hr lon h2
  have hl3 : |rad lat2| ≤ rad 89 + 1 / 6000 := by
    rw [abs_sub_comm] at hla
    have := abs_sub_abs_le_abs_sub (rad lat2) (rad lat)
    linarith
  have hc2 := cos_lat hl3
  have hc1 := cos_lat (by linarith : |rad lat| ≤ rad 89 + 1 / 6000)
  have hc2p : 0 < Real.cos (rad lat2) := by linarith
  have hc1p : 0 < Real.cos (rad lat) := by linarith
  obtain ⟨la, lo, s, k1, k2, k3, k4, k5, k6⟩ := h.place_near hu hu5 (by linarith) (by linarith) ha hb hl2 hw hc1p (by nlinarith)
  have i1 : 1 / Real.cos (rad lat2) ≤ 91 := by rw [div_le_iff₀ hc2p]; linarith
  have i2 : 1 / Real.cos (rad lat) ≤ 91 := by rw [div_le_iff₀ hc1p]; linarith
  refine ⟨la, lo, k1, k2, ?_, ?_, ?_⟩
  · rw [hw, ← k3.eq_arc]
    refine k4.trans (mul_le_mul_of_nonneg_right ?_ hu)
    rw [show 178 / Real.cos (rad lat2) + 634 / Real.cos (rad lat) = 178 * (1 / Real.cos (rad lat2)) + 634 * (1 / Real.cos (rad lat)) by ring]
    linarith
  · have h5 : 113 * u / Real.cos (rad lat2) ≤ 1 / 10 ^ 10 := by
      rw [div_le_iff₀ hc2p]
      nlinarith
    have h6 := abs_sub_abs_le_abs_sub (rad la) (rad lat2)
    exact lat_bound (k := 1 / 6000 + 1 / 10 ^ 10) (by linarith) (by norm_num)
  · have h6 := abs_sub_abs_le_abs_sub (rad lo) (rad lon)
    have e : rad 89 = Real.pi * (89 / 180) := by unfold rad; ring
    have h7 : |rad lo| ≤ 360 * (Real.pi / 180) := by linarith
    unfold rad at h7
    rw [abs_mul, abs_of_pos (by positivity : 0 < Real.pi / 180)] at h7
    exact le_of_mul_le_mul_right h7 (by positivity)

theorem radius_test {u R : ℝ} {h : Option ℝ} (hu : 0 ≤ u) (hu1 : u ≤ 1 / 10 ^ 15) (hh : ∀ x ∈ h, 0 ≤ x ∧ x ≤ 100) (hR : Radius u h R) :
    earth - 1 / 10 ^ 6 ≤ R ∧ R ≤ earth + 101 := by
  cases h with
  | none =>
    have : R = 6371000 := hR
    rw [this]
    unfold earth
    constructor <;> norm_num
  | some x =>
    obtain ⟨x0, x1⟩ := hh x rfl
    have hR : |R - (6371000 + x)| ≤ u * |6371000 + x| := hR
    rw [abs_of_nonneg (by linarith : 0 ≤ 6371000 + x)] at hR
    obtain ⟨r1, r2⟩ := abs_le.1 hR
    unfold earth
    have : u * (6371000 + x) ≤ 1 / 10 ^ 6 := by nlinarith
    constructor <;> linarith

theorem Bearing.bound {u l1 n1 l2 n2 β : ℝ} (hu : 0 ≤ u) (hu1 : u ≤ 1 / 100000) (h : Bearing u l1 n1 l2 n2 β) : |β| ≤ 181 := by
  have hp := Real.pi_gt_d4
  obtain ⟨_, _, _, _, _, _, _, _, _, _, _, _, _, _, _, _, _, -, -, -, -, -, -, -, -, -, -, -, -, -, -, -, -, ka, kd⟩ := h
  obtain ⟨ψ, g, hψ, hg, rfl, -⟩ := ka.near hu
  obtain ⟨g', hg', e⟩ := kd.rel hu hu1
  have g1 := fac_lin (k := 4010 / 1000) hu (by linarith) (by norm_num) (by norm_num) (by linarith : |g - 1| ≤ 1 * u) hg' (by norm_num)
  have h1 : |rad β| ≤ Real.pi * (1 + 1 / 1000) := by
    rw [e, mul_assoc, abs_mul]
    refine mul_le_mul hψ ?_ (abs_nonneg _) (by linarith)
    have := abs_sub_abs_le_abs_sub (g * g') 1
    rw [_root_.abs_one] at this
    linarith
  unfold rad at h1
  rw [abs_mul, abs_of_pos (by positivity : 0 < Real.pi / 180)] at h1
  nlinarith

/-- The loops of the test, near whole turns. -/
theorem TurnLoop.small {u x y : ℝ} (hu : 0 ≤ u) (hu1 : u ≤ 1 / 10 ^ 15) (k : ℤ) (hk1 : -1 ≤ k) (hk2 : k ≤ 1) (hx : |x - 360 * k| ≤ 9 / 10) (h : TurnLoop u x y) :
    |y| ≤ 1 := by
  obtain ⟨x1, x2⟩ := abs_le.1 hx
  have stop : ∀ {v y : ℝ}, |v| ≤ 1 → TurnLoop u v y → |y| ≤ 1 := by
    intro v y hv h
    obtain ⟨v1, v2⟩ := abs_le.1 hv
    cases h with
    | done => exact hv
    | down _ _ _ h => linarith
    | up _ _ _ h => linarith
  have small : ∀ {v w : ℝ}, |v| ≤ 9 / 10 → Rd u v w → |w| ≤ 1 := by
    intro v w hv h
    obtain ⟨f, hf, rfl⟩ := h.form hu
    obtain ⟨f1, f2⟩ := abs_le.1 hf
    rw [abs_mul]
    have : |f| ≤ 11 / 10 := by rw [abs_le]; constructor <;> linarith
    nlinarith [abs_nonneg v, abs_nonneg f]
  obtain rfl | rfl | rfl : k = -1 ∨ k = 0 ∨ k = 1 := by omega
  · push_cast at x1 x2 hx
    cases h with
    | done _ h => linarith [h.1]
    | down _ _ _ h => linarith
    | up _ w _ _ h1 h2 => exact stop (small (by rwa [show x + 360 = x - 360 * -1 by ring]) h1) h2
  · push_cast at x1 x2 hx
    rw [mul_zero, sub_zero] at hx
    exact stop (by linarith) h
  · push_cast at x1 x2 hx
    rw [mul_one] at hx
    cases h with
    | done _ h => linarith [h.2]
    | down _ w _ _ h1 h2 => exact stop (small hx h1) h2
    | up _ _ _ h => linarith

/-- The bearing to the computed place. -/
theorem test_bearing {u lat lon la lo b t β : ℝ} (hu : 0 ≤ u) (hu1 : u ≤ 1 / 10 ^ 15) (h1 : |lat| ≤ 89) (h2 : |lon| ≤ 89) (h3 : |la| ≤ 8901 / 100) (h4 : |lo| ≤ 360)
    (ht : 1 / 6372000 ≤ t) (ht1 : t ≤ 1 / 6000) (hb : |b| ≤ 180) (harc : arc (place la lo) (walk lat lon t (rad b)) ≤ 73900 * u) (h : Bearing u lat lon la lo β) :
    ∃ k : ℤ, -1 ≤ k ∧ k ≤ 1 ∧ |b - β - 360 * k| ≤ 1 / 2 := by
  have hp := Real.pi_gt_d4
  have hp4 := Real.pi_lt_d4
  have hu5 : u ≤ 1 / 100000 := hu1.trans (by norm_num)
  have hβ := h.bound hu hu5
  obtain ⟨ψ, w, k1, k2, k3, k4⟩ := h.near hu hu5 (by linarith) (by linarith) (by linarith) h4 (b := rad β)
    ⟨_, _, Rd.exact hu _, Rd.exact hu _, Rd.exact hu _⟩
  obtain ⟨w1, w2, w3⟩ := Gps.walk_dots lat lon t (rad b)
  obtain ⟨-, o2, o3, -⟩ := Gps.onb lat lon
  have hA := arc_isAngle (place_normSq la lo) (Gps.walk_normSq lat lon t (rad b))
  have d1 := (dot_angle o2 (place_normSq _ _) (Gps.walk_normSq _ _ _ _) hA).trans harc
  have d2 := (dot_angle o3 (place_normSq _ _) (Gps.walk_normSq _ _ _ _) hA).trans harc
  rw [w2] at d1
  rw [w3] at d2
  have hs : 2 / Real.pi * t ≤ Real.sin t := Real.mul_le_sin (by linarith) (by linarith)
  have hs1 : 1 / 10 ^ 7 - 1 / 10 ^ 9 ≤ Real.sin t := by
    refine le_trans ?_ hs
    rw [div_mul_eq_mul_div, le_div_iff₀ (by linarith)]
    nlinarith
  have hs0 : 0 < Real.sin t := by linarith
  have hv : ‖((Real.sin t : ℂ) * ⟨Real.cos (rad b), Real.sin (rad b)⟩)‖ = Real.sin t := by
    rw [norm_mul, unit_norm, mul_one, Complex.norm_real, Real.norm_eq_abs, abs_of_pos hs0]
  have hun := unit_near (v := (Real.sin t : ℂ) * ⟨Real.cos (rad b), Real.sin (rad b)⟩) (q := ⟨Real.cos (rad b), Real.sin (rad b)⟩) (unit_norm ψ) k2 (by rw [hv])
  rw [hv] at hun
  have hdist : ‖w - (Real.sin t : ℂ) * ⟨Real.cos (rad b), Real.sin (rad b)⟩‖ ≤ 148000 * u := by
    refine (Complex.norm_le_abs_re_add_abs_im _).trans ?_
    simp only [Complex.sub_re, Complex.sub_im, Complex.re_ofReal_mul, Complex.im_ofReal_mul]
    have t1 := abs_sub_le w.re ((place la lo).dot (north lat lon)) (Real.sin t * Real.cos (rad b))
    have t2 := abs_sub_le w.im ((place la lo).dot (east lat lon)) (Real.sin t * Real.sin (rad b))
    linarith
  obtain ⟨k, hk⟩ := turn_near (K := 3 / 1000) (ψ := ψ) (Δ := rad b) (by
    have : Real.sin t * ‖(⟨Real.cos ψ, Real.sin ψ⟩ : ℂ) - ⟨Real.cos (rad b), Real.sin (rad b)⟩‖ ≤ Real.sin t * (3 / 1000) := by
      refine hun.trans ?_
      linarith
    exact le_of_mul_le_mul_left this hs0)
  have hfin : |b - β - 360 * ((-k : ℤ) : ℝ)| ≤ 1 / 2 := by
    have e : (b - β - 360 * ((-k : ℤ) : ℝ)) * (Real.pi / 180) = -((rad β - ψ) + (ψ - (rad b + k * (2 * Real.pi)))) := by
      unfold rad; push_cast; ring
    have h5 : |(b - β - 360 * ((-k : ℤ) : ℝ)) * (Real.pi / 180)| ≤ 1 / 200 := by
      rw [e, abs_neg]
      exact (abs_add_le _ _).trans (by linarith)
    rw [abs_mul, abs_of_pos (by positivity : 0 < Real.pi / 180)] at h5
    nlinarith
  obtain ⟨f1, f2⟩ := abs_le.1 hfin
  obtain ⟨b1, b2⟩ := abs_le.1 hb
  obtain ⟨e1, e2⟩ := abs_le.1 hβ
  have q1 : (-2 : ℝ) < ((-k : ℤ) : ℝ) := by linarith
  have q2 : ((-k : ℤ) : ℝ) < 2 := by linarith
  have q1' : -2 < -k := by exact_mod_cast q1
  have q2' : -k < 2 := by exact_mod_cast q2
  exact ⟨-k, by omega, by omega, hfin⟩

end Rounded

namespace Rounded

open Geo

/-- There and back over positions in space. -/
theorem test_back {u lat lon la lo R t : ℝ} {z1 z2 : Option ℝ} {X Y : Num} (hu : 0 ≤ u) (hu1 : u ≤ 1 / 10 ^ 15) (h1 : |lat| ≤ 89) (h2 : |lon| ≤ 89)
    (h3 : |la| ≤ 8901 / 100) (h4 : |lo| ≤ 360) (hR1 : earth - 1 / 10 ^ 6 ≤ R) (hR2 : R ≤ earth + 101) (ht : t = arc (place lat lon) (place la lo))
    (ht1 : t ≤ 1 / 6300) (hz : z1 = none ∨ z2 = none ∨ z1 = z2) (h : SpaceFromGPS u lat lon z1 la lo z2 X Y) :
    ∃ x y, Num.Is X x ∧ Num.Is Y y ∧ ∀ o1 o2, GpsFromSpace u lat lon R x y o1 o2 → ∃ la2 lo2, Num.Is o1 la2 ∧ Num.Is o2 lo2 ∧ |la2| ≤ 8901 / 100 ∧ |lo2| ≤ 360 ∧
      arc (place la lo) (place la2 lo2) ≤ 106 / 10 ^ 10 := by
  have hp := Real.pi_gt_d4
  have hp4 := Real.pi_lt_d4
  have he : earth = 6371000 := rfl
  have he0 : 0 < earth := by rw [he]; norm_num
  have hR0 : 0 < R := by linarith
  have hu5 : u ≤ 1 / 100000 := hu1.trans (by norm_num)
  obtain ⟨b, hb⟩ := exists_walk lat lon (place_normSq la lo)
  rw [← ht] at hb
  have ht0 : 0 ≤ t := by rw [ht]; exact (arc_isAngle (place_normSq _ _) (place_normSq _ _)).1
  obtain ⟨x, y, k1, k2, k3, k4⟩ := C182_space u lat lon la lo t b hu hu5 (by linarith) (by linarith) (by linarith) h4 ht0 (by linarith) hb z1 z2 hz X Y h
  refine ⟨x, y, k1, k2, ?_⟩
  rintro o1 o2 ⟨ψ, β, n, j1, j2, j3, j4⟩
  obtain ⟨r, hr⟩ : ∃ r, r = Real.sqrt (x ^ 2 + y ^ 2) := ⟨_, rfl⟩
  have hr0 : 0 ≤ r := by rw [hr]; exact Real.sqrt_nonneg _
  -- the vector
  have hV : ‖(⟨y, x⟩ : ℂ) - (earth * t : ℝ) * ⟨Real.cos b, Real.sin b⟩‖ ≤ 1262 * u * earth := by
    refine (Complex.norm_le_abs_re_add_abs_im _).trans ?_
    simp only [Complex.sub_re, Complex.sub_im, Complex.re_ofReal_mul, Complex.im_ofReal_mul]
    rw [mul_assoc, mul_assoc]
    linarith
  have en : ‖(⟨y, x⟩ : ℂ)‖ = r := by
    rw [Complex.norm_def, Complex.normSq_mk, hr]; congr 1; ring
  have hn : ‖(((earth * t : ℝ)) : ℂ) * ⟨Real.cos b, Real.sin b⟩‖ = earth * t := by
    rw [norm_mul, unit_norm, mul_one, Complex.norm_real, Real.norm_eq_abs, abs_of_nonneg (by positivity)]
  have hrt : |r - earth * t| ≤ 1262 * u * earth := by
    have := abs_norm_sub_norm_le (⟨y, x⟩ : ℂ) (((earth * t : ℝ)) * ⟨Real.cos b, Real.sin b⟩)
    rw [en, hn] at this
    exact this.trans hV
  have hr1 : r ≤ 1012 := by
    have := (abs_le.1 hrt).2
    rw [he] at this
    nlinarith
  have hN := GpsFromSpace.near hu hu5 hR0 (by rw [← hr]; linarith) j1 j2 j3
  rw [← hr] at hN
  obtain ⟨ha, b', hx, hy, hb'⟩ := hN
  have hs0 : 0 ≤ r / R := by positivity
  have hs1 : r / R ≤ 1 / 6000 := by rw [div_le_iff₀ hR0]; linarith
  obtain ⟨la2, lo2, i1, i2, i3, i4, i5⟩ := test_move hu hu1 h1 h2 hs0 hs1 ha hb' j4
  refine ⟨la2, lo2, i1, i2, i4, i5, ?_⟩
  have hlip := walk_lip lat lon (s := t) (t := r / R) (b := b) (b' := b') ht0 hs0 (by linarith) (by linarith)
  have hdiff : ‖(t : ℂ) * ⟨Real.cos b, Real.sin b⟩ - ((r / R : ℝ) : ℂ) * ⟨Real.cos b', Real.sin b'⟩‖ ≤ 1262 * u + 2521 / 10 ^ 12 := by
    have e1 : (⟨y, x⟩ : ℂ) = (r : ℂ) * ⟨Real.cos b', Real.sin b'⟩ := by
      apply Complex.ext
      · rw [Complex.re_ofReal_mul]; exact hy
      · rw [Complex.im_ofReal_mul]; exact hx
    have hE : (earth : ℂ) ≠ 0 := by exact_mod_cast he0.ne'
    have e2 : (t : ℂ) * ⟨Real.cos b, Real.sin b⟩ - ((r / R : ℝ) : ℂ) * ⟨Real.cos b', Real.sin b'⟩ =
        -(((1 / earth : ℝ) : ℂ) * (⟨y, x⟩ - ((earth * t : ℝ) : ℂ) * ⟨Real.cos b, Real.sin b⟩)) +
          ((r / earth - r / R : ℝ) : ℂ) * ⟨Real.cos b', Real.sin b'⟩ := by
      rw [e1]
      push_cast
      field_simp
      ring
    rw [e2]
    refine (norm_add_le _ _).trans (add_le_add ?_ ?_)
    · rw [norm_neg, norm_mul, Complex.norm_real, Real.norm_eq_abs, abs_of_pos (by positivity)]
      refine (mul_le_mul_of_nonneg_left hV (by positivity)).trans (le_of_eq ?_)
      field_simp
    · rw [norm_mul, unit_norm, mul_one, Complex.norm_real, Real.norm_eq_abs]
      rw [show r / earth - r / R = r * (R - earth) / (earth * R) by field_simp, abs_div, abs_of_pos (by positivity : 0 < earth * R), div_le_iff₀ (by positivity),
        abs_mul, abs_of_nonneg hr0]
      have h6 : |R - earth| ≤ 101 := by rw [abs_le]; constructor <;> linarith
      have h7 := mul_le_mul hr1 h6 (abs_nonneg _) (by norm_num)
      refine h7.trans ?_
      rw [he] at hR1 ⊢
      nlinarith
  rw [hb] at hlip
  have htri := arc_triangle (place_normSq la lo) (Gps.walk_normSq lat lon (r / R) b') (place_normSq la2 lo2)
  have hc : arc (walk lat lon (r / R) b') (place la2 lo2) = arc (place la2 lo2) (walk lat lon (r / R) b') := by
    unfold arc
    congr 1
    simp only [V3.dot]
    ring
  rw [hc] at htri
  have : 415 / 100 * (1262 * u + 2521 / 10 ^ 12) + 73900 * u ≤ 106 / 10 ^ 10 := by linarith
  linarith

end Rounded

open Rounded Geo

/-- **C183.** tests/test_gps.py:83-119 `test_gpsSpaceBackForth` with rounding errors: for everything that can be drawn no nan occurs, and all three assertions, which
allow 1.5, hold by a wide margin. -/
theorem C183_test (u lat lon d b : ℝ) (h : Option ℝ) (hu : 0 ≤ u) (hu1 : u ≤ 1 / 10 ^ 15) (hok : DrawnGps.Ok lat lon d b) (hh : ∀ x ∈ h, 0 ≤ x ∧ x ≤ 100)
    (R : ℝ) (hR : Radius u h R) (o1 o2 : Num) (hm : MoveDistance u lat lon R d b o1 o2) :
    ∃ la lo, Num.Is o1 la ∧ Num.Is o2 lo ∧
      (∀ D, DistanceOf u lat lon h la lo h D → ∃ r, Num.Is D r ∧ |d - r| ≤ 1 / 50) ∧
      (∀ β v y, Bearing u lat lon la lo β → Rd u (b - β) v → TurnLoop u v y → |y| ≤ 1) ∧
      ∀ X Y, SpaceFromGPS u lat lon h la lo h X Y → ∃ x y, Num.Is X x ∧ Num.Is Y y ∧
        ∀ p1 p2, GpsFromSpace u lat lon R x y p1 p2 → ∃ la2 lo2, Num.Is p1 la2 ∧ Num.Is p2 lo2 ∧
          ∀ D, DistanceOf u la lo h la2 lo2 h D → ∃ r, Num.Is D r ∧ |r| ≤ 1 / 14 ∧ ∀ q, Rd u (r / d) q → |min q r| ≤ 1 / 14 := by
  have hp := Real.pi_gt_d4
  have hp4 := Real.pi_lt_d4
  have he : earth = 6371000 := rfl
  have he0 : 0 < earth := by rw [he]; norm_num
  have hu5 : u ≤ 1 / 100000 := hu1.trans (by norm_num)
  obtain ⟨hR1, hR2⟩ := radius_test hu hu1 hh hR
  have hR0 : 0 < R := by linarith
  have h1 : |lat| ≤ 89 := abs_le.2 hok.lat
  have h2 : |lon| ≤ 89 := abs_le.2 hok.lon
  have hb := abs_le.2 hok.bearing
  obtain ⟨d0, d1⟩ := hok.distance
  have ht0 : 0 ≤ d / R := by positivity
  have ht1 : d / R ≤ 1 / 6370 := by rw [div_le_iff₀ hR0]; linarith
  have ht2 : 1 / 6372000 ≤ d / R := by rw [le_div_iff₀ hR0]; linarith
  obtain ⟨la, lo, k1, k2, k3, k4, k5⟩ := test_move (t := d / R) (b := rad b) hu hu1 h1 h2 ht0 (by linarith)
    (fun a k => by
      unfold Rd at k
      rw [abs_of_nonneg ht0] at k
      nlinarith) (fun c k => (k.turn hu hu5 (by linarith)).trans (mul_le_mul_of_nonneg_right (by norm_num) hu)) hm
  obtain ⟨t, ht⟩ : ∃ t, t = arc (place lat lon) (place la lo) := ⟨_, rfl⟩
  have hang := arc_isAngle (place_normSq lat lon) (place_normSq la lo)
  rw [← ht] at hang
  have hwarc := (angle_walk (lat := lat) (lon := lon) (t := d / R) (b := rad b) ht0 (by linarith)).eq_arc
  have hcomm : ∀ v w : V3 ℝ, arc v w = arc w v := by
    intro v w
    unfold arc
    congr 1
    simp only [V3.dot]
    ring
  have htR : |t - d / R| ≤ 73900 * u := by
    have t1 := arc_triangle (place_normSq lat lon) (Gps.walk_normSq lat lon (d / R) (rad b)) (place_normSq la lo)
    have t2 := arc_triangle (place_normSq lat lon) (place_normSq la lo) (Gps.walk_normSq lat lon (d / R) (rad b))
    rw [← hwarc, ← ht, hcomm _ (place la lo)] at t1
    rw [← hwarc, ← ht] at t2
    rw [abs_le]
    constructor <;> linarith
  have htt : t ≤ 1 / 6300 := by
    have := (abs_le.1 htR).2
    linarith
  have hz : h = none ∨ h = none ∨ h = h := Or.inr (Or.inr rfl)
  refine ⟨la, lo, k1, k2, ?_, ?_, ?_⟩
  · intro D hD
    obtain ⟨r, hr, her⟩ := DistanceOf.quarter hu hu5 (by linarith) (by linarith) (by linarith) k5 hang (by linarith) hz hD
    refine ⟨r, hr, ?_⟩
    have e : d - r = d * (R - earth) / R - earth * (t - d / R) - (r - earth * t) := by field_simp; ring
    have i1 : |d * (R - earth) / R| ≤ 16 / 1000 := by
      rw [abs_div, abs_of_pos hR0, div_le_iff₀ hR0, abs_mul, abs_of_pos (by linarith)]
      have h6 : |R - earth| ≤ 101 := by rw [abs_le]; constructor <;> linarith
      have h7 := mul_le_mul d1 h6 (abs_nonneg _) (by norm_num)
      linarith
    have i2 : |earth * (t - d / R)| ≤ 1 / 1000 := by
      rw [abs_mul, abs_of_pos he0]
      have := mul_le_mul_of_nonneg_left htR he0.le
      rw [he] at this ⊢
      linarith
    have i3 : |r - earth * t| ≤ 1 / 1000 := by
      rw [he] at her ⊢
      linarith
    rw [e]
    exact ((abs_sub _ _).trans (add_le_add_left (abs_sub _ _) _)).trans (by linarith)
  · intro β v y hβ hv hy
    obtain ⟨k, q1, q2, q3⟩ := test_bearing hu hu1 h1 h2 k4 k5 ht2 (by linarith) hb k3 hβ
    refine hy.small hu hu1 k q1 q2 ?_
    have hβb := hβ.bound hu hu5
    have i1 : |b - β| ≤ 361 := (abs_sub _ _).trans (by linarith)
    have i2 : |v - (b - β)| ≤ 1 / 10 := by
      unfold Rd at hv
      nlinarith
    rw [show v - 360 * (k : ℝ) = (v - (b - β)) + (b - β - 360 * k) by ring]
    exact (abs_add_le _ _).trans (by linarith)
  · intro X Y hXY
    obtain ⟨x, y, j1, j2, j3⟩ := test_back (t := t) hu hu1 h1 h2 k4 k5 hR1 hR2 ht htt hz hXY
    refine ⟨x, y, j1, j2, fun p1 p2 hp => ?_⟩
    obtain ⟨la2, lo2, i1, i2, i3, i4, i5⟩ := j3 p1 p2 hp
    refine ⟨la2, lo2, i1, i2, fun D hD => ?_⟩
    have hang2 := arc_isAngle (place_normSq la lo) (place_normSq la2 lo2)
    obtain ⟨r, hr, her⟩ := DistanceOf.quarter hu hu5 (by linarith) k5 (by linarith) i4 hang2 (by linarith) hz hD
    have hA0 := hang2.1
    generalize arc (place la lo) (place la2 lo2) = A at *
    have hr1 : |r| ≤ 7 / 100 := by
      have h6 : |earth * A| ≤ 68 / 1000 := by
        rw [abs_of_nonneg (by positivity), he]; linarith
      rw [he] at her h6
      have := abs_sub_abs_le_abs_sub r (6371000 * A)
      linarith
    refine ⟨r, hr, by linarith, fun q hq => ?_⟩
    have hq1 : |q| ≤ 1 / 14 := by
      obtain ⟨f, hf, rfl⟩ := hq.form hu
      have h6 : |r / d| ≤ 7 / 100 := by
        rw [abs_div, abs_of_pos (by linarith : 0 < d), div_le_iff₀ (by linarith)]
        linarith
      have h7 : |f| ≤ 1001 / 1000 := by
        have := abs_sub_abs_le_abs_sub f 1
        rw [_root_.abs_one] at this
        linarith
      rw [abs_mul]
      have := mul_le_mul h6 h7 (abs_nonneg _) (by norm_num)
      linarith
    rcases min_choice q r with e | e
    · rw [e]; exact hq1
    · rw [e]; linarith

/-- The corners of what can be drawn, in double precision and with the height of the test. -/
example : ∃ R o1 o2 la lo, Radius (1 / 2 ^ 50) (some 1) R ∧ MoveDistance (1 / 2 ^ 50) (-89) 89 R 1000 180 o1 o2 ∧ Num.Is o1 la ∧ Num.Is o2 lo := by
  obtain ⟨R, hR⟩ : ∃ R, Radius (1 / 2 ^ 50) (some 1) R := ⟨_, Rd.exact (by positivity) _⟩
  obtain ⟨o1, o2, h⟩ := MoveDistance.exists (u := 1 / 2 ^ 50) (by positivity) (-89) 89 R 1000 180
  obtain ⟨la, lo, k1, k2, -⟩ := C183_test (1 / 2 ^ 50) (-89) 89 1000 180 (some 1) (by positivity) (by norm_num) (by constructor <;> norm_num)
    (fun x hx => by cases hx; norm_num) R hR o1 o2 h
  exact ⟨R, o1, o2, la, lo, hR, h, k1, k2⟩
