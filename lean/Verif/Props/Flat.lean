import Verif.Spec.Flat
import Verif.Props.Gps
import Mathlib.Analysis.Convex.SpecificFunctions.Deriv
import Mathlib.Analysis.Convex.Deriv
import Mathlib.Analysis.Real.Pi.Bounds
import Mathlib.Analysis.SpecialFunctions.Trigonometric.Bounds

/-! # How true distances are in the plane that replaces the earth around a reference point (C171) -/

open Classical Gps Geo

namespace Flat

theorem sinc_anti {x y : ℝ} (hx : 0 < x) (hxy : x ≤ y) (hy : y ≤ Real.pi) : Real.sin y * x ≤ Real.sin x * y := by
  have h : x / y * Real.sin y + (1 - x / y) * Real.sin 0 ≤ Real.sin (x / y * y + (1 - x / y) * 0) :=
    strictConcaveOn_sin_Icc.concaveOn.2 ⟨hx.le.trans hxy, hy⟩ ⟨le_rfl, Real.pi_pos.le⟩
      (div_nonneg hx.le (hx.le.trans hxy)) (by rw [sub_nonneg, div_le_one (hx.trans_le hxy)]; exact hxy) (by ring)
  have hy0 : 0 < y := hx.trans_le hxy
  simp only [mul_zero, add_zero, Real.sin_zero] at h
  rw [div_mul_cancel₀ _ hy0.ne'] at h
  have := mul_le_mul_of_nonneg_right h hy0.le
  calc Real.sin y * x = x / y * Real.sin y * y := by field_simp
    _ ≤ _ := this

theorem convex_cos_sqrt : ConvexOn ℝ (Set.Icc 0 (Real.pi ^ 2)) fun u => Real.cos (Real.sqrt u) := by
  have hd : ∀ u : ℝ, 0 < u → HasDerivAt (fun u => Real.cos (Real.sqrt u)) (-Real.sin (Real.sqrt u) * (1 / (2 * Real.sqrt u))) u := fun u hu =>
    (Real.hasDerivAt_cos _).comp u (Real.hasDerivAt_sqrt hu.ne')
  refine MonotoneOn.convexOn_of_deriv (convex_Icc _ _) (Real.continuous_cos.comp Real.continuous_sqrt).continuousOn ?_ ?_
  · rw [interior_Icc]
    exact fun u hu => (hd u hu.1).differentiableAt.differentiableWithinAt
  · rw [interior_Icc]
    intro u hu v hv huv
    rw [(hd u hu.1).deriv, (hd v hv.1).deriv]
    have h1 : 0 < Real.sqrt u := Real.sqrt_pos.2 hu.1
    have h2 : 0 < Real.sqrt v := Real.sqrt_pos.2 hv.1
    have h3 : Real.sqrt u ≤ Real.sqrt v := Real.sqrt_le_sqrt huv
    have h4 : Real.sqrt v ≤ Real.pi := by
      rw [← Real.sqrt_sq Real.pi_pos.le]
      exact Real.sqrt_le_sqrt hv.2.le
    have h := sinc_anti h1 h3 h4
    rw [neg_mul, neg_mul, neg_le_neg_iff, mul_one_div, mul_one_div, div_le_div_iff₀ (by positivity) (by positivity)]
    linarith

/-- The third side of a spherical triangle is at most that of the plane triangle with the same two sides and angle. -/
theorem cos_le {a b x : ℝ} (ha : 0 ≤ a) (ha' : a ≤ Real.pi) (hb : 0 ≤ b) (hb' : b ≤ Real.pi) (hx : -1 ≤ x) (hx' : x ≤ 1)
    (he : a ^ 2 + b ^ 2 - 2 * a * b * x ≤ Real.pi ^ 2) :
    Real.cos (Real.sqrt (a ^ 2 + b ^ 2 - 2 * a * b * x)) ≤ Real.cos a * Real.cos b + Real.sin a * Real.sin b * x := by
  rcases ha.eq_or_lt with rfl | ha
  · simp [Real.sqrt_sq hb]
  rcases hb.eq_or_lt with rfl | hb
  · simp [Real.sqrt_sq ha.le]
  have hab : 0 < 2 * a * b := by positivity
  have hss : 0 ≤ Real.sin a * Real.sin b := mul_nonneg (Real.sin_nonneg_of_nonneg_of_le_pi ha.le ha') (Real.sin_nonneg_of_nonneg_of_le_pi hb.le hb')
  obtain ⟨u, hu⟩ : ∃ u, u = a ^ 2 + b ^ 2 - 2 * a * b * x := ⟨_, rfl⟩
  obtain ⟨L, hL⟩ : ∃ L : ℝ → ℝ, L = fun v => Real.cos a * Real.cos b + Real.sin a * Real.sin b * ((a ^ 2 + b ^ 2 - v) / (2 * a * b)) := ⟨_, rfl⟩
  have hLu : Real.cos a * Real.cos b + Real.sin a * Real.sin b * x = L u := by
    rw [hL, hu]
    simp only
    congr 2
    field_simp
    ring
  rw [hLu, ← hu]
  have u1 : (a - b) ^ 2 ≤ u := by rw [hu]; nlinarith
  have u2 : u ≤ (a + b) ^ 2 := by rw [hu]; nlinarith
  rw [← hu] at he
  have e1 : Real.cos (Real.sqrt ((a - b) ^ 2)) = L ((a - b) ^ 2) := by
    rw [Real.sqrt_sq_eq_abs, Real.cos_abs, Real.cos_sub, hL]
    simp only
    rw [show (a ^ 2 + b ^ 2 - (a - b) ^ 2) / (2 * a * b) = 1 by field_simp; ring]
    ring
  obtain ⟨m, hm⟩ : ∃ m, m = min ((a + b) ^ 2) (Real.pi ^ 2) := ⟨_, rfl⟩
  have um : u ≤ m := by rw [hm]; exact le_min u2 he
  have m2 : m ≤ Real.pi ^ 2 := by rw [hm]; exact min_le_right _ _
  have e2 : Real.cos (Real.sqrt m) ≤ L m := by
    rcases le_total ((a + b) ^ 2) (Real.pi ^ 2) with h | h
    · rw [min_eq_left h] at hm
      rw [hm, Real.sqrt_sq (by positivity), Real.cos_add, hL]
      simp only
      rw [show (a ^ 2 + b ^ 2 - (a + b) ^ 2) / (2 * a * b) = -1 by field_simp; ring]
      linarith
    · rw [min_eq_right h] at hm
      rw [hm, Real.sqrt_sq Real.pi_pos.le, Real.cos_pi, hL]
      simp only
      have : -1 ≤ (a ^ 2 + b ^ 2 - Real.pi ^ 2) / (2 * a * b) := by
        rw [le_div_iff₀ hab]; nlinarith
      have h1 := Real.neg_one_le_cos (a + b)
      rw [Real.cos_add] at h1
      nlinarith
  have lin : ∀ s t v w : ℝ, s + t = 1 → L (s * v + t * w) = s * L v + t * L w := by
    intro s t v w h
    rw [hL]
    simp only
    field_simp
    have : s = 1 - t := by linarith
    subst this
    ring
  rcases u1.eq_or_lt with h | h1
  · rw [← h, e1]
  have hlt : (a - b) ^ 2 < m := h1.trans_le um
  obtain ⟨t, ht⟩ : ∃ t, t = (u - (a - b) ^ 2) / (m - (a - b) ^ 2) := ⟨_, rfl⟩
  have hpos : 0 < m - (a - b) ^ 2 := sub_pos.2 hlt
  have t0 : 0 ≤ t := by rw [ht]; exact div_nonneg (sub_nonneg.2 h1.le) hpos.le
  have t1 : t ≤ 1 := by rw [ht, div_le_one hpos]; linarith
  have hut : u = (1 - t) * (a - b) ^ 2 + t * m := by rw [ht]; field_simp; ring
  have hc : Real.cos (Real.sqrt ((1 - t) * (a - b) ^ 2 + t * m)) ≤ (1 - t) * Real.cos (Real.sqrt ((a - b) ^ 2)) + t * Real.cos (Real.sqrt m) :=
    convex_cos_sqrt.2 ⟨sq_nonneg _, hlt.le.trans m2⟩ ⟨(sq_nonneg _).trans hlt.le, m2⟩ (by linarith) t0 (by ring)
  rw [← hut] at hc
  refine hc.trans ?_
  rw [hut, lin _ _ _ _ (by ring), e1]
  have := mul_le_mul_of_nonneg_left e2 t0
  linarith

/-- The third side of a spherical triangle with two sides up to `r` is at least that of the plane triangle times `sin r / r`. -/
theorem le_cos {a b x r d : ℝ} (ha : 0 ≤ a) (ha' : a ≤ r) (hb : 0 ≤ b) (hb' : b ≤ r) (hr : r ≤ Real.pi) (hx' : x ≤ 1) (hd : 0 ≤ d)
    (hc : Real.cos d = Real.cos a * Real.cos b + Real.sin a * Real.sin b * x) :
    Real.sin r * Real.sqrt (a ^ 2 + b ^ 2 - 2 * a * b * x) ≤ r * d := by
  rcases (ha.trans ha').eq_or_lt with h0 | hr0
  · rw [← h0]; simp
  have hsr : 0 ≤ Real.sin r := Real.sin_nonneg_of_nonneg_of_le_pi hr0.le hr
  have key : ∀ y, 0 ≤ y → y ≤ r → Real.sin r * y ≤ r * Real.sin y := by
    intro y h1 h2
    rcases h1.eq_or_lt with rfl | h1
    · simp
    · have := sinc_anti h1 h2 hr
      linarith
  have hhalf : Real.sin r * |a - b| ≤ r * (2 * Real.sin (|a - b| / 2)) := by
    have h1 : |a - b| ≤ r := abs_le.2 ⟨by linarith, by linarith⟩
    have h2 := key (|a - b| / 2) (by positivity) (by linarith [abs_nonneg (a - b)])
    linarith
  have hs2 : Real.sin (|a - b| / 2) ^ 2 = (1 - Real.cos (a - b)) / 2 := by
    have := Real.cos_sq (|a - b| / 2)
    rw [mul_div_cancel₀ _ (two_ne_zero), Real.cos_abs] at this
    have h2 := Real.sin_sq_add_cos_sq (|a - b| / 2)
    linarith
  have hsd : Real.sin (d / 2) ^ 2 = (1 - Real.cos d) / 2 := by
    have := Real.cos_sq (d / 2)
    rw [mul_div_cancel₀ _ (two_ne_zero)] at this
    have h2 := Real.sin_sq_add_cos_sq (d / 2)
    linarith
  have hsind : (2 * Real.sin (d / 2)) ^ 2 ≤ d ^ 2 := by
    have := Real.sin_sq_le_sq (x := d / 2)
    nlinarith
  have hx0 : 0 ≤ 1 - x := by linarith
  have hsab : Real.sin r * a * (Real.sin r * b) ≤ r * Real.sin a * (r * Real.sin b) :=
    mul_le_mul (key a ha ha') (key b hb hb') (mul_nonneg hsr hb) ((mul_nonneg hsr ha).trans (key a ha ha'))
  have h4 : (Real.sin r * |a - b|) ^ 2 ≤ (r * (2 * Real.sin (|a - b| / 2))) ^ 2 := pow_le_pow_left₀ (by positivity) hhalf 2
  have hsq : (Real.sin r) ^ 2 * (a ^ 2 + b ^ 2 - 2 * a * b * x) ≤ (r * d) ^ 2 := by
    have e1 : (r * (2 * Real.sin (d / 2))) ^ 2 ≤ (r * d) ^ 2 := by
      rw [mul_pow r (2 * _), mul_pow r d]
      exact mul_le_mul_of_nonneg_left hsind (sq_nonneg r)
    refine le_trans ?_ e1
    have e2 : (r * (2 * Real.sin (d / 2))) ^ 2 = (r * (2 * Real.sin (|a - b| / 2))) ^ 2 + 2 * (1 - x) * (r * Real.sin a * (r * Real.sin b)) := by
      rw [mul_pow, mul_pow, mul_pow, mul_pow, hsd, hs2, hc, Real.cos_sub]
      ring
    rw [e2]
    have e3 := mul_le_mul_of_nonneg_left hsab (mul_nonneg (zero_le_two (α := ℝ)) hx0)
    rw [mul_pow (Real.sin r) |a - b|, sq_abs] at h4
    nlinarith
  have := Real.sqrt_le_sqrt hsq
  rwa [Real.sqrt_mul (sq_nonneg _), Real.sqrt_sq hsr, Real.sqrt_sq (by positivity)] at this

/-- Two places on the sphere reached from one with the sides `a`, `b`, and the points of the plane with the same distances and directions. -/
theorem compare {u v : V3 ℝ} {lat lon a b β γ : ℝ} (hu : u = walk lat lon a β) (hv : v = walk lat lon b γ) (ha : 0 ≤ a) (ha' : a ≤ Real.pi) (hb : 0 ≤ b)
    (hb' : b ≤ Real.pi) :
    arc u v ≤ Real.sqrt ((a * Real.sin β - b * Real.sin γ) ^ 2 + (a * Real.cos β - b * Real.cos γ) ^ 2) ∧
    ∀ r, a ≤ r → b ≤ r → r ≤ Real.pi →
      Real.sin r * Real.sqrt ((a * Real.sin β - b * Real.sin γ) ^ 2 + (a * Real.cos β - b * Real.cos γ) ^ 2) ≤ r * arc u v := by
  have hd : u.dot v = Real.cos a * Real.cos b + Real.sin a * Real.sin b * Real.cos (β - γ) := by
    have h1 := Real.sin_sq_add_cos_sq (rad lat)
    have h2 := Real.sin_sq_add_cos_sq (rad lon)
    rw [hu, hv, Real.cos_sub]
    simp only [walk, place, north, east, V3.dot, V3.mulS_x, V3.mulS_y, V3.mulS_z, V3.add_x, V3.add_y, V3.add_z]
    grobner
  have hE : (a * Real.sin β - b * Real.sin γ) ^ 2 + (a * Real.cos β - b * Real.cos γ) ^ 2 = a ^ 2 + b ^ 2 - 2 * a * b * Real.cos (β - γ) := by
    rw [Real.cos_sub]
    linear_combination a ^ 2 * Real.sin_sq_add_cos_sq β + b ^ 2 * Real.sin_sq_add_cos_sq γ
  have hun : u.normSq = 1 := by rw [hu]; exact walk_normSq _ _ _ _
  have hvn : v.normSq = 1 := by rw [hv]; exact walk_normSq _ _ _ _
  obtain ⟨t0, t1, t2⟩ := arc_isAngle hun hvn
  rw [hE]
  rw [hd] at t2
  refine ⟨?_, fun r h1 h2 hr => le_cos ha h1 hb h2 hr (Real.cos_le_one _) t0 t2⟩
  rcases le_total (a ^ 2 + b ^ 2 - 2 * a * b * Real.cos (β - γ)) (Real.pi ^ 2) with h | h
  · have hc := cos_le ha ha' hb hb' (Real.neg_one_le_cos _) (Real.cos_le_one (β - γ)) h
    rw [← t2] at hc
    refine (Real.strictAntiOn_cos.le_iff_ge ⟨Real.sqrt_nonneg _, ?_⟩ ⟨t0, t1⟩).1 hc
    rw [← Real.sqrt_sq Real.pi_pos.le]
    exact Real.sqrt_le_sqrt h
  · refine t1.trans ?_
    rw [← Real.sqrt_sq Real.pi_pos.le]
    exact Real.sqrt_le_sqrt h

/-- What `spaceRow` returns. -/
theorem spaceRow_walk {p q : Pt} {l1 o1 l2 o2 : ℝ} (hp : p.Is l1 o1) (hq : q.Is l2 o2) (hn : p.h = none) {h : Num} {z : ℝ} (hz : Num.Is h z) :
    ∃ a β : ℝ, 0 ≤ a ∧ a ≤ Real.pi ∧ place l2 o2 = walk l1 o1 a β ∧ (spaceRow p q h).Is ⟨earth * (a * Real.sin β), earth * (a * Real.cos β), z⟩ := by
  have hD := getDistance_is hp hq (Or.inl hn)
  obtain ⟨X, Y, eb, hX, hY⟩ := getBearing_eq hp hq
  have hu := place_normSq l1 o1
  have hv := place_normSq l2 o2
  obtain ⟨a0, a1, a2⟩ := arc_isAngle hu hv
  obtain ⟨β, hβ, hc, hs⟩ := turn (c := 1) one_pos (hX.congr (one_mul _).symm) (hY.congr (one_mul _).symm)
  rw [sin_arc l1 o1 hv] at hc hs
  have hdb : Num.Is (Num.deg2rad (getBearing p q)) β := by
    rw [eb]
    exact (hβ.rad2deg.deg2rad).congr (by have := Real.pi_ne_zero; field_simp)
  refine ⟨_, β, a0, a1, ?_, (hD.mul hdb.sin).congr (by ring), (hD.mul hdb.cos).congr (by ring), hz⟩
  have k3 : Real.cos (arc (place l1 o1) (place l2 o2)) = (place l2 o2).dot (place l1 o1) := by rw [a2]; simp only [V3.dot]; ring
  conv_lhs => rw [expand l1 o1 (place l2 o2), ← hc, ← hs, ← k3]
  unfold walk
  ext <;> simp <;> ring

/-- What `gpsFromSpace` returns. -/
theorem gps_walk {p : Pt} {lat lon R x y z : ℝ} {s : V3 Num} (hp : p.Is lat lon) (hR : HasRadius p R) (hR0 : 0 < R) (hs : V3.Is s ⟨x, y, z⟩)
    (hl : 0 < Real.cos (rad lat)) :
    ∃ lat2 lon2 θ : ℝ, (gpsFromSpace s p).Is lat2 lon2 ∧ (gpsFromSpace s p).h = some s.z ∧
      place lat2 lon2 = walk lat lon (Real.sqrt (x ^ 2 + y ^ 2) / R) θ ∧ Real.sqrt (x ^ 2 + y ^ 2) * Real.sin θ = x ∧ Real.sqrt (x ^ 2 + y ^ 2) * Real.cos θ = y := by
  obtain ⟨θ, hθ, hc, hsn⟩ := turn (c := 1) one_pos (hs.1.congr (one_mul _).symm) (hs.2.1.congr (one_mul _).symm)
  simp only at hc hsn
  have hdist := norm2_is hs.1 hs.2.1
  simp only at hdist
  obtain ⟨lat2, lon2, hi, -, -, hw⟩ := moveDistance_is hp hR hR0.ne' hdist hθ.rad2deg hl
  rw [rad_rad2deg] at hw
  rw [add_comm] at hc hsn
  exact ⟨lat2, lon2, θ, hi, rfl, hw, hsn, hc⟩

theorem across_scale (k x y x' y' z z' : ℝ) (hk : 0 ≤ k) : across ⟨k * x, k * y, z⟩ ⟨k * x', k * y', z'⟩ = k * Real.sqrt ((x - x') ^ 2 + (y - y') ^ 2) := by
  unfold across
  simp only
  rw [show (k * x - k * x') ^ 2 + (k * y - k * y') ^ 2 = k ^ 2 * ((x - x') ^ 2 + (y - y') ^ 2) by ring, Real.sqrt_mul (sq_nonneg _), Real.sqrt_sq hk]

theorem sinc_lower {r : ℝ} (hr : 0 ≤ r) : r * (1 - r ^ 2 / 6) ≤ Real.sin r := by
  have := Real.sin_ge_sub_cube hr
  linarith [show r * (1 - r ^ 2 / 6) = r - r ^ 3 / 6 by ring]

theorem ratio {E A a b r : ℝ} (h : ∀ r, a ≤ r → b ≤ r → r ≤ Real.pi → Real.sin r * E ≤ r * A) (ha : 0 ≤ a) (hE : 0 ≤ E) (hA : 0 ≤ A) (h0 : a ≤ 0 → b ≤ 0 → E = 0)
    (h1 : a ≤ r) (h2 : b ≤ r) : (1 - r ^ 2 / 6) * E ≤ A := by
  rcases le_or_gt r Real.pi with hr | hr
  · rcases (ha.trans h1).eq_or_lt with e | hr0
    · rw [h0 (h1.trans e.ge) (h2.trans e.ge), mul_zero]
      exact hA
    · have k1 := mul_le_mul_of_nonneg_right (sinc_lower hr0.le) hE
      have k2 := k1.trans (h r h1 h2 hr)
      rw [mul_assoc] at k2
      exact le_of_mul_le_mul_left k2 hr0
  · have h3 := Real.pi_gt_three
    have : 1 - r ^ 2 / 6 ≤ 0 := by nlinarith
    exact (mul_nonpos_of_nonpos_of_nonneg this hE).trans hA

/-- Two points of space, converted to gps coordinates with the radius `R` of the reference. -/
theorem to_gps {p : Pt} {lat lon R : ℝ} (hp : p.Is lat lon) (hR : HasRadius p R) (hR0 : earth ≤ R) (hl : 0 < Real.cos (rad lat)) (P Q : V3 ℝ)
    (hP : across P ⟨0, 0, 0⟩ ≤ R * Real.pi) (hQ : across Q ⟨0, 0, 0⟩ ≤ R * Real.pi) :
    ∃ d, Num.Is (getDistance (gpsFromSpace P.num p) (gpsFromSpace Q.num p)) d ∧ d ≤ V3.dist P Q ∧
      ∀ ρ, across P ⟨0, 0, 0⟩ ≤ ρ → across Q ⟨0, 0, 0⟩ ≤ ρ → (1 - (ρ / R) ^ 2 / 6) * (earth / R) * V3.dist P Q ≤ d := by
  have he := earth_pos
  have hRp : 0 < R := he.trans_le hR0
  have hn : ∀ P : V3 ℝ, across P ⟨0, 0, 0⟩ = Real.sqrt (P.x ^ 2 + P.y ^ 2) := fun P => by simp [across]
  rw [hn] at hP hQ
  obtain ⟨l1, o1, β, i1, j1, w1, s1, c1⟩ := gps_walk (s := P.num) (x := P.x) (y := P.y) (z := P.z) hp hR hRp (V3.is_num P) hl
  obtain ⟨l2, o2, γ, i2, j2, w2, s2, c2⟩ := gps_walk (s := Q.num) (x := Q.x) (y := Q.y) (z := Q.z) hp hR hRp (V3.is_num Q) hl
  have hD := getDistance_h i1 i2 j1 j2 (V3.is_num P).2.2 (V3.is_num Q).2.2
  obtain ⟨a, ea⟩ : ∃ a, a = Real.sqrt (P.x ^ 2 + P.y ^ 2) := ⟨_, rfl⟩
  obtain ⟨b, eb⟩ : ∃ b, b = Real.sqrt (Q.x ^ 2 + Q.y ^ 2) := ⟨_, rfl⟩
  have a0 : 0 ≤ a := by rw [ea]; exact Real.sqrt_nonneg _
  have b0 : 0 ≤ b := by rw [eb]; exact Real.sqrt_nonneg _
  rw [← ea] at hP w1 s1 c1
  rw [← eb] at hQ w2 s2 c2
  obtain ⟨k1, k2⟩ := compare w1 w2 (div_nonneg a0 hRp.le) (by rw [div_le_iff₀ hRp]; linarith) (div_nonneg b0 hRp.le) (by rw [div_le_iff₀ hRp]; linarith)
  have eE : Real.sqrt ((a / R * Real.sin β - b / R * Real.sin γ) ^ 2 + (a / R * Real.cos β - b / R * Real.cos γ) ^ 2) = across P Q / R := by
    unfold across
    rw [show a / R * Real.sin β = P.x / R by rw [← s1]; ring, show b / R * Real.sin γ = Q.x / R by rw [← s2]; ring,
      show a / R * Real.cos β = P.y / R by rw [← c1]; ring, show b / R * Real.cos γ = Q.y / R by rw [← c2]; ring,
      show (P.x / R - Q.x / R) ^ 2 + (P.y / R - Q.y / R) ^ 2 = ((P.x - Q.x) ^ 2 + (P.y - Q.y) ^ 2) / R ^ 2 by field_simp, Real.sqrt_div (by positivity),
      Real.sqrt_sq hRp.le]
  rw [eE] at k1 k2
  obtain ⟨A, eA⟩ : ∃ A, A = arc (place l1 o1) (place l2 o2) := ⟨_, rfl⟩
  have A0 : 0 ≤ A := by rw [eA]; exact Real.arccos_nonneg _
  rw [← eA] at hD k1 k2
  have E0 : 0 ≤ across P Q := Real.sqrt_nonneg _
  have hdist : V3.dist P Q = Real.sqrt (across P Q ^ 2 + (P.z - Q.z) ^ 2) := by
    unfold V3.dist V3.norm across
    rw [Real.sq_sqrt (by positivity)]
    simp [V3.normSq]
  have hup : earth * A ≤ across P Q := by
    calc earth * A ≤ earth * (across P Q / R) := mul_le_mul_of_nonneg_left k1 he.le
      _ ≤ R * (across P Q / R) := mul_le_mul_of_nonneg_right hR0 (div_nonneg E0 hRp.le)
      _ = across P Q := by field_simp
  refine ⟨_, hD, ?_, fun ρ h1 h2 => ?_⟩
  · rw [hdist]
    refine Real.sqrt_le_sqrt ?_
    have := pow_le_pow_left₀ (by positivity) hup 2
    linarith
  · rw [hn, ← ea] at h1
    rw [hn, ← eb] at h2
    have k := ratio (r := ρ / R) k2 (div_nonneg a0 hRp.le) (div_nonneg E0 hRp.le) A0 (fun h3 h4 => ?_) (div_le_div_of_nonneg_right h1 hRp.le)
      (div_le_div_of_nonneg_right h2 hRp.le)
    · rcases le_or_gt (1 - (ρ / R) ^ 2 / 6) 0 with hk | hk
      · refine le_trans (mul_nonpos_of_nonpos_of_nonneg (mul_nonpos_of_nonpos_of_nonneg hk (div_nonneg he.le hRp.le)) ?_) (Real.sqrt_nonneg _)
        rw [hdist]
        exact Real.sqrt_nonneg _
      · have hk1 : (1 - (ρ / R) ^ 2 / 6) * (earth / R) ≤ 1 := by
          refine mul_le_one₀ (by nlinarith [sq_nonneg (ρ / R)]) (div_nonneg he.le hRp.le) ?_
          rw [div_le_one hRp]; exact hR0
        have hk0 : 0 ≤ (1 - (ρ / R) ^ 2 / 6) * (earth / R) := mul_nonneg hk.le (div_nonneg he.le hRp.le)
        have hlow : (1 - (ρ / R) ^ 2 / 6) * (earth / R) * across P Q ≤ earth * A := by
          have := mul_le_mul_of_nonneg_left k he.le
          calc (1 - (ρ / R) ^ 2 / 6) * (earth / R) * across P Q = earth * ((1 - (ρ / R) ^ 2 / 6) * (across P Q / R)) := by ring
            _ ≤ _ := this
        generalize (1 - (ρ / R) ^ 2 / 6) * (earth / R) = κ at *
        rw [hdist]
        calc κ * Real.sqrt (across P Q ^ 2 + (P.z - Q.z) ^ 2) = Real.sqrt (κ ^ 2 * (across P Q ^ 2 + (P.z - Q.z) ^ 2)) := by
              rw [Real.sqrt_mul (sq_nonneg _), Real.sqrt_sq hk0]
          _ ≤ _ := by
              refine Real.sqrt_le_sqrt ?_
              have e1 := pow_le_pow_left₀ (mul_nonneg hk0 E0) hlow 2
              have e2 : κ ^ 2 ≤ 1 := pow_le_one₀ hk0 hk1
              have e3 := mul_le_mul_of_nonneg_right e2 (sq_nonneg (P.z - Q.z))
              linarith
    · have a3 : a = 0 := le_antisymm (by rwa [div_le_iff₀ hRp, zero_mul] at h3) a0
      have b3 : b = 0 := le_antisymm (by rwa [div_le_iff₀ hRp, zero_mul] at h4) b0
      rw [← eE, a3, b3]
      simp

end Flat

open Flat

/-- **C171** Distances of points converted from gps coordinates. -/
theorem C171_from_gps (lat lon l1 o1 l2 o2 : ℝ) :
    ∃ (s t : V3 Num) (S T : V3 ℝ) (d : ℝ), spaceFromGPS (.one (pt l1 o1)) (pt lat lon) = .ok [s] ∧ spaceFromGPS (.one (pt l2 o2)) (pt lat lon) = .ok [t] ∧
      s.Is S ∧ t.Is T ∧ Num.Is (getDistance (pt l1 o1) (pt l2 o2)) d ∧ d ≤ across S T ∧
      ∀ ρ, across S ⟨0, 0, 0⟩ ≤ ρ → across T ⟨0, 0, 0⟩ ≤ ρ → (1 - (ρ / earth) ^ 2 / 6) * across S T ≤ d ∧
        (ρ ≤ earth * Real.pi → Real.sin (ρ / earth) * across S T ≤ ρ / earth * d) := by
  obtain ⟨a, β, a0, a1, ha, hS⟩ := spaceRow_walk (h := .fin 0) (pt_is lat lon) (pt_is l1 o1) rfl (Num.is_fin 0)
  obtain ⟨b, γ, b0, b1, hb, hT⟩ := spaceRow_walk (h := .fin 0) (pt_is lat lon) (pt_is l2 o2) rfl (Num.is_fin 0)
  have he := earth_pos
  obtain ⟨c1, c2⟩ := compare ha hb a0 a1 b0 b1
  have hq : ∀ c δ : ℝ, 0 ≤ c → across ⟨earth * (c * Real.sin δ), earth * (c * Real.cos δ), 0⟩ ⟨0, 0, 0⟩ = earth * c := by
    intro c δ hc
    unfold across
    simp only [sub_zero]
    rw [show (earth * (c * Real.sin δ)) ^ 2 + (earth * (c * Real.cos δ)) ^ 2 = (earth * c) ^ 2 by
      linear_combination (earth * c) ^ 2 * Real.sin_sq_add_cos_sq δ]
    exact Real.sqrt_sq (by positivity)
  refine ⟨_, _, _, _, _, rfl, rfl, hS, hT, getDistance_is (pt_is _ _) (pt_is _ _) (Or.inl rfl), ?_, fun ρ h1 h2 => ?_⟩
  · rw [across_scale _ _ _ _ _ _ _ he.le]
    exact mul_le_mul_of_nonneg_left c1 he.le
  · rw [hq _ _ a0, mul_comm, ← le_div_iff₀ he] at h1
    rw [hq _ _ b0, mul_comm, ← le_div_iff₀ he] at h2
    rw [across_scale _ _ _ _ _ _ _ he.le]
    constructor
    · have := ratio (r := ρ / earth) c2 a0 (Real.sqrt_nonneg _) (Real.arccos_nonneg _) (fun h3 h4 => ?_) h1 h2
      · have := mul_le_mul_of_nonneg_left this he.le
        linarith
      · rw [le_antisymm h3 a0, le_antisymm h4 b0]
        simp
    · intro h3
      have := mul_le_mul_of_nonneg_left (c2 (ρ / earth) h1 h2 (by rw [div_le_iff₀ he]; linarith)) he.le
      linarith

/-- **C171** Distances of points converted to gps coordinates, with heights. -/
theorem C171_to_gps (lat lon : ℝ) (h1 : -90 < lat) (h2 : lat < 90) (P Q : V3 ℝ) (hP : across P ⟨0, 0, 0⟩ ≤ earth * Real.pi)
    (hQ : across Q ⟨0, 0, 0⟩ ≤ earth * Real.pi) :
    ∃ d, Num.Is (getDistance (gpsFromSpace P.num (pt lat lon)) (gpsFromSpace Q.num (pt lat lon))) d ∧ d ≤ V3.dist P Q ∧
      ∀ ρ, across P ⟨0, 0, 0⟩ ≤ ρ → across Q ⟨0, 0, 0⟩ ≤ ρ → (1 - (ρ / earth) ^ 2 / 6) * V3.dist P Q ≤ d := by
  obtain ⟨d, k1, k2, k3⟩ := to_gps (p := pt lat lon) (pt_is lat lon) (Or.inl ⟨rfl, rfl⟩) le_rfl (cos_pos h1 h2) P Q hP hQ
  rw [div_self earth_pos.ne'] at k3
  simp only [mul_one] at k3
  exact ⟨d, k1, k2, k3⟩

/-- **C171** Distances of points that a camera above the ground converts to gps coordinates: shorter by the ratio of the radii in addition. -/
theorem C171_camera (lat lon h : ℝ) (h0 : 0 ≤ h) (h1 : -90 < lat) (h2 : lat < 90) (P Q : V3 ℝ) (hP : across P ⟨0, 0, 0⟩ ≤ earth * Real.pi)
    (hQ : across Q ⟨0, 0, 0⟩ ≤ earth * Real.pi) :
    ∃ d, Num.Is (getDistance (cameraGpsFromSpace lat lon h P.num) (cameraGpsFromSpace lat lon h Q.num)) d ∧ d ≤ V3.dist P Q ∧
      ∀ ρ, across P ⟨0, 0, 0⟩ ≤ ρ → across Q ⟨0, 0, 0⟩ ≤ ρ → (1 - (ρ / (earth + h)) ^ 2 / 6) * (earth / (earth + h)) * V3.dist P Q ≤ d := by
  have hpi := Real.pi_pos
  have hle : earth * Real.pi ≤ (earth + h) * Real.pi := mul_le_mul_of_nonneg_right (by linarith) hpi.le
  exact to_gps (p := ⟨.fin lat, .fin lon, some (.fin h)⟩) (pt_is lat lon) (Or.inr ⟨_, h, rfl, Num.is_fin h, rfl⟩) (by linarith) (cos_pos h1 h2) P Q
    (hP.trans hle) (hQ.trans hle)

/-- Within 10 km distances of space are right up to a millionth. -/
theorem C171_local (lat lon : ℝ) (h1 : -90 < lat) (h2 : lat < 90) (P Q : V3 ℝ) (hP : across P ⟨0, 0, 0⟩ ≤ 10000) (hQ : across Q ⟨0, 0, 0⟩ ≤ 10000) :
    ∃ d, Num.Is (getDistance (gpsFromSpace P.num (pt lat lon)) (gpsFromSpace Q.num (pt lat lon))) d ∧
      |d - V3.dist P Q| ≤ V3.dist P Q / 10 ^ 6 := by
  have h3 := Real.two_le_pi
  have he : (10000 : ℝ) ≤ earth * Real.pi := by unfold earth; nlinarith
  obtain ⟨d, k1, k2, k3⟩ := C171_to_gps lat lon h1 h2 P Q (hP.trans he) (hQ.trans he)
  have k := k3 10000 hP hQ
  have hd : 0 ≤ V3.dist P Q := Real.sqrt_nonneg _
  refine ⟨d, k1, ?_⟩
  rw [abs_sub_comm, abs_of_nonneg (by linarith)]
  have : (1 : ℝ) - 1 / 10 ^ 6 ≤ 1 - (10000 / earth) ^ 2 / 6 := by norm_num [earth]
  have := mul_le_mul_of_nonneg_right this hd
  linarith

/-- A place and two points 5 km and 1 km from it. -/
example : ∃ (lat : ℝ) (P Q : V3 ℝ), -90 < lat ∧ lat < 90 ∧ across P ⟨0, 0, 0⟩ ≤ 10000 ∧ across Q ⟨0, 0, 0⟩ ≤ 10000 ∧ (10000 : ℝ) ≤ earth * Real.pi ∧ P ≠ Q := by
  have h3 := Real.two_le_pi
  refine ⟨50, ⟨3000, 4000, 0⟩, ⟨1000, 0, 0⟩, by norm_num, by norm_num, ?_, ?_, by unfold earth; nlinarith, by simp⟩
  · unfold across
    rw [show ((⟨3000, 4000, 0⟩ : V3 ℝ).x - (⟨0, 0, 0⟩ : V3 ℝ).x) ^ 2 + ((⟨3000, 4000, 0⟩ : V3 ℝ).y - (⟨0, 0, 0⟩ : V3 ℝ).y) ^ 2 = 5000 ^ 2 by norm_num,
      Real.sqrt_sq (by norm_num)]
    norm_num
  · simp [across]
    norm_num
