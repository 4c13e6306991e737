import Verif.Model.DrawnGps
import Verif.Props.Gps

/-! # The assertions of the property tests of gps coordinates -/

open Num Gps Geo Classical

namespace DrawnGps

theorem walk_walk (lat lon s t b : ℝ) : (walk lat lon s b).dot (walk lat lon t b) = Real.cos (s - t) := by
  obtain ⟨h1, h2, h3⟩ := walk_dots lat lon s b
  have e : (walk lat lon s b).dot (walk lat lon t b) = (walk lat lon s b).dot (place lat lon) * Real.cos t +
      ((walk lat lon s b).dot (north lat lon) * Real.cos b + (walk lat lon s b).dot (east lat lon) * Real.sin b) * Real.sin t := by
    generalize walk lat lon s b = w
    simp only [walk, V3.dot, V3.mulS_x, V3.mulS_y, V3.mulS_z, V3.add_x, V3.add_y, V3.add_z]
    ring
  rw [e, h1, h2, h3, Real.cos_sub]
  linear_combination Real.sin s * Real.sin t * Real.sin_sq_add_cos_sq b

theorem arc_walk (lat lon b : ℝ) {s t : ℝ} (h0 : t ≤ s) (h : s - t ≤ Real.pi) : arc (walk lat lon s b) (walk lat lon t b) = s - t :=
  (IsAngle.eq_arc ⟨by linarith, h, (walk_walk lat lon s t b).symm⟩).symm

theorem walk_zero (lat lon b : ℝ) : walk lat lon 0 b = place lat lon := by
  ext <;> simp [walk]

/-- The bearing of a place one has walked to. -/
theorem bearing_walk {p q : Pt} {lat lon lat2 lon2 α b : ℝ} (hp : p.Is lat lon) (hq : q.Is lat2 lon2) (hw : place lat2 lon2 = walk lat lon α (rad b))
    (h0 : 0 < α) (hα : α < Real.pi) : ∃ t, Num.Is (getBearing p q) t ∧ |t| ≤ 180 ∧ ∃ k : ℤ, t = b + 360 * k := by
  obtain ⟨X, Y, eb, hX, hY⟩ := getBearing_eq hp hq
  have hpi := Real.pi_pos
  have hs : 0 < Real.sin α := Real.sin_pos_of_pos_of_lt_pi h0 hα
  obtain ⟨w1, w2, w3⟩ := walk_dots lat lon α (rad b)
  rw [hw, w3] at hX
  rw [hw, w2] at hY
  have hsc := Real.sin_sq_add_cos_sq (rad b)
  have e : (Real.sin α * Real.cos (rad b)) ^ 2 + (Real.sin α * Real.sin (rad b)) ^ 2 = Real.sin α ^ 2 := by linear_combination Real.sin α ^ 2 * hsc
  obtain ⟨θ, hθ, habs, hc, hsn⟩ := Projection.arctan2_spec hX hY (by rw [e]; positivity)
  rw [e, Real.sqrt_sq hs.le] at hc hsn
  have hc' := mul_left_cancel₀ hs.ne' hc
  have hs' := mul_left_cancel₀ hs.ne' hsn
  have ha : (θ : Real.Angle) = (rad b : Real.Angle) := Real.Angle.cos_sin_inj hc' hs'
  obtain ⟨k, hk⟩ := Real.Angle.angle_eq_iff_two_pi_dvd_sub.1 ha
  refine ⟨θ * (180 / Real.pi), by rw [eb]; exact hθ.rad2deg, ?_, k, ?_⟩
  · rw [abs_mul, abs_of_pos (show 0 < 180 / Real.pi by positivity)]
    calc _ ≤ Real.pi * (180 / Real.pi) := mul_le_mul_of_nonneg_right habs (by positivity)
      _ = 180 := by field_simp
  · have : θ = rad b + 2 * Real.pi * k := by linarith
    rw [this]; unfold rad; field_simp; ring

/-- The loops of the test make 0 of the difference. -/
theorem loop_zero {b t : ℝ} (hb : -180 ≤ b ∧ b ≤ 180) (ht : |t| ≤ 180) (k : ℤ) (h : t = b + 360 * k) : ∀ y, Loop (b - t) y ↔ y = 0 := by
  obtain ⟨t1, t2⟩ := abs_le.1 ht
  have k1 : (-2 : ℝ) < k := by linarith [hb.1, hb.2]
  have k2 : (k : ℝ) < 2 := by linarith [hb.1, hb.2]
  have k1' : (-2 : ℤ) < k := by exact_mod_cast k1
  have k2' : k < (2 : ℤ) := by exact_mod_cast k2
  have stop : ∀ y, Loop 0 y ↔ y = 0 := by
    intro y
    constructor
    · intro h
      cases h with
      | done => rfl
      | down _ _ h => linarith
      | up _ _ h => linarith
    · rintro rfl
      exact .done 0 (by norm_num)
  intro y
  rw [h]
  obtain rfl | rfl | rfl : k = -1 ∨ k = 0 ∨ k = 1 := by omega
  · rw [show b - (b + 360 * ((-1 : ℤ) : ℝ)) = 360 by push_cast; ring, ← stop y]
    constructor
    · intro h
      cases h with
      | done _ h => linarith [h.2]
      | down _ _ _ h => rwa [show (360 : ℝ) - 360 = 0 by norm_num] at h
      | up _ _ h => linarith
    · intro h
      exact .down _ _ (by norm_num) (by rwa [show (360 : ℝ) - 360 = 0 by norm_num])
  · rw [show b - (b + 360 * ((0 : ℤ) : ℝ)) = 0 by push_cast; ring]
    exact stop y
  · rw [show b - (b + 360 * ((1 : ℤ) : ℝ)) = -360 by push_cast; ring, ← stop y]
    constructor
    · intro h
      cases h with
      | done _ h => linarith [h.1]
      | down _ _ h => linarith
      | up _ _ _ h => rwa [show (-360 : ℝ) + 360 = 0 by norm_num] at h
    · intro h
      exact .up _ _ (by norm_num) (by rwa [show (-360 : ℝ) + 360 = 0 by norm_num])

/-- Walking to the place of local coordinates. -/
theorem back {p : Pt} {lat lon R D t b : ℝ} {x y : Num} (hp : p.Is lat lon) (hR : HasRadius p R) (hR0 : R ≠ 0) (hD : 0 < D)
    (hl : 0 < Real.cos (rad lat)) (k : ℤ) (ht : t = b + 360 * k) (hx : Num.Is x (D * Real.sin (rad t))) (hy : Num.Is y (D * Real.cos (rad t))) :
    ∃ lat2 lon2, (moveDistance p (norm2 x y) (Num.rad2deg (Num.arctan2 x y))).Is lat2 lon2 ∧ place lat2 lon2 = walk lat lon (D / R) (rad b) := by
  have hsc := Real.sin_sq_add_cos_sq (rad t)
  have e : rad t = rad b + k * (2 * Real.pi) := by rw [ht]; unfold rad; ring
  obtain ⟨θ, hθ, hc, hs⟩ := turn hD hx hy
  rw [show Real.cos (rad t) ^ 2 + Real.sin (rad t) ^ 2 = 1 by linarith, Real.sqrt_one, one_mul, e] at hc hs
  rw [Real.cos_add_int_mul_two_pi] at hc
  rw [Real.sin_add_int_mul_two_pi] at hs
  have hn := norm2_is hx hy
  rw [show (D * Real.sin (rad t)) ^ 2 + (D * Real.cos (rad t)) ^ 2 = D ^ 2 by linear_combination D ^ 2 * hsc, Real.sqrt_sq hD.le] at hn
  obtain ⟨lat2, lon2, hi, -, -, hw⟩ := moveDistance_is hp hR hR0 hn hθ.rad2deg hl
  refine ⟨lat2, lon2, hi, ?_⟩
  rw [hw, rad_rad2deg]
  unfold walk
  rw [hc, hs]

theorem gpsFromSpace_is {s : V3 Num} {p : Pt} {lat lon : ℝ} (h : (moveDistance p (norm2 s.x s.y) (Num.rad2deg (Num.arctan2 s.x s.y))).Is lat lon) :
    (gpsFromSpace s p).Is lat lon ∧ (gpsFromSpace s p).h = some s.z := ⟨h, rfl⟩

theorem spaceFromGPS_one (p q : Pt) (a : Num) (h : q.h = some a) : spaceFromGPS (.one q) p = .ok [spaceRow p q a] := by
  simp [spaceFromGPS, heights, Arr.len, Arr.rows, h, Pt.col2, bind, Except.bind, pure, Except.pure]

theorem spaceRow_eq (p q : Pt) (a : Num) : (spaceRow p q a).x = getDistance p q * Num.sin (Num.deg2rad (getBearing p q)) ∧
    (spaceRow p q a).y = getDistance p q * Num.cos (Num.deg2rad (getBearing p q)) ∧ (spaceRow p q a).z = a := ⟨rfl, rfl, rfl⟩

end DrawnGps

open DrawnGps

/-- **C180** tests/test_gps.py:83-101 `test_gpsSpaceBackForth` without height: the way to local coordinates and back leads to the same place; the distance and, up to full
turns, the bearing are the ones that were drawn. -/
theorem C180_gps (lat lon d b : ℝ) (h : Ok lat lon d b) :
    ∃ s, spaceFromGPS (.one (moveDistance (pt lat lon) (fin d) (fin b))) (pt lat lon) = .ok [s] ∧
      Num.Is (getDistance (moveDistance (pt lat lon) (fin d) (fin b)) (gpsFromSpace2 s.x s.y (pt lat lon))) 0 ∧
      Num.Is (getDistance (pt lat lon) (moveDistance (pt lat lon) (fin d) (fin b))) d ∧
      ∃ t, Num.Is (getBearing (pt lat lon) (moveDistance (pt lat lon) (fin d) (fin b))) t ∧ ∀ y, Loop (b - t) y ↔ y = 0 := by
  have h1 : -90 < lat := by linarith [h.lat.1]
  have h2 : lat < 90 := by linarith [h.lat.2]
  have hd0 : 0 < d := by linarith [h.distance.1]
  have hpi := Real.two_le_pi
  have hd : d < earth * Real.pi := by unfold earth; nlinarith [h.distance.2]
  have he := earth_pos
  obtain ⟨lat2, lon2, hi, -, -, hw⟩ := C39_great_circle lat lon d b h1 h2
  have hα0 : 0 < d / earth := by positivity
  have hα : d / earth < Real.pi := by rw [div_lt_iff₀ he]; linarith
  obtain ⟨t, ht, h180, k, hk⟩ := bearing_walk (pt_is lat lon) hi hw hα0 hα
  have hD := C39_distance lat lon d b h1 h2 hd0.le hd.le
  refine ⟨_, rfl, ?_, hD, t, ht, loop_zero h.bearing h180 k hk⟩
  have hb : Num.Is (Num.deg2rad (getBearing (pt lat lon) (moveDistance (pt lat lon) (fin d) (fin b)))) (rad t) := rad_is ht
  obtain ⟨lat3, lon3, hi3, hw3⟩ := back (pt_is lat lon) (Or.inl ⟨rfl, rfl⟩) he.ne' hd0 (cos_pos h1 h2) k hk (hD.mul hb.sin) (hD.mul hb.cos)
  refine (getDistance_is hi hi3 (Or.inl rfl)).congr ?_
  rw [hw, hw3, arc_walk lat lon (rad b) (le_refl _) (by linarith), sub_self, mul_zero]

/-- **C180** tests/test_gps.py:103-119 `test_gpsSpaceBackForth` with the height 1: as distances are measured on the ground but walked at the height, distance and way back
are wrong by less than a millimetre. -/
theorem C180_gps_height (lat lon d b : ℝ) (h : Ok lat lon d b) :
    ∃ s, spaceFromGPS (.one (moveDistance (ptH lat lon 1) (fin d) (fin b))) (ptH lat lon 1) = .ok [s] ∧
      (∃ r, Num.Is (getDistance (moveDistance (ptH lat lon 1) (fin d) (fin b)) (gpsFromSpace s (ptH lat lon 1))) r ∧ r = d * earth / (earth + 1) ^ 2 ∧
        0 < r ∧ r ≤ 1 / 6000) ∧
      (∃ r, Num.Is (getDistance (ptH lat lon 1) (moveDistance (ptH lat lon 1) (fin d) (fin b))) r ∧ r = d * earth / (earth + 1) ∧ 0 < d - r ∧
        d - r ≤ 1 / 6000) ∧
      ∃ t, Num.Is (getBearing (ptH lat lon 1) (moveDistance (ptH lat lon 1) (fin d) (fin b))) t ∧ ∀ y, Loop (b - t) y ↔ y = 0 := by
  have h1 : -90 < lat := by linarith [h.lat.1]
  have h2 : lat < 90 := by linarith [h.lat.2]
  have hd0 : 0 < d := by linarith [h.distance.1]
  have hd1 := h.distance.2
  have hpi := Real.two_le_pi
  have he := earth_pos
  have hR : HasRadius (ptH lat lon 1) (earth + 1) := Or.inr ⟨fin 1, 1, rfl, is_fin 1, rfl⟩
  have hR0 : 0 < earth + 1 := by linarith
  obtain ⟨lat2, lon2, hi, -, -, hw⟩ := moveDistance_is (ptH_is lat lon 1) hR hR0.ne' (is_fin d) (is_fin b) (cos_pos h1 h2)
  have hα0 : 0 < d / (earth + 1) := by positivity
  have hα : d / (earth + 1) < Real.pi := by rw [div_lt_iff₀ hR0]; unfold earth; nlinarith
  obtain ⟨t, ht, h180, k, hk⟩ := bearing_walk (ptH_is lat lon 1) hi hw hα0 hα
  have hD : Num.Is (getDistance (ptH lat lon 1) (moveDistance (ptH lat lon 1) (fin d) (fin b))) (d * earth / (earth + 1)) := by
    refine (getDistance_h (ptH_is lat lon 1) hi rfl rfl (is_fin 1) (is_fin 1)).congr ?_
    have e : arc (place lat lon) (place lat2 lon2) = d / (earth + 1) := by
      refine (IsAngle.eq_arc ⟨hα0.le, hα.le, ?_⟩).symm
      rw [hw, ← (walk_dots lat lon (d / (earth + 1)) (rad b)).1]; simp only [V3.dot]; ring
    rw [e, sub_self, zero_pow two_ne_zero, add_zero, Real.sqrt_sq (by positivity)]
    ring
  have hDpos : 0 < d * earth / (earth + 1) := by positivity
  have hq : (moveDistance (ptH lat lon 1) (fin d) (fin b)).h = some (fin 1) := rfl
  have hp : (ptH lat lon 1).Is lat lon := ptH_is lat lon 1
  generalize moveDistance (ptH lat lon 1) (fin d) (fin b) = q at *
  generalize ptH lat lon 1 = p at *
  have hb : Num.Is (Num.deg2rad (getBearing p q)) (rad t) := rad_is ht
  obtain ⟨sx, sy, sz⟩ := spaceRow_eq p q (fin 1)
  have hsp := spaceFromGPS_one p q _ hq
  generalize spaceRow p q (fin 1) = s at *
  obtain ⟨lat3, lon3, hi3, hw3⟩ := back (x := s.x) (y := s.y) hp hR hR0.ne' hDpos (cos_pos h1 h2) k hk (by rw [sx]; exact hD.mul hb.sin)
    (by rw [sy]; exact hD.mul hb.cos)
  obtain ⟨hi3, hz⟩ := gpsFromSpace_is hi3
  rw [sz] at hz
  refine ⟨s, hsp, ⟨_, ?_, rfl, by positivity, ?_⟩, ⟨_, hD, rfl, ?_, ?_⟩, t, ht, loop_zero h.bearing h180 k hk⟩
  · refine (getDistance_h hi hi3 hq hz (is_fin 1) (is_fin 1)).congr ?_
    have e : d / (earth + 1) - d * earth / (earth + 1) / (earth + 1) = d / (earth + 1) ^ 2 := by field_simp; ring
    have e0 : 0 ≤ d / (earth + 1) ^ 2 := by positivity
    rw [hw, hw3, arc_walk lat lon (rad b) (by linarith) (by
      have : 0 < d * earth / (earth + 1) / (earth + 1) := by positivity
      linarith), e, sub_self, zero_pow two_ne_zero, add_zero, Real.sqrt_sq (by positivity)]
    ring
  · rw [div_le_iff₀ (by positivity)]; unfold earth; nlinarith
  · rw [sub_pos, div_lt_iff₀ hR0]; nlinarith
  · rw [show d - d * earth / (earth + 1) = d / (earth + 1) by field_simp; ring, div_le_iff₀ hR0]; unfold earth; linarith

/-- Inputs that can be drawn. -/
example : Ok (-89) 89 1000 180 := by constructor <;> norm_num
