import Verif.Spec.Gps
import Verif.Proofs.Camera
import Verif.Proofs.Ray
import Mathlib.Geometry.Euclidean.Angle.Unoriented.TriangleInequality
import Mathlib.Analysis.InnerProductSpace.PiL2

/-! Helper lemmas for the sphere. -/

open Classical Num

namespace Geo

theorem rad_rad2deg (x : ℝ) : rad (x * (180 / Real.pi)) = x := by
  unfold rad; have := Real.pi_ne_zero; field_simp

theorem rad2deg_rad (d : ℝ) : rad d * (180 / Real.pi) = d := by
  unfold rad; have := Real.pi_ne_zero; field_simp

theorem place_normSq (lat lon : ℝ) : (place lat lon).normSq = 1 := by
  have h1 := Real.sin_sq_add_cos_sq (rad lat)
  have h2 := Real.sin_sq_add_cos_sq (rad lon)
  simp only [place, V3.normSq]
  linear_combination Real.cos (rad lat) ^ 2 * h2 + h1

theorem dot_le_one {u v : V3 ℝ} (hu : u.normSq = 1) (hv : v.normSq = 1) : u.dot v ≤ 1 := by
  have h := V3.normSq_nonneg (u - v)
  have e : (u - v).normSq = u.normSq + v.normSq - 2 * u.dot v := by
    simp only [V3.normSq, V3.dot, V3.sub_x, V3.sub_y, V3.sub_z]; ring
  linarith

theorem neg_one_le_dot {u v : V3 ℝ} (hu : u.normSq = 1) (hv : v.normSq = 1) : -1 ≤ u.dot v := by
  have h := V3.normSq_nonneg (u + v)
  have e : (u + v).normSq = u.normSq + v.normSq + 2 * u.dot v := by
    simp only [V3.normSq, V3.dot, V3.add_x, V3.add_y, V3.add_z]; ring
  linarith

theorem dot_eq_one {u v : V3 ℝ} (hu : u.normSq = 1) (hv : v.normSq = 1) : u.dot v = 1 ↔ u = v := by
  have e : (u - v).normSq = u.normSq + v.normSq - 2 * u.dot v := by
    simp only [V3.normSq, V3.dot, V3.sub_x, V3.sub_y, V3.sub_z]; ring
  constructor
  · intro h
    have h0 : (u - v).normSq = 0 := by rw [e, hu, hv, h]; norm_num
    have := V3.normSq_eq_zero.1 h0
    ext
    · have := congrArg V3.x this; simp at this; linarith
    · have := congrArg V3.y this; simp at this; linarith
    · have := congrArg V3.z this; simp at this; linarith
  · rintro rfl; rw [V3.dot_self, hu]

/-- The central angle of two places. -/
noncomputable def arc (u v : V3 ℝ) : ℝ := Real.arccos (u.dot v)

theorem arc_isAngle {u v : V3 ℝ} (hu : u.normSq = 1) (hv : v.normSq = 1) : IsAngle u v (arc u v) :=
  ⟨Real.arccos_nonneg _, Real.arccos_le_pi _, Real.cos_arccos (neg_one_le_dot hu hv) (dot_le_one hu hv)⟩

theorem IsAngle.eq_arc {u v : V3 ℝ} {t : ℝ} (h : IsAngle u v t) : t = arc u v := by
  unfold arc; rw [← h.2.2, Real.arccos_cos h.1 h.2.1]

theorem hav (l1 l2 o1 o2 : ℝ) :
    Real.sin ((rad l2 - rad l1) / 2) ^ 2 + Real.cos (rad l1) * Real.cos (rad l2) * Real.sin ((rad o2 - rad o1) / 2) ^ 2 =
      (1 - (place l1 o1).dot (place l2 o2)) / 2 := by
  have h : ∀ x : ℝ, Real.sin (x / 2) ^ 2 = (1 - Real.cos x) / 2 := by
    intro x
    have := Real.cos_sq (x / 2)
    have h2 := Real.sin_sq_add_cos_sq (x / 2)
    rw [mul_div_cancel₀ x (two_ne_zero)] at this
    linarith
  rw [h, h, Real.cos_sub, Real.cos_sub]
  simp only [place, V3.dot]
  ring

theorem two_arcsin {c : ℝ} (h1 : -1 ≤ c) (h2 : c ≤ 1) : 2 * Real.arcsin (Real.sqrt ((1 - c) / 2)) = Real.arccos c := by
  set t := Real.arccos c with ht
  have hc : Real.cos t = c := Real.cos_arccos h1 h2
  have t0 : 0 ≤ t := Real.arccos_nonneg c
  have t1 : t ≤ Real.pi := Real.arccos_le_pi c
  have e : (1 - c) / 2 = Real.sin (t / 2) ^ 2 := by
    have := Real.cos_sq (t / 2)
    rw [mul_div_cancel₀ t (two_ne_zero)] at this
    have h3 := Real.sin_sq_add_cos_sq (t / 2)
    rw [← hc]; linarith
  have hs : 0 ≤ Real.sin (t / 2) := Real.sin_nonneg_of_nonneg_of_le_pi (by linarith) (by linarith)
  rw [e, Real.sqrt_sq hs, Real.arcsin_sin (by linarith [Real.pi_pos]) (by linarith)]
  ring

end Geo

namespace Gps

open Geo

theorem rad_is {x : Num} {d : ℝ} (h : Num.Is x d) : Num.Is (Num.deg2rad x) (rad d) := h.deg2rad

/-- The distance without heights (one of them missing). -/
theorem getDistance_is {p q : Pt} {l1 o1 l2 o2 : ℝ} (hp : p.Is l1 o1) (hq : q.Is l2 o2) (hn : p.h = none ∨ q.h = none) :
    Num.Is (getDistance p q) (earth * arc (place l1 o1) (place l2 o2)) := by
  have a1 := rad_is hp.1
  have a2 := rad_is hp.2
  have b1 := rad_is hq.1
  have b2 := rad_is hq.2
  have hd := dot_le_one (place_normSq l1 o1) (place_normSq l2 o2)
  have hd' := neg_one_le_dot (place_normSq l1 o1) (place_normSq l2 o2)
  have h := ((((b1.sub a1).div (is_fin 2) two_ne_zero).sin.npow 2).add
    ((a1.cos.mul b1.cos).mul (((b2.sub a2).div (is_fin 2) two_ne_zero).sin.npow 2)))
  rw [hav] at h
  have hs := h.sqrt (by linarith)
  have h1 : Real.sqrt ((1 - (place l1 o1).dot (place l2 o2)) / 2) ≤ 1 := by
    rw [Real.sqrt_le_one]; linarith
  have h2 := (is_fin 6371000).mul ((is_fin 2).mul (hs.arcsin (by linarith [Real.sqrt_nonneg ((1 - (place l1 o1).dot (place l2 o2)) / 2)]) h1))
  rw [two_arcsin hd' hd] at h2
  unfold getDistance splitGPS
  rcases hn with hn | hn <;> simp only [hn]
  · exact h2
  · cases p.h <;> exact h2

/-- The distance with both heights. -/
theorem getDistance_h {p q : Pt} {l1 o1 l2 o2 : ℝ} (hp : p.Is l1 o1) (hq : q.Is l2 o2) {a b : Num} {h k : ℝ}
    (hh : p.h = some a) (hk : q.h = some b) (ha : Num.Is a h) (hb : Num.Is b k) :
    Num.Is (getDistance p q) (Real.sqrt ((earth * arc (place l1 o1) (place l2 o2)) ^ 2 + (h - k) ^ 2)) := by
  have h0 := getDistance_is (p := ⟨p.lat, p.lon, none⟩) (q := q) hp hq (Or.inl rfl)
  have h1 := ((h0.npow 2).add ((ha.sub hb).abs.npow 2)).sqrt (by positivity)
  rw [sq_abs] at h1
  unfold getDistance splitGPS at h1 ⊢
  simp only [hh, hk] at h1 ⊢
  exact h1

/-! ### bearing and walking -/

theorem frame (lat lon lat2 lon2 : ℝ) :
    (place lat2 lon2).dot (north lat lon) = Real.cos (rad lat) * Real.sin (rad lat2) -
      Real.sin (rad lat) * Real.cos (rad lat2) * Real.cos (rad lon2 - rad lon) ∧
    (place lat2 lon2).dot (east lat lon) = Real.cos (rad lat2) * Real.sin (rad lon2 - rad lon) := by
  rw [Real.cos_sub, Real.sin_sub]
  simp only [place, north, east, V3.dot]
  constructor <;> ring

/-- `getBearing` is `arctan2` of the east and north components of the target direction. -/
theorem getBearing_eq {p q : Pt} {l1 o1 l2 o2 : ℝ} (hp : p.Is l1 o1) (hq : q.Is l2 o2) :
    ∃ X Y : Num, getBearing p q = Num.rad2deg (Num.arctan2 X Y) ∧
      Num.Is X ((place l2 o2).dot (east l1 o1)) ∧ Num.Is Y ((place l2 o2).dot (north l1 o1)) := by
  have a1 := rad_is hp.1
  have a2 := rad_is hp.2
  have b1 := rad_is hq.1
  have b2 := rad_is hq.2
  refine ⟨_, _, rfl, (b1.cos.mul (b2.sub a2).sin).congr (frame l1 o1 l2 o2).2.symm,
    ((a1.cos.mul b1.sin).sub ((a1.sin.mul b1.cos).mul (b2.sub a2).cos)).congr (frame l1 o1 l2 o2).1.symm⟩

theorem onb (lat lon : ℝ) :
    (place lat lon).normSq = 1 ∧ (north lat lon).normSq = 1 ∧ (east lat lon).normSq = 1 ∧
    (place lat lon).dot (north lat lon) = 0 ∧ (place lat lon).dot (east lat lon) = 0 ∧
    (north lat lon).dot (east lat lon) = 0 := by
  have h1 := Real.sin_sq_add_cos_sq (rad lat)
  have h2 := Real.sin_sq_add_cos_sq (rad lon)
  refine ⟨place_normSq _ _, ?_, ?_, ?_, ?_, ?_⟩ <;>
    simp only [place, north, east, V3.dot, V3.normSq] <;> grobner

/-- Every direction is the combination of its components along the frame at a place. -/
theorem expand (lat lon : ℝ) (v : V3 ℝ) :
    v = (place lat lon).mulS (v.dot (place lat lon)) + ((north lat lon).mulS (v.dot (north lat lon)) +
      (east lat lon).mulS (v.dot (east lat lon))) := by
  have h1 := Real.sin_sq_add_cos_sq (rad lat)
  have h2 := Real.sin_sq_add_cos_sq (rad lon)
  ext <;> simp [place, north, east, V3.dot] <;> grobner

theorem walk_dots (lat lon t b : ℝ) :
    (walk lat lon t b).dot (place lat lon) = Real.cos t ∧
    (walk lat lon t b).dot (north lat lon) = Real.sin t * Real.cos b ∧
    (walk lat lon t b).dot (east lat lon) = Real.sin t * Real.sin b := by
  have h1 := Real.sin_sq_add_cos_sq (rad lat)
  have h2 := Real.sin_sq_add_cos_sq (rad lon)
  refine ⟨?_, ?_, ?_⟩ <;>
    simp only [walk, place, north, east, V3.dot, V3.mulS_x, V3.mulS_y, V3.mulS_z, V3.add_x, V3.add_y, V3.add_z] <;> grobner

theorem walk_normSq (lat lon t b : ℝ) : (walk lat lon t b).normSq = 1 := by
  have h1 := Real.sin_sq_add_cos_sq (rad lat)
  have h2 := Real.sin_sq_add_cos_sq (rad lon)
  have h3 := Real.sin_sq_add_cos_sq t
  have h4 := Real.sin_sq_add_cos_sq b
  simp only [walk, place, north, east, V3.normSq, V3.mulS_x, V3.mulS_y, V3.mulS_z, V3.add_x, V3.add_y, V3.add_z]
  grobner

/-- The coordinates of the end point of a walk, turned back by the longitude of the start. -/
theorem walk_coords (lat lon t b : ℝ) :
    let A := Real.cos t * Real.cos (rad lat) - Real.sin t * Real.cos b * Real.sin (rad lat)
    let B := Real.sin t * Real.sin b
    (walk lat lon t b).x = A * Real.cos (rad lon) - B * Real.sin (rad lon) ∧
    (walk lat lon t b).y = A * Real.sin (rad lon) + B * Real.cos (rad lon) ∧
    (walk lat lon t b).z = Real.sin (rad lat) * Real.cos t + Real.cos (rad lat) * Real.sin t * Real.cos b := by
  simp only [walk, place, north, east, V3.mulS_x, V3.mulS_y, V3.mulS_z, V3.add_x, V3.add_y, V3.add_z]
  refine ⟨by ring, by ring, by ring⟩

/-- The radius `moveDistance` works with. -/
def HasRadius (p : Pt) (R : ℝ) : Prop :=
  (p.h = none ∧ R = earth) ∨ ∃ a h, p.h = some a ∧ Num.Is a h ∧ R = earth + h

/-- `arctan2` of a positive multiple of a vector is the angle of the vector. -/
theorem turn {X Y : Num} {c A B : ℝ} (hc : 0 < c) (hX : Num.Is X (c * B)) (hY : Num.Is Y (c * A)) :
    ∃ θ, Num.Is (Num.arctan2 X Y) θ ∧ Real.sqrt (A ^ 2 + B ^ 2) * Real.cos θ = A ∧
      Real.sqrt (A ^ 2 + B ^ 2) * Real.sin θ = B := by
  by_cases h0 : A ^ 2 + B ^ 2 = 0
  · have hA0 : A = 0 := by nlinarith [sq_nonneg A, sq_nonneg B]
    have hB0 : B = 0 := by nlinarith [sq_nonneg A, sq_nonneg B]
    obtain ⟨θ, hθ⟩ := hX.arctan2_finite hY
    exact ⟨θ, hθ, by rw [h0, hA0]; simp, by rw [h0, hB0]; simp⟩
  · have hpos : 0 < A ^ 2 + B ^ 2 := lt_of_le_of_ne (by positivity) (Ne.symm h0)
    have e : (c * A) ^ 2 + (c * B) ^ 2 = c ^ 2 * (A ^ 2 + B ^ 2) := by ring
    obtain ⟨θ, hθ, -, hcos, hsn⟩ := Projection.arctan2_spec hX hY (by rw [e]; positivity)
    rw [e, Real.sqrt_mul (by positivity), Real.sqrt_sq hc.le, mul_assoc] at hcos hsn
    exact ⟨θ, hθ, mul_left_cancel₀ hc.ne' hcos, mul_left_cancel₀ hc.ne' hsn⟩

theorem moveDistance_is {p : Pt} {lat lon R d b : ℝ} {dn bn : Num} (hp : p.Is lat lon) (hR : HasRadius p R)
    (hR0 : R ≠ 0) (hd : Num.Is dn d) (hb : Num.Is bn b) (hlat : 0 < Real.cos (rad lat)) :
    ∃ lat2 lon2, (moveDistance p dn bn).Is lat2 lon2 ∧ -90 ≤ lat2 ∧ lat2 ≤ 90 ∧
      place lat2 lon2 = walk lat lon (d / R) (rad b) := by
  have a1 := rad_is hp.1
  have a2 := rad_is hp.2
  have hb' := rad_is hb
  have hRn : ∃ Rn, Num.Is Rn R ∧ moveDistance p dn bn =
      (let lat2 := Num.arcsin (Num.sin (Num.deg2rad p.lat) * Num.cos (dn / Rn) +
        Num.cos (Num.deg2rad p.lat) * Num.sin (dn / Rn) * Num.cos (Num.deg2rad bn))
      let lon2 := Num.deg2rad p.lon + Num.arctan2 (Num.sin (Num.deg2rad bn) * Num.sin (dn / Rn) * Num.cos (Num.deg2rad p.lat))
        (Num.cos (dn / Rn) - Num.sin (Num.deg2rad p.lat) * Num.sin lat2)
      ⟨Num.rad2deg lat2, Num.rad2deg lon2, p.h⟩) := by
    rcases hR with ⟨h1, h2⟩ | ⟨a, h, h1, h2, h3⟩
    · refine ⟨fin 6371000, by rw [h2]; rfl, ?_⟩
      unfold moveDistance splitGPS; simp only [h1]
    · refine ⟨fin 6371000 + a, by rw [h3]; exact (is_fin _).add h2, ?_⟩
      unfold moveDistance splitGPS; simp only [h1]
  obtain ⟨Rn, hRi, e⟩ := hRn
  rw [e]
  have ht := hd.div hRi hR0
  set t := d / R with htd
  obtain ⟨wx, wy, wz⟩ := walk_coords lat lon t (rad b)
  have hw := walk_normSq lat lon t (rad b)
  set W := walk lat lon t (rad b) with hWd
  have hz2 : W.z ^ 2 ≤ 1 := by
    simp only [V3.normSq] at hw
    nlinarith [sq_nonneg W.x, sq_nonneg W.y]
  have hz : |W.z| ≤ 1 := by rw [← sq_le_one_iff_abs_le_one]; exact hz2
  have hs := (((a1.sin.mul ht.cos).add ((a1.cos.mul ht.sin).mul hb'.cos)).congr wz.symm).arcsin
    (abs_le.1 hz).1 (abs_le.1 hz).2
  have hsin : Real.sin (Real.arcsin W.z) = W.z := Real.sin_arcsin (abs_le.1 hz).1 (abs_le.1 hz).2
  have hX := (hb'.sin.mul ht.sin).mul a1.cos
  have hY := ht.cos.sub (a1.sin.mul hs.sin)
  rw [hsin] at hY
  have h1 := Real.sin_sq_add_cos_sq (rad lat)
  set A := Real.cos t * Real.cos (rad lat) - Real.sin t * Real.cos (rad b) * Real.sin (rad lat) with hA
  set B := Real.sin t * Real.sin (rad b) with hB
  have eX : Real.sin (rad b) * Real.sin t * Real.cos (rad lat) = Real.cos (rad lat) * B := by rw [hB]; ring
  have eY : Real.cos t - Real.sin (rad lat) * W.z = Real.cos (rad lat) * A := by
    rw [wz, hA]; linear_combination -Real.cos t * h1
  rw [eX] at hX
  rw [eY] at hY
  have hc2 : Real.cos (Real.arcsin W.z) = Real.sqrt (1 - W.z ^ 2) := Real.cos_arcsin _
  have h2 := Real.sin_sq_add_cos_sq (rad lon)
  have hAB : A ^ 2 + B ^ 2 = 1 - W.z ^ 2 := by
    have : W.x ^ 2 + W.y ^ 2 = A ^ 2 + B ^ 2 := by
      rw [wx, wy]; linear_combination (A ^ 2 + B ^ 2) * h2
    simp only [V3.normSq] at hw
    linarith
  have hlat2 : ∀ x, Num.Is x (Real.arcsin W.z) → Num.Is (Num.rad2deg x) (Real.arcsin W.z * (180 / Real.pi)) :=
    fun x hx => hx.rad2deg
  have hpi := Real.pi_pos
  have b1 : -90 ≤ Real.arcsin W.z * (180 / Real.pi) := by
    have := Real.neg_pi_div_two_le_arcsin W.z
    calc (-90 : ℝ) = -(Real.pi / 2) * (180 / Real.pi) := by field_simp; norm_num
      _ ≤ _ := mul_le_mul_of_nonneg_right this (by positivity)
  have b2 : Real.arcsin W.z * (180 / Real.pi) ≤ 90 := by
    have := Real.arcsin_le_pi_div_two W.z
    calc _ ≤ (Real.pi / 2) * (180 / Real.pi) := mul_le_mul_of_nonneg_right this (by positivity)
      _ = 90 := by field_simp; norm_num
  obtain ⟨θ, hθ, hcos, hsn⟩ := turn hlat hX hY
  rw [hAB, ← hc2] at hcos hsn
  refine ⟨_, (rad lon + θ) * (180 / Real.pi), ⟨hlat2 _ hs, (a2.add hθ).rad2deg⟩, b1, b2, ?_⟩
  ext
  · simp only [place, rad_rad2deg, Real.cos_add, wx]
    rw [← hcos, ← hsn]; ring
  · simp only [place, rad_rad2deg, Real.sin_add, wy]
    rw [← hcos, ← hsn]; ring
  · simp only [place, rad_rad2deg, hsin]

theorem cos_pos {lat : ℝ} (h1 : -90 < lat) (h2 : lat < 90) : 0 < Real.cos (rad lat) := by
  have hpi := Real.pi_pos
  apply Real.cos_pos_of_mem_Ioo
  unfold rad
  constructor <;> nlinarith

/-- The two coordinates orthogonal to a place have the length of the sine of the central angle. -/
theorem dots_sq (lat lon : ℝ) {v : V3 ℝ} (hv : v.normSq = 1) :
    (v.dot (north lat lon)) ^ 2 + (v.dot (east lat lon)) ^ 2 = 1 - ((place lat lon).dot v) ^ 2 := by
  have e := expand lat lon v
  obtain ⟨h1, h2, h3, h4, h5, h6⟩ := onb lat lon
  have hz : v.normSq = (v.dot (place lat lon)) ^ 2 + (v.dot (north lat lon)) ^ 2 + (v.dot (east lat lon)) ^ 2 := by
    generalize v.dot (place lat lon) = a at e ⊢
    generalize v.dot (north lat lon) = b at e ⊢
    generalize v.dot (east lat lon) = c at e ⊢
    rw [e]
    simp only [V3.normSq, V3.dot, V3.mulS_x, V3.mulS_y, V3.mulS_z, V3.add_x, V3.add_y, V3.add_z] at *
    linear_combination a ^ 2 * h1 + b ^ 2 * h2 + c ^ 2 * h3 + 2 * a * b * h4 + 2 * a * c * h5 + 2 * b * c * h6
  have hc : v.dot (place lat lon) = (place lat lon).dot v := by simp only [V3.dot]; ring
  rw [hv, hc] at hz
  linarith

theorem sin_arc (lat lon : ℝ) {v : V3 ℝ} (hv : v.normSq = 1) :
    Real.sqrt ((v.dot (north lat lon)) ^ 2 + (v.dot (east lat lon)) ^ 2) = Real.sin (arc (place lat lon) v) := by
  rw [dots_sq lat lon hv]
  unfold arc
  rw [Real.sin_arccos]

theorem norm2_is {x y : Num} {a b : ℝ} (hx : Num.Is x a) (hy : Num.Is y b) :
    Num.Is (norm2 x y) (Real.sqrt (a ^ 2 + b ^ 2)) := by
  have h := ((hx.mul hx).add (hy.mul hy)).sqrt (add_nonneg (mul_self_nonneg _) (mul_self_nonneg _))
  exact h.congr (by rw [pow_two, pow_two])

/-- Going from a target place to the local coordinates and back. -/
theorem gpsFromSpace_spaceRow {p q : Pt} {l1 o1 l2 o2 : ℝ} (hp : p.Is l1 o1) (hq : q.Is l2 o2) (hn : p.h = none)
    (hl : 0 < Real.cos (rad l1)) (h : Num) :
    ∃ lat lon, (gpsFromSpace (spaceRow p q h) p).Is lat lon ∧ -90 ≤ lat ∧ lat ≤ 90 ∧
      place lat lon = place l2 o2 := by
  have hD := getDistance_is hp hq (Or.inl hn)
  obtain ⟨X, Y, eb, hX, hY⟩ := getBearing_eq hp hq
  have hu := place_normSq l1 o1
  have hv := place_normSq l2 o2
  obtain ⟨a0, a1, a2⟩ := arc_isAngle hu hv
  obtain ⟨β, hβ, hc, hs⟩ := turn (c := 1) one_pos (hX.congr (one_mul _).symm) (hY.congr (one_mul _).symm)
  rw [sin_arc l1 o1 hv] at hc hs
  have hdb : Num.Is (Num.deg2rad (getBearing p q)) β := by
    rw [eb]
    exact (hβ.rad2deg.deg2rad).congr (by have := Real.pi_ne_zero; field_simp)
  set α := arc (place l1 o1) (place l2 o2) with hα
  have hsx := hD.mul hdb.sin
  have hsy := hD.mul hdb.cos
  have he : 0 < earth := by unfold earth; norm_num
  have hsq : Real.sqrt ((earth * α * Real.cos β) ^ 2 + (earth * α * Real.sin β) ^ 2) = earth * α := by
    have := Real.sin_sq_add_cos_sq β
    rw [show (earth * α * Real.cos β) ^ 2 + (earth * α * Real.sin β) ^ 2 = (earth * α) ^ 2 by
      linear_combination (earth * α) ^ 2 * this]
    exact Real.sqrt_sq (by positivity)
  obtain ⟨γ, hγ, hc', hs'⟩ := turn (c := 1) one_pos (hsx.congr (one_mul _).symm) (hsy.congr (one_mul _).symm)
  rw [hsq] at hc' hs'
  have hdist := norm2_is hsx hsy
  rw [add_comm, hsq] at hdist
  obtain ⟨lat, lon, hi, b1, b2, hw⟩ := moveDistance_is (R := earth) hp (Or.inl ⟨hn, rfl⟩) he.ne' hdist hγ.rad2deg hl
  refine ⟨lat, lon, hi, b1, b2, ?_⟩
  rw [hw, rad_rad2deg, mul_div_cancel_left₀ _ he.ne']
  have k1 : Real.sin α * Real.cos γ = (place l2 o2).dot (north l1 o1) := by
    rw [← hc]
    by_cases h0 : α = 0
    · rw [h0]; simp
    · have := mul_left_cancel₀ (mul_ne_zero he.ne' h0) hc'
      rw [this]
  have k2 : Real.sin α * Real.sin γ = (place l2 o2).dot (east l1 o1) := by
    rw [← hs]
    by_cases h0 : α = 0
    · rw [h0]; simp
    · have := mul_left_cancel₀ (mul_ne_zero he.ne' h0) hs'
      rw [this]
  have k3 : Real.cos α = (place l2 o2).dot (place l1 o1) := by rw [a2]; simp only [V3.dot]; ring
  rw [expand l1 o1 (place l2 o2), ← k1, ← k2, ← k3]
  unfold walk
  ext <;> simp <;> ring

/-- Going from local coordinates to the target place and back, with the radius `R` on the way there. -/
theorem spaceRow_gpsFromSpace {p p' : Pt} {lat lon R x y z : ℝ} {s : V3 Num} (hp : p.Is lat lon) (hp' : p'.Is lat lon)
    (hR : HasRadius p R) (hR0 : 0 < R) (hn : p'.h = none) (hs : V3.Is s ⟨x, y, z⟩)
    (hl : 0 < Real.cos (rad lat)) (hlt : Real.sqrt (x ^ 2 + y ^ 2) < R * Real.pi) :
    V3.Is (spaceRow p' (gpsFromSpace s p) s.z) ⟨x * (earth / R), y * (earth / R), z⟩ := by
  obtain ⟨θ, hθ, hc, hsn⟩ := turn (c := 1) one_pos (hs.1.congr (one_mul _).symm) (hs.2.1.congr (one_mul _).symm)
  simp only at hc hsn
  have hdist := norm2_is hs.1 hs.2.1
  rw [add_comm] at hdist
  have hlt' : Real.sqrt (y ^ 2 + x ^ 2) < R * Real.pi := by rw [add_comm]; exact hlt
  have hr0 := Real.sqrt_nonneg (y ^ 2 + x ^ 2)
  set ρ := Real.sqrt (y ^ 2 + x ^ 2) with hρ
  obtain ⟨lat2, lon2, hi, -, -, hw⟩ := moveDistance_is hp hR hR0.ne' hdist hθ.rad2deg hl
  rw [rad_rad2deg] at hw
  have hq : (gpsFromSpace s p).Is lat2 lon2 := hi
  have hD := getDistance_is hp' hq (Or.inl hn)
  obtain ⟨X, Y, eb, hX, hY⟩ := getBearing_eq hp' hq
  rw [hw] at hD hX hY
  obtain ⟨d1, d2, d3⟩ := walk_dots lat lon (ρ / R) θ
  rw [d2] at hY
  rw [d3] at hX
  have harc : arc (place lat lon) (walk lat lon (ρ / R) θ) = ρ / R := by
    symm
    apply IsAngle.eq_arc
    refine ⟨by positivity, ?_, ?_⟩
    · rw [div_le_iff₀ hR0]; linarith
    · rw [← d1]; simp only [V3.dot]; ring
  rw [harc] at hD
  have key : ∃ γ, Num.Is (Num.deg2rad (getBearing p' (gpsFromSpace s p))) γ ∧ ρ * Real.cos γ = y ∧ ρ * Real.sin γ = x := by
    rw [eb]
    by_cases h0 : ρ = 0
    · obtain ⟨γ, hγ⟩ := hX.arctan2_finite hY
      refine ⟨_, hγ.rad2deg.deg2rad, ?_, ?_⟩
      · rw [← hc, h0]; simp
      · rw [← hsn, h0]; simp
    · have hρ0 : 0 < ρ := lt_of_le_of_ne hr0 (Ne.symm h0)
      have hsin : 0 < Real.sin (ρ / R) := Real.sin_pos_of_pos_of_lt_pi (by positivity) (by
        rw [div_lt_iff₀ hR0]; linarith)
      obtain ⟨γ, hγ, g1, g2⟩ := turn hsin hX hY
      have := Real.sin_sq_add_cos_sq θ
      rw [show Real.cos θ ^ 2 + Real.sin θ ^ 2 = 1 by linarith, Real.sqrt_one, one_mul] at g1 g2
      refine ⟨γ, (hγ.rad2deg.deg2rad).congr (by have := Real.pi_ne_zero; field_simp), ?_, ?_⟩
      · rw [g1, hc]
      · rw [g2, hsn]
  obtain ⟨γ, hγ, g1, g2⟩ := key
  refine ⟨(hD.mul hγ.sin).congr ?_, (hD.mul hγ.cos).congr ?_, hs.2.2⟩
  · show _ = x * (earth / R); rw [← g2]; ring
  · show _ = y * (earth / R); rw [← g1]; ring

end Gps

namespace Geo

/-- A vector as element of Mathlib's euclidean space. -/
noncomputable def toE (v : V3 ℝ) : EuclideanSpace ℝ (Fin 3) := !₂[v.x, v.y, v.z]

theorem inner_toE (u v : V3 ℝ) : inner ℝ (toE u) (toE v) = u.dot v := by
  simp [toE, PiLp.inner_apply, Fin.sum_univ_three, V3.dot]
  ring

theorem norm_toE {u : V3 ℝ} (hu : u.normSq = 1) : ‖toE u‖ = 1 := by
  have h := real_inner_self_eq_norm_sq (toE u)
  rw [inner_toE, V3.dot_self, hu] at h
  have := norm_nonneg (toE u)
  nlinarith

theorem arc_eq_angle {u v : V3 ℝ} (hu : u.normSq = 1) (hv : v.normSq = 1) :
    arc u v = InnerProductGeometry.angle (toE u) (toE v) := by
  unfold arc InnerProductGeometry.angle
  rw [inner_toE, norm_toE hu, norm_toE hv]
  simp

theorem arc_triangle {u v w : V3 ℝ} (hu : u.normSq = 1) (hv : v.normSq = 1) (hw : w.normSq = 1) :
    arc u w ≤ arc u v + arc v w := by
  rw [arc_eq_angle hu hw, arc_eq_angle hu hv, arc_eq_angle hv hw]
  exact InnerProductGeometry.angle_le_angle_add_angle _ _ _

theorem minkowski {a b c h k : ℝ} (ha : 0 ≤ a) (hb : 0 ≤ b) (hc : 0 ≤ c) (hab : c ≤ a + b) :
    Real.sqrt (c ^ 2 + (h + k) ^ 2) ≤ Real.sqrt (a ^ 2 + h ^ 2) + Real.sqrt (b ^ 2 + k ^ 2) := by
  have s1 := Real.sqrt_nonneg (a ^ 2 + h ^ 2)
  have s2 := Real.sqrt_nonneg (b ^ 2 + k ^ 2)
  have q1 := Real.sq_sqrt (show 0 ≤ a ^ 2 + h ^ 2 by positivity)
  have q2 := Real.sq_sqrt (show 0 ≤ b ^ 2 + k ^ 2 by positivity)
  rw [Real.sqrt_le_left (by linarith)]
  set S := Real.sqrt (a ^ 2 + h ^ 2)
  set T := Real.sqrt (b ^ 2 + k ^ 2)
  have hcs : a * b + h * k ≤ S * T := by
    apply le_of_sq_le_sq _ (mul_nonneg s1 s2)
    rw [mul_pow, q1, q2]
    nlinarith [sq_nonneg (a * k - b * h)]
  nlinarith

end Geo
