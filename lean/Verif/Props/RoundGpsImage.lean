import Verif.Model.RoundedGpsImage
import Verif.Props.RoundObject
import Verif.Props.RoundGpsTest
import Verif.Props.Unique

/-! # C187: pixels of gps positions and gps positions of pixels with rounding errors -/

namespace Rounded

open Projection Camera Geo

/-- The pixel of a point that is close to a point that is seen at `p`. -/
theorem image_any (k : Kind) (I : Intr) (hfx : I.fx ≠ 0) (hfy : I.fy ≠ 0) {u e : ℝ} (hu : 0 ≤ u) (hu1 : u ≤ 1 / 100000) (he1 : e ≤ 1 / 1000) (o : Orient)
    (R : M3) (hR : Near e R o.mat.R) (p : V2 ℝ) (hx : |(p.x - I.cx) / I.fx| < Real.pi ∨ k = .rectilinear)
    (hy : k = .equirectangular → |(p.y - I.cy) / I.fy| < Real.pi / 2) {f Y Z : ℝ} (hf : 0 < f) (r : V3 ℝ) (hrr : r = rayR k I p) (hrz : r.z < 0)
    (hZ : 3 * Y + 31 / 10 * ((e + 6 * u) * size r) ≤ Z) (hZ1 : Z ≤ 1 / 80) (hside : 8 * Z ≤ |r.z|) (hdep : 3 * minDepth ≤ f * |r.z|) (P : V3 ℝ)
    (hpt : ∀ j, |(P - o.pos).get j - f * (o.mat.Rinv.applyR r).get j| ≤ f * Y) (out : V2 Num) (ho : ImageAny u k I o.pos R P out) :
    ∃ w : V2 ℝ, out.Is w ∧
      |w.x - p.x| ≤ (7 * Z + 25 * u) * (|I.fx| + |p.x - I.cx|) + u * |I.cx| ∧
      |w.y - p.y| ≤ (7 * Z + 25 * u) * (|I.fy| + |p.y - I.cy|) + u * |I.cy| := by
  have he : 0 ≤ e := (abs_nonneg _).trans hR.1
  have hmp : 0 < minDepth := by norm_num [minDepth]
  have hY0 : 0 ≤ Y := nonneg_of_mul_nonneg_right ((abs_nonneg _).trans (hpt 0)) hf
  have hS0 : 0 ≤ size r := size_nonneg _
  have hes : 0 ≤ e * size r := mul_nonneg he hS0
  have hus : 0 ≤ u * size r := mul_nonneg hu hS0
  cases k with
  | rectilinear =>
    have hz1 : r.z = -1 := by rw [hrr]; simp [rayR]
    rw [hz1, abs_neg, _root_.abs_one, mul_one] at hdep
    rw [hrr] at hpt
    obtain ⟨w, h0, h1, h2⟩ := back I hfx hfy hu hu1 he1 o R hR p true hdep (Z := Y) (by linarith) (by rw [← hrr]; linarith) P hpt out ho
    rw [← hrr] at h1 h2
    have hle : (8 * e + 67 * u) * size r + 10 / 3 * Y ≤ 7 * Z + 25 * u := by linarith
    exact ⟨w, h0, h1.trans (add_le_add_left (mul_le_mul_of_nonneg_right hle (by positivity)) _),
      h2.trans (add_le_add_left (mul_le_mul_of_nonneg_right hle (by positivity)) _)⟩
  | cylindrical =>
    exact back_pan .cylindrical (by simp) I hfx hfy hu hu1 he1 o R hR p (hx.resolve_right (by simp)) hy hf r hrr le_rfl hZ (by linarith) (by linarith) hside hrz P hpt out ho
  | equirectangular =>
    exact back_pan .equirectangular (by simp) I hfx hfy hu hu1 he1 o R hR p (hx.resolve_right (by simp)) hy hf r hrr le_rfl hZ (by linarith) (by linarith) hside hrz P hpt out ho

end Rounded

open Projection Rounded Camera Geo in
/-- **C187** The pixel of a gps position with rounding errors.  `(lat, lon)` is the place at the angle `t` from the place of the camera in the direction `b`; the
point of space that belongs to it is seen at the pixel `p`. -/
theorem C187_image (k : Kind) (I : Intr) (hfx : I.fx ≠ 0) (hfy : I.fy ≠ 0) (u e : ℝ) (hu : 0 ≤ u) (hu1 : u ≤ 1 / 100000) (he1 : e ≤ 1 / 1000) (o : Orient)
    (R : M3) (hR : Near e R o.mat.R) (lat0 lon0 lat lon h t b : ℝ) (h1 : |lat0| ≤ 90 - 400 * u) (h2 : |lon0| ≤ 360) (h3 : |lat| ≤ 90 - 400 * u)
    (h4 : |lon| ≤ 360) (ht : 0 ≤ t) (hq : t ≤ Real.pi / 2) (hw : walk lat0 lon0 t b = place lat lon) (p : V2 ℝ)
    (hx : |(p.x - I.cx) / I.fx| < Real.pi ∨ k = .rectilinear) (hy : k = .equirectangular → |(p.y - I.cy) / I.fy| < Real.pi / 2) (r d : V3 ℝ)
    (hr : (Projection.getRay k I p.num).Is r) (hd : (Camera.getRay ⟨k, I, o, noDistortion⟩ p.num).2.Is d) (f : ℝ) (hf : 0 < f)
    (hP : ⟨earth * (t * Real.sin b), earth * (t * Real.cos b), h⟩ = o.pos + d.mulS f) (hrz : r.z < 0) (Z : ℝ)
    (hZ : Z = 1893 * u * earth / f + 31 / 10 * (e + 6 * u) * size r) (hZ1 : Z ≤ 1 / 80) (hside : 8 * Z ≤ |r.z|) (hdep : 3 * minDepth ≤ f * |r.z|)
    (out : V2 Num) (ho : ImageFromGPS u k I o.pos R lat0 lon0 lat lon h out) :
    ∃ w : V2 ℝ, out.Is w ∧
      |w.x - p.x| ≤ (7 * Z + 25 * u) * (|I.fx| + |p.x - I.cx|) + u * |I.cx| ∧
      |w.y - p.y| ≤ (7 * Z + 25 * u) * (|I.fy| + |p.y - I.cy|) + u * |I.cy| := by
  obtain ⟨X, Y, hXY, ho⟩ := ho
  obtain ⟨x, y, hX, hY, bx, by'⟩ := C182_space u lat0 lon0 lat lon t b hu hu1 h1 h2 h3 h4 ht hq hw none (some h) (.inl rfl) X Y hXY
  have hrr : r = rayR k I p := hr.unique (getRay_is k hfx hfy (V2.is_num p))
  have hdd : d = o.mat.Rinv.applyR r := by
    rw [hrr]
    exact hd.unique (M3.apply_is (getRay_is k hfx hfy (V2.is_num p)))
  have hG : (⟨X, Y, .fin h⟩ : V3 Num).Is ⟨x, y, h⟩ := ⟨hX, hY, Num.is_fin h⟩
  rcases ho with ⟨Q, hQ, ho⟩ | ⟨⟨j, hj⟩, -⟩
  swap
  · exact absurd hj (not_nan hG j)
  have eQ := hQ.unique hG
  subst eQ
  have ex : earth * (t * Real.sin b) = o.pos.x + d.x * f := by simpa using congrArg V3.x hP
  have ey : earth * (t * Real.cos b) = o.pos.y + d.y * f := by simpa using congrArg V3.y hP
  have ez : h = o.pos.z + d.z * f := by simpa using congrArg V3.z hP
  have hE0 : 0 ≤ 631 * u * earth := (abs_nonneg _).trans bx
  refine image_any k I hfx hfy hu hu1 he1 o R hR p hx hy hf r hrr hrz (Y := 631 * u * earth / f) ?_ hZ1 hside hdep _ ?_ out ho
  · rw [hZ]
    exact le_of_eq (by ring)
  · rw [← hdd]
    intro j
    rw [mul_div_cancel₀ _ hf.ne']
    fin_cases j
    · show |x - o.pos.x - f * d.x| ≤ _
      rw [show x - o.pos.x - f * d.x = x - earth * (t * Real.sin b) by rw [ex]; ring]
      exact bx
    · show |y - o.pos.y - f * d.y| ≤ _
      rw [show y - o.pos.y - f * d.y = y - earth * (t * Real.cos b) by rw [ey]; ring]
      exact by'
    · show |h - o.pos.z - f * d.z| ≤ _
      rw [show h - o.pos.z - f * d.z = 0 by rw [ez]; ring, abs_zero]
      exact hE0

namespace Rounded

open Projection Camera Geo

theorem norm_triangle (v w : V3 ℝ) : (v + w).norm ≤ v.norm + w.norm := by
  unfold V3.norm
  have hv := V3.normSq_nonneg v
  have hw := V3.normSq_nonneg w
  have sv := Real.sq_sqrt hv
  have sw := Real.sq_sqrt hw
  have cs : (v.dot w) ^ 2 ≤ v.normSq * w.normSq := by
    simp only [V3.dot, V3.normSq]
    nlinarith [sq_nonneg (v.x * w.y - v.y * w.x), sq_nonneg (v.x * w.z - v.z * w.x), sq_nonneg (v.y * w.z - v.z * w.y)]
  have hd : v.dot w ≤ Real.sqrt v.normSq * Real.sqrt w.normSq := by
    rw [← Real.sqrt_mul hv]
    exact Real.le_sqrt_of_sq_le cs
  refine Real.sqrt_le_iff.2 ⟨by positivity, ?_⟩
  have e : (v + w).normSq = v.normSq + w.normSq + 2 * v.dot w := by simp only [V3.dot, V3.normSq, V3.add_x, V3.add_y, V3.add_z]; ring
  rw [e, add_sq, sv, sw]
  linarith

theorem dist_triangle (A B C : V3 ℝ) : A.dist C ≤ A.dist B + B.dist C := by
  have h := norm_triangle (A - B) (B - C)
  have e : A - B + (B - C) = A - C := by ext <;> simp
  rw [e] at h
  exact h

/-- The straight distance of two places is at most the angle between them. -/
theorem dist_le_angle {lat lon lat2 lon2 t : ℝ} (h : IsAngle (place lat lon) (place lat2 lon2) t) : (place lat lon).dist (place lat2 lon2) ≤ t := by
  refine Real.sqrt_le_iff.2 ⟨h.1, ?_⟩
  have e : (place lat lon - place lat2 lon2).normSq = (place lat lon).normSq + (place lat2 lon2).normSq - 2 * (place lat lon).dot (place lat2 lon2) := by
    simp only [V3.dot, V3.normSq, V3.sub_x, V3.sub_y, V3.sub_z]; ring
  rw [e, place_normSq, place_normSq, ← h.2.2]
  have := Real.one_sub_sq_div_two_le_cos (x := t)
  linarith

/-- Two walks from the same place end at most as far apart as on a plane. -/
theorem walk_dist (lat lon a b a' b' : ℝ) : (walk lat lon a b).dist (walk lat lon a' b') ≤
    Real.sqrt ((a * Real.sin b - a' * Real.sin b') ^ 2 + (a * Real.cos b - a' * Real.cos b') ^ 2) := by
  refine Real.sqrt_le_sqrt ?_
  have h1 := Real.sin_sq_add_cos_sq (rad lat)
  have h2 := Real.sin_sq_add_cos_sq (rad lon)
  have ha := Real.sin_sq_add_cos_sq a
  have ha' := Real.sin_sq_add_cos_sq a'
  have hb := Real.sin_sq_add_cos_sq b
  have hb' := Real.sin_sq_add_cos_sq b'
  obtain ⟨c, hc⟩ : ∃ c, c = Real.cos b * Real.cos b' + Real.sin b * Real.sin b' := ⟨_, rfl⟩
  have hcc : c = Real.cos (b - b') := by rw [hc, Real.cos_sub]
  have hc1 := Real.cos_le_one (b - b')
  have hc2 := Real.neg_one_le_cos (b - b')
  rw [← hcc] at hc1 hc2
  have edot : (walk lat lon a b).dot (walk lat lon a' b') = Real.cos a * Real.cos a' + Real.sin a * Real.sin a' * c := by
    obtain ⟨p, hp⟩ : ∃ p, p = place lat lon := ⟨_, rfl⟩
    obtain ⟨n, hn⟩ : ∃ n, n = north lat lon := ⟨_, rfl⟩
    obtain ⟨s, hs⟩ : ∃ s, s = east lat lon := ⟨_, rfl⟩
    have pp : p.dot p = 1 := by rw [hp]; simp only [place, V3.dot]; linear_combination (Real.cos (rad lat)) ^ 2 * h2 + h1
    have nn : n.dot n = 1 := by rw [hn]; simp only [north, V3.dot]; linear_combination (Real.sin (rad lat)) ^ 2 * h2 + h1
    have ss : s.dot s = 1 := by rw [hs]; simp only [east, V3.dot]; linear_combination h2
    have pn : p.dot n = 0 := by rw [hp, hn]; simp only [place, north, V3.dot]; linear_combination -(Real.sin (rad lat) * Real.cos (rad lat)) * h2
    have ps : p.dot s = 0 := by rw [hp, hs]; simp only [place, east, V3.dot]; ring
    have ns : n.dot s = 0 := by rw [hn, hs]; simp only [north, east, V3.dot]; ring
    unfold walk
    rw [← hp, ← hn, ← hs, hc]
    simp only [V3.dot] at pp nn ss pn ps ns
    simp only [V3.dot, V3.add_x, V3.add_y, V3.add_z, V3.mulS]
    linear_combination (Real.cos a * Real.cos a') * pp + Real.sin a * Real.sin a' * (Real.cos b * Real.cos b') * nn + Real.sin a * Real.sin a' * (Real.sin b * Real.sin b') * ss +
      (Real.cos a * Real.sin a' * Real.cos b' + Real.cos a' * Real.sin a * Real.cos b) * pn +
      (Real.cos a * Real.sin a' * Real.sin b' + Real.cos a' * Real.sin a * Real.sin b) * ps +
      Real.sin a * Real.sin a' * (Real.cos b * Real.sin b' + Real.sin b * Real.cos b') * ns
  have e : (walk lat lon a b - walk lat lon a' b').normSq = (walk lat lon a b).normSq + (walk lat lon a' b').normSq - 2 * (walk lat lon a b).dot (walk lat lon a' b') := by
    simp only [V3.dot, V3.normSq, V3.sub_x, V3.sub_y, V3.sub_z]; ring
  rw [e, Gps.walk_normSq, Gps.walk_normSq, edot]
  have er : (a * Real.sin b - a' * Real.sin b') ^ 2 + (a * Real.cos b - a' * Real.cos b') ^ 2 = a ^ 2 + a' ^ 2 - 2 * (a * a') * c := by
    rw [hc]
    linear_combination a ^ 2 * hb + a' ^ 2 * hb'
  rw [er]
  have g1 := Real.one_sub_sq_div_two_le_cos (x := a - a')
  have g2 := Real.one_sub_sq_div_two_le_cos (x := a + a')
  rw [Real.cos_sub] at g1
  rw [Real.cos_add] at g2
  have m1 := mul_le_mul_of_nonneg_left g1 (by linarith : 0 ≤ 1 + c)
  have m2 := mul_le_mul_of_nonneg_left g2 (by linarith : 0 ≤ 1 - c)
  nlinarith

/-- The cosine of the latitude changes by at most the distance. -/
theorem cos_lat_le {lat lon lat2 lon2 : ℝ} (h1 : |lat| ≤ 90) (h2 : |lat2| ≤ 90) :
    Real.cos (rad lat2) ≤ Real.cos (rad lat) + (place lat lon).dist (place lat2 lon2) := by
  have pos : ∀ {x : ℝ}, |x| ≤ 90 → 0 ≤ Real.cos (rad x) := by
    intro x hx
    have hp := Real.pi_pos
    have hb := abs_le.1 hx
    refine Real.cos_nonneg_of_neg_pi_div_two_le_of_le ?_ ?_ <;> unfold rad <;> nlinarith [hb.1, hb.2]
  have c1 := pos h1
  have c2 := pos h2
  have hs := Real.abs_le_sqrt (x := Real.cos (rad lat2) - Real.cos (rad lat)) (y := (place lat lon - place lat2 lon2).normSq) (by
    have hc := Real.cos_le_one (rad lon - rad lon2)
    rw [Real.cos_sub] at hc
    have s1 := Real.sin_sq_add_cos_sq (rad lon)
    have s2 := Real.sin_sq_add_cos_sq (rad lon2)
    have e : (place lat lon - place lat2 lon2).normSq = Real.cos (rad lat) ^ 2 + Real.cos (rad lat2) ^ 2 -
        2 * (Real.cos (rad lat) * Real.cos (rad lat2)) * (Real.cos (rad lon) * Real.cos (rad lon2) + Real.sin (rad lon) * Real.sin (rad lon2)) +
        (Real.sin (rad lat) - Real.sin (rad lat2)) ^ 2 := by
      simp only [V3.normSq, place, V3.sub_x, V3.sub_y, V3.sub_z]
      linear_combination Real.cos (rad lat) ^ 2 * s1 + Real.cos (rad lat2) ^ 2 * s2
    rw [e]
    have := mul_le_mul_of_nonneg_left hc (mul_nonneg c1 c2)
    nlinarith [sq_nonneg (Real.sin (rad lat) - Real.sin (rad lat2))])
  have := (le_abs_self _).trans hs
  show _ ≤ _ + Real.sqrt _
  linarith

end Rounded

open Projection Rounded Camera Geo in
/-- **C187** The gps position of a pixel with rounding errors: the pixel `p` sees the point `P`, `r` away from the origin in the direction `b`, to which the place
`(lat2, lon2)` belongs.  The straight distance on a sphere of radius 1 between the computed place and it, and the computed height. -/
theorem C187_gps (k : Kind) (I : Intr) (hfx : I.fx ≠ 0) (hfy : I.fy ≠ 0) (u e : ℝ) (hu : 0 ≤ u) (hu1 : u ≤ 1 / 100000) (he1 : e ≤ 9 / 10000) (o : Orient)
    (Rinv : M3) (hR : Near e Rinv o.mat.Rinv) (lat0 lon0 : ℝ) (h1 : |lat0| ≤ 90) (h2 : |lon0| ≤ 360) (hc : 0 < Real.cos (rad lat0)) (p : V2 ℝ)
    (hp : k = .equirectangular → Real.cos ((p.y - I.cy) / I.fy) ≠ 0) (d P : V3 ℝ) (s : ℝ)
    (hd : (Camera.getRay ⟨k, I, o, noDistortion⟩ p.num).2.Is d) (hfar : 2 * (e + 8 * u) * raySize k I p < |d.z|) (hs : 0 ≤ s)
    (hP : P = o.pos + d.mulS s) (hel : 0 < earth + o.pos.z) (r b : ℝ) (hr : 0 ≤ r) (hx : P.x = r * Real.sin b) (hy : P.y = r * Real.cos b) (lat2 lon2 : ℝ)
    (hl : |lat2| ≤ 90) (hw : walk lat0 lon0 (r / (earth + o.pos.z)) b = place lat2 lon2) (E : ℝ)
    (hE : E = (102 / 100 * (4 * (2 * e + 21 * u) * (raySize k I p / |d.z|) * size (P - o.pos) + u * size o.pos) + 205 / 100 * u * r) / (earth + o.pos.z))
    (hrE : r / (earth + o.pos.z) + E ≤ 1) (hEc : E ≤ Real.cos (rad lat2) / 2) (hn : 424 * u < Real.cos (rad lat2) ^ 2) (outLat outLon outZ : Num)
    (h : GpsFromImage u k I o.pos Rinv lat0 lon0 p 2 P.z outLat outLon outZ) :
    ∃ la lo z, Num.Is outLat la ∧ Num.Is outLon lo ∧ Num.Is outZ z ∧
      (place la lo).dist (place lat2 lon2) ≤ (356 / Real.cos (rad lat2) + 634 / Real.cos (rad lat0)) * u + E ∧
      |z - P.z| ≤ 2 * (2 * e + 21 * u) * (raySize k I p / |d.z|) * size (P - o.pos) + u * size o.pos := by
  obtain ⟨g, R, hg, hRad, h⟩ := h
  obtain ⟨q', hq', ej, es⟩ := ground_near k I hfx hfy hu hu1 he1 o Rinv hR hp hd hfar hs hP g hg
  rcases h with ⟨q, hq, hgps, hz⟩ | ⟨j, hj⟩
  swap
  · exact absurd hj (not_nan hq' j)
  have eq := hq.unique hq'
  subst eq
  obtain ⟨R0, hR0⟩ : ∃ R0, R0 = earth + o.pos.z := ⟨_, rfl⟩
  rw [← hR0] at hel hw hE hrE
  have hRd : |R - R0| ≤ u * |R0| := by rw [hR0]; exact hRad
  rw [abs_of_pos hel] at hRd
  have huR := mul_le_mul_of_nonneg_right hu1 hel.le
  have hRb := abs_le.1 hRd
  have hRp : 99 / 100 * R0 ≤ R := by linarith
  have hR1 : 0 < R := by linarith
  obtain ⟨r', hr'⟩ : ∃ r', r' = Real.sqrt (q.x ^ 2 + q.y ^ 2) := ⟨_, rfl⟩
  obtain ⟨b', hb'⟩ : ∃ b', b' = Complex.arg ⟨q.y, q.x⟩ := ⟨_, rfl⟩
  have hpol : q.x = r' * Real.sin b' ∧ q.y = r' * Real.cos b' := by
    obtain ⟨k1, k2⟩ := Unique.polar hb'.symm
    rw [add_comm, ← hr'] at k1 k2
    exact ⟨k2, k1⟩
  have hr0 : 0 ≤ r' := by rw [hr']; exact Real.sqrt_nonneg _
  obtain ⟨T, hT⟩ : ∃ T, T = 4 * (2 * e + 21 * u) * (raySize k I p / |d.z|) * size (P - o.pos) + u * size o.pos := ⟨_, rfl⟩
  rw [← hT] at es hE
  -- the two points on the plane, in units of the radius
  have hxy : |q.x - P.x| + |q.y - P.y| ≤ T := by linarith [abs_nonneg (q.z - P.z)]
  have part : ∀ {a w : ℝ}, |w| ≤ r → |a / R - w / R0| ≤ (|a - w| + u * r) / R := by
    intro a w hw
    have e : a / R - w / R0 = ((a - w) + w / R0 * (R0 - R)) / R := by field_simp; ring
    rw [e, abs_div, abs_of_pos hR1]
    refine div_le_div_of_nonneg_right ?_ hR1.le
    refine (abs_add_le _ _).trans (add_le_add_right ?_ _)
    rw [abs_mul, abs_div, abs_of_pos hel, abs_sub_comm R0 R]
    have m := mul_le_mul (div_le_div_of_nonneg_right hw hel.le) hRd (abs_nonneg _) (by positivity)
    rwa [show r / R0 * (u * R0) = u * r by field_simp] at m
  have hPx : |P.x| ≤ r := by
    rw [hx, abs_mul, abs_of_nonneg hr]
    exact mul_le_of_le_one_right hr (Real.abs_sin_le_one b)
  have hPy : |P.y| ≤ r := by
    rw [hy, abs_mul, abs_of_nonneg hr]
    exact mul_le_of_le_one_right hr (Real.abs_cos_le_one b)
  have hT0 : 0 ≤ T := by linarith [abs_nonneg (q.x - P.x), abs_nonneg (q.y - P.y)]
  have hur : 0 ≤ u * r := mul_nonneg hu hr
  have hsum : |q.x / R - P.x / R0| + |q.y / R - P.y / R0| ≤ E := by
    refine (add_le_add (part hPx) (part hPy)).trans ?_
    rw [hE, ← add_div, div_le_div_iff₀ hR1 hel]
    have m1 : (|q.x - P.x| + u * r + (|q.y - P.y| + u * r)) * R0 ≤ (T + 2 * (u * r)) * R0 := mul_le_mul_of_nonneg_right (by linarith) hel.le
    have m2 : (102 / 100 * T + 205 / 100 * u * r) * (99 / 100 * R0) ≤ (102 / 100 * T + 205 / 100 * u * r) * R := mul_le_mul_of_nonneg_left hRp (by linarith)
    have m3 := mul_nonneg hT0 hel.le
    have m4 := mul_nonneg hur hel.le
    linarith
  have sum_le : ∀ a c : ℝ, Real.sqrt (a ^ 2 + c ^ 2) ≤ |a| + |c| := by
    intro a c
    refine Real.sqrt_le_iff.2 ⟨by positivity, ?_⟩
    rw [← sq_abs a, ← sq_abs c]
    nlinarith [mul_nonneg (abs_nonneg a) (abs_nonneg c)]
  have hx0 : P.x / R0 = r / R0 * Real.sin b := by rw [hx]; ring
  have hy0 : P.y / R0 = r / R0 * Real.cos b := by rw [hy]; ring
  have hx1 : q.x / R = r' / R * Real.sin b' := by rw [hpol.1]; ring
  have hy1 : q.y / R = r' / R * Real.cos b' := by rw [hpol.2]; ring
  have hwd : (walk lat0 lon0 (r' / R) b').dist (walk lat0 lon0 (r / R0) b) ≤ E := by
    refine (walk_dist lat0 lon0 (r' / R) b' (r / R0) b).trans ?_
    rw [← hx0, ← hy0, ← hx1, ← hy1]
    exact (sum_le _ _).trans hsum
  have hrR : r' ≤ R := by
    rw [← div_le_one hR1]
    refine le_trans ?_ hrE
    have tri := norm_triangle ⟨P.x / R0, P.y / R0, 0⟩ ⟨q.x / R - P.x / R0, q.y / R - P.y / R0, 0⟩
    have n1 : V3.norm ⟨P.x / R0, P.y / R0, 0⟩ = r / R0 := by
      show Real.sqrt _ = _
      rw [Real.sqrt_eq_iff_mul_self_eq (V3.normSq_nonneg _) (by positivity)]
      simp only [V3.normSq]
      rw [hx0, hy0]
      linear_combination (r / R0) ^ 2 * Real.sin_sq_add_cos_sq b
    have n2 : V3.norm ⟨q.x / R - P.x / R0, q.y / R - P.y / R0, 0⟩ ≤ E := by
      refine le_trans (le_of_eq ?_) ((sum_le _ _).trans hsum)
      show Real.sqrt _ = _
      simp only [V3.normSq]
      congr 1
      ring
    have n3 : ((⟨P.x / R0, P.y / R0, 0⟩ : V3 ℝ) + ⟨q.x / R - P.x / R0, q.y / R - P.y / R0, 0⟩).norm = r' / R := by
      show Real.sqrt _ = _
      rw [Real.sqrt_eq_iff_mul_self_eq (V3.normSq_nonneg _) (by positivity)]
      simp only [V3.normSq, V3.add_x, V3.add_y, V3.add_z]
      rw [hx1, hy1]
      linear_combination (r' / R) ^ 2 * Real.sin_sq_add_cos_sq b'
    linarith
  obtain ⟨lat', lon', hw', hl'⟩ := exists_place (Gps.walk_normSq lat0 lon0 (r' / R) b')
  rw [hw', hw] at hwd
  have hcos := cos_lat_le (lon := lon') (lon2 := lon2) hl' hl
  obtain ⟨C, hC⟩ : ∃ C, C = Real.cos (rad lat2) := ⟨_, rfl⟩
  rw [← hC] at hcos hEc hn ⊢
  have hT1 : 0 ≤ E := (add_nonneg (abs_nonneg _) (abs_nonneg _)).trans hsum
  have hC0 : 0 < C := by
    rcases (show 0 ≤ C by linarith).eq_or_lt with h | h
    · rw [← h, zero_pow two_ne_zero] at hn
      linarith
    · exact h
  have hC' : C / 2 ≤ Real.cos (rad lat') := by linarith
  obtain ⟨la, lo, t, k1, k2, k3, k4, -, -⟩ := C183_from_space u lat0 lon0 R q.x q.y hu hu1 h1 h2 hR1 r' b' hr0 hrR hpol.1 hpol.2 lat' lon' hl' hw' hc
    (lt_of_lt_of_le (by rw [div_pow]; linarith) (pow_le_pow_left₀ (by linarith) hC' 2)) outLat outLon hgps
  refine ⟨la, lo, q.z, k1, k2, hz, ?_, ej 2⟩
  refine (dist_triangle _ (place lat' lon') _).trans (add_le_add ?_ hwd)
  refine (dist_le_angle k3).trans (k4.trans (mul_le_mul_of_nonneg_right (add_le_add_left ?_ _) hu))
  rw [show 356 / C = 178 / (C / 2) by field_simp; norm_num]
  exact div_le_div_of_nonneg_left (by norm_num) (by linarith) hC'

namespace Rounded

open Projection Camera Geo

theorem ImageFromGPS.exists {u : ℝ} (hu : 0 ≤ u) (k : Kind) (I : Intr) (t : V3 ℝ) (R : M3) (lat0 lon0 lat lon h : ℝ)
    (hf : ∀ X Y, SpaceFromGPS u lat0 lon0 none lat lon (some h) X Y → ∃ x y, Num.Is X x ∧ Num.Is Y y) : ∃ out, ImageFromGPS u k I t R lat0 lon0 lat lon h out := by
  obtain ⟨X, Y, hs⟩ : ∃ X Y, SpaceFromGPS u lat0 lon0 none lat lon (some h) X Y := SpaceFromGPS.exists hu lat0 lon0 lat lon
  obtain ⟨x, y, h1, h2⟩ := hf X Y hs
  obtain ⟨out, ho⟩ := ImageNum.exists hu k I t R (g := ⟨X, Y, .fin h⟩) (.inr ⟨⟨x, y, h⟩, h1, h2, Num.is_fin h⟩)
  exact ⟨out, X, Y, hs, ho⟩

theorem GpsFromImage.exists {u : ℝ} (hu : 0 ≤ u) (k : Kind) (I : Intr) (t : V3 ℝ) (Rinv : M3) (lat0 lon0 : ℝ) (p : V2 ℝ) (i : Fin 3) (v : ℝ) :
    ∃ o1 o2 o3, GpsFromImage u k I t Rinv lat0 lon0 p i v o1 o2 o3 := by
  obtain ⟨g, hg, hc | ⟨q, hq⟩⟩ := SpaceFromImageAny.exists hu k I t Rinv p i v
  · exact ⟨.nan, .nan, .nan, g, _, hg, Rd.exact hu _, .inr hc⟩
  · obtain ⟨ψ, h1⟩ : ∃ ψ, Arctan2Any u q.x q.y ψ := ⟨_, Or.inl (Rd.exact hu _)⟩
    obtain ⟨β, h2⟩ : ∃ β, Rad2deg u ψ β := ⟨_, _, _, Rd.exact hu _, Rd.exact hu _, Rd.exact hu _⟩
    obtain ⟨n, h3⟩ : ∃ n, Hyp u q.x q.y n := ⟨_, _, _, _, Rd.exact hu _, Rd.exact hu _, Rd.exact hu _, Rd.exact hu _⟩
    obtain ⟨o1, o2, h⟩ := MoveDistance.exists hu lat0 lon0 (6371000 + t.z) n β
    exact ⟨o1, o2, .fin q.z, g, _, hg, Rd.exact hu _, .inl ⟨q, hq, ⟨ψ, β, n, h1, h2, h3, h⟩, Num.is_fin _⟩⟩

/-- A place a little to the north of latitude and longitude 0. -/
theorem walk_north {t : ℝ} (h0 : 0 ≤ t) (h1 : t ≤ 1 / 1000) : |t * (180 / Real.pi)| ≤ 1 ∧ walk 0 0 t 0 = place (t * (180 / Real.pi)) 0 ∧
    99 / 100 ≤ Real.cos (rad (t * (180 / Real.pi))) := by
  have hp := Real.pi_gt_three
  have er : rad (t * (180 / Real.pi)) = t := by unfold rad; field_simp
  have e0 : rad 0 = 0 := by unfold rad; ring
  refine ⟨?_, ?_, ?_⟩
  · rw [abs_of_nonneg (by positivity), mul_div_assoc', div_le_one (by positivity)]
    linarith
  · ext <;> simp [walk, place, north, east, er, e0]
  · rw [er]
    have := Real.one_sub_sq_div_two_le_cos (x := t)
    nlinarith

end Rounded

open Projection Rounded Camera Geo in
/-- A point on the ground, 2 m north of the camera. -/
example : ∃ (out : V2 Num) (w : V2 ℝ), ImageFromGPS (1 / 2 ^ 53) .rectilinear ⟨100, 100, 50, 25, 100, 50⟩ exOrient.pos exOrient.mat.R 0 0
    (2 / earth * (180 / Real.pi)) 0 0 out ∧ out.Is w ∧ |w.x - 50| ≤ 1 / 1000 ∧ |w.y - 5| ≤ 1 / 1000 := by
  have he : earth = 6371000 := rfl
  obtain ⟨g1, g2, -⟩ := walk_north (t := 2 / earth) (by rw [he]; norm_num) (by rw [he]; norm_num)
  obtain ⟨out, ho⟩ := ImageFromGPS.exists (u := 1 / 2 ^ 53) (by norm_num) .rectilinear ⟨100, 100, 50, 25, 100, 50⟩ exOrient.pos exOrient.mat.R 0 0
    (2 / earth * (180 / Real.pi)) 0 0 (fun X Y h => by
      obtain ⟨x, y, h1, h2, -⟩ := C182_space (1 / 2 ^ 53) 0 0 _ 0 (2 / earth) 0 (by norm_num) (by norm_num) (by norm_num) (by norm_num)
        (g1.trans (by norm_num)) (by norm_num) (by rw [he]; norm_num) (by rw [he]; linarith [Real.pi_gt_three]) g2 none (some 0) (.inl rfl) X Y h
      exact ⟨x, y, h1, h2⟩)
  have hr : (Projection.getRay .rectilinear ⟨100, 100, 50, 25, 100, 50⟩ (V2.num ⟨50, 5⟩)).Is ⟨0, 1 / 5, -1⟩ :=
    (Projection.getRay_is .rectilinear (by norm_num) (by norm_num) (V2.is_num _)).congr (by norm_num [Projection.rayR])
  obtain ⟨w, h1, h2, h3⟩ := C187_image .rectilinear ⟨100, 100, 50, 25, 100, 50⟩ (by norm_num) (by norm_num) (1 / 2 ^ 53) 0 (by norm_num) (by norm_num) (by norm_num) exOrient _
    (Near.refl le_rfl _) 0 0 _ 0 0 (2 / earth) 0 (by norm_num) (by norm_num) (g1.trans (by norm_num)) (by norm_num) (by rw [he]; norm_num)
    (by rw [he]; linarith [Real.pi_gt_three]) g2 ⟨50, 5⟩ (.inr rfl) (by simp) ⟨0, 1 / 5, -1⟩ ⟨0, 1 / 5, -1⟩ hr (exOrient_ray _ _ (by norm_num)) 10 (by norm_num)
    (by rw [he]; ext <;> norm_num [exOrient, Camera.Orient.pos]) (by norm_num) _ rfl (by norm_num [size, he, abs_of_nonneg, abs_of_nonpos])
    (by norm_num [size, he, abs_of_nonneg, abs_of_nonpos]) (by norm_num [minDepth]) out ho
  refine ⟨out, w, ho, h1, ?_, ?_⟩
  · refine h2.trans ?_
    norm_num [size, he, abs_of_nonneg, abs_of_nonpos]
  · refine h3.trans ?_
    norm_num [size, he, abs_of_nonneg, abs_of_nonpos]

open Projection Rounded Camera Geo in
/-- The place of the pixel of the same point. -/
example : ∃ (o1 o2 o3 : Num) (la lo z : ℝ), GpsFromImage (1 / 2 ^ 53) .rectilinear ⟨100, 100, 50, 25, 100, 50⟩ exOrient.pos exOrient.mat.Rinv 0 0 ⟨50, 5⟩ 2 0 o1 o2 o3 ∧
    Num.Is o1 la ∧ Num.Is o2 lo ∧ Num.Is o3 z ∧ earth * (place la lo).dist (place (2 / (earth + 10) * (180 / Real.pi)) 0) ≤ 1 / 10 ^ 5 ∧ |z| ≤ 1 / 10 ^ 10 := by
  have he : earth = 6371000 := rfl
  have ez : exOrient.pos.z = 10 := rfl
  have e0 : rad 0 = 0 := by unfold rad; ring
  obtain ⟨g1, g2, g3⟩ := walk_north (t := 2 / (earth + 10)) (by rw [he]; norm_num) (by rw [he]; norm_num)
  obtain ⟨o1, o2, o3, h⟩ := GpsFromImage.exists (u := 1 / 2 ^ 53) (by norm_num) .rectilinear ⟨100, 100, 50, 25, 100, 50⟩ exOrient.pos exOrient.mat.Rinv 0 0 ⟨50, 5⟩ 2 0
  obtain ⟨la, lo, z, h1, h2, h3, h4, h5⟩ := C187_gps .rectilinear ⟨100, 100, 50, 25, 100, 50⟩ (by norm_num) (by norm_num) (1 / 2 ^ 53) 0 (by norm_num) (by norm_num)
    (by norm_num) exOrient _ (Near.refl le_rfl _) 0 0 (by norm_num) (by norm_num) (by rw [e0, Real.cos_zero]; norm_num) ⟨50, 5⟩ (by simp) ⟨0, 1 / 5, -1⟩ ⟨0, 2, 0⟩ 10
    (exOrient_ray _ _ (by norm_num)) (by norm_num [raySize, size, rayR, abs_of_nonneg, abs_of_nonpos]) (by norm_num)
    (by ext <;> norm_num [exOrient, Camera.Orient.pos]) (by rw [ez, he]; norm_num) 2 0 (by norm_num) (by simp) (by simp) (2 / (earth + 10) * (180 / Real.pi)) 0 (g1.trans (by norm_num))
    (by rw [ez]; exact g2) _ rfl (by norm_num [raySize, size, rayR, exOrient, Camera.Orient.pos, abs_of_nonneg, abs_of_nonpos, he])
    (le_trans (by norm_num [raySize, size, rayR, exOrient, Camera.Orient.pos, abs_of_nonneg, abs_of_nonpos, he] : _ ≤ (99 / 100 : ℝ) / 2) (by linarith))
    (lt_of_lt_of_le (by norm_num : _ < (99 / 100 : ℝ) ^ 2) (pow_le_pow_left₀ (by norm_num) g3 2)) o1 o2 o3 h
  refine ⟨o1, o2, o3, la, lo, z, h, h1, h2, h3, ?_, ?_⟩
  · rw [e0, Real.cos_zero] at h4
    have h6 : 356 / Real.cos (rad (2 / (earth + 10) * (180 / Real.pi))) ≤ 360 := by
      rw [div_le_iff₀ (by linarith)]
      linarith
    have h7 := mul_le_mul_of_nonneg_left h4 (by rw [he]; norm_num : 0 ≤ earth)
    refine h7.trans ?_
    have h8 : ∀ x E : ℝ, x ≤ 360 → E ≤ 1 / 10 ^ 18 → earth * ((x + 634 / 1) * (1 / 2 ^ 53) + E) ≤ 1 / 10 ^ 5 := by
      intro x E hx hE
      rw [he]
      norm_num at hE ⊢
      linarith
    refine h8 _ _ h6 ?_
    norm_num [raySize, size, rayR, exOrient, Camera.Orient.pos, abs_of_nonneg, abs_of_nonpos, he]
  · have := h5
    simp only [sub_zero] at this
    refine this.trans ?_
    norm_num [raySize, size, rayR, exOrient, Camera.Orient.pos, abs_of_nonneg, abs_of_nonpos]
