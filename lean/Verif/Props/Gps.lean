import Verif.Proofs.Gps

/-! # Distances, bearings and moves on the earth, C37-C44 -/

open Classical Num Geo Gps

theorem Gps.pt_is (lat lon : ℝ) : (pt lat lon).Is lat lon := ⟨is_fin _, is_fin _⟩
theorem Gps.ptH_is (lat lon h : ℝ) : (ptH lat lon h).Is lat lon := ⟨is_fin _, is_fin _⟩
theorem Gps.earth_pos : 0 < earth := by unfold earth; norm_num

/-- **C37.** Without heights `getDistance` is the radius of the earth times the central angle. -/
theorem C37_great_circle (l1 o1 l2 o2 : ℝ) :
    ∃ t, IsAngle (place l1 o1) (place l2 o2) t ∧ Num.Is (getDistance (pt l1 o1) (pt l2 o2)) (earth * t) :=
  ⟨_, arc_isAngle (place_normSq _ _) (place_normSq _ _), getDistance_is (pt_is _ _) (pt_is _ _) (Or.inl rfl)⟩

/-- **C37.** It is symmetric, lies between 0 and half the circumference, and is 0 exactly for two names of
the same place. -/
theorem C37_metric (l1 o1 l2 o2 : ℝ) :
    ∃ r, Num.Is (getDistance (pt l1 o1) (pt l2 o2)) r ∧ Num.Is (getDistance (pt l2 o2) (pt l1 o1)) r ∧
      0 ≤ r ∧ r ≤ earth * Real.pi ∧ (r = 0 ↔ place l1 o1 = place l2 o2) := by
  have hu := place_normSq l1 o1
  have hv := place_normSq l2 o2
  obtain ⟨t0, t1, t2⟩ := arc_isAngle hu hv
  have he := earth_pos
  refine ⟨_, getDistance_is (pt_is _ _) (pt_is _ _) (Or.inl rfl),
    (getDistance_is (pt_is _ _) (pt_is _ _) (Or.inl rfl)).congr ?_, by positivity,
    mul_le_mul_of_nonneg_left t1 he.le, ?_⟩
  · unfold arc; rw [show (place l2 o2).dot (place l1 o1) = (place l1 o1).dot (place l2 o2) by simp only [V3.dot]; ring]
  · rw [mul_eq_zero, or_iff_right he.ne', ← dot_eq_one hu hv]
    unfold arc
    rw [Real.arccos_eq_zero]
    exact ⟨fun h => le_antisymm (dot_le_one hu hv) h, fun h => h.ge⟩

/-- **C37.** With heights it is the hypotenuse of the distance without heights and the height difference. -/
theorem C37_heights (l1 o1 h1 l2 o2 h2 : ℝ) :
    ∃ r, Num.Is (getDistance (pt l1 o1) (pt l2 o2)) r ∧
      Num.Is (getDistance (ptH l1 o1 h1) (ptH l2 o2 h2)) (Real.sqrt (r ^ 2 + (h1 - h2) ^ 2)) :=
  ⟨_, getDistance_is (pt_is _ _) (pt_is _ _) (Or.inl rfl),
    getDistance_h (ptH_is _ _ _) (ptH_is _ _ _) rfl rfl (is_fin _) (is_fin _)⟩

/-- A quarter of the way around the equator. -/
example : Num.Is (getDistance (pt 0 0) (pt 0 90)) (earth * (Real.pi / 2)) := by
  obtain ⟨t, h, hr⟩ := C37_great_circle 0 0 0 90
  have : t = Real.pi / 2 := by
    rw [h.eq_arc]; unfold arc place rad V3.dot
    have : (90 : ℝ) * (Real.pi / 180) = Real.pi / 2 := by ring
    simp [this]
  rwa [this] at hr

/-- **C38.** The triangle inequality without heights. -/
theorem C38_triangle (l1 o1 l2 o2 l3 o3 : ℝ) :
    ∃ r12 r23 r13, Num.Is (getDistance (pt l1 o1) (pt l2 o2)) r12 ∧ Num.Is (getDistance (pt l2 o2) (pt l3 o3)) r23 ∧
      Num.Is (getDistance (pt l1 o1) (pt l3 o3)) r13 ∧ r13 ≤ r12 + r23 := by
  refine ⟨_, _, _, getDistance_is (pt_is _ _) (pt_is _ _) (Or.inl rfl), getDistance_is (pt_is _ _) (pt_is _ _) (Or.inl rfl),
    getDistance_is (pt_is _ _) (pt_is _ _) (Or.inl rfl), ?_⟩
  rw [← mul_add]
  exact mul_le_mul_of_nonneg_left (arc_triangle (place_normSq _ _) (place_normSq _ _) (place_normSq _ _)) earth_pos.le

/-- **C38.** The triangle inequality with heights. -/
theorem C38_triangle_heights (l1 o1 h1 l2 o2 h2 l3 o3 h3 : ℝ) :
    ∃ r12 r23 r13, Num.Is (getDistance (ptH l1 o1 h1) (ptH l2 o2 h2)) r12 ∧
      Num.Is (getDistance (ptH l2 o2 h2) (ptH l3 o3 h3)) r23 ∧
      Num.Is (getDistance (ptH l1 o1 h1) (ptH l3 o3 h3)) r13 ∧ r13 ≤ r12 + r23 := by
  refine ⟨_, _, _, getDistance_h (ptH_is _ _ _) (ptH_is _ _ _) rfl rfl (is_fin _) (is_fin _),
    getDistance_h (ptH_is _ _ _) (ptH_is _ _ _) rfl rfl (is_fin _) (is_fin _),
    getDistance_h (ptH_is _ _ _) (ptH_is _ _ _) rfl rfl (is_fin _) (is_fin _), ?_⟩
  have he := earth_pos.le
  have nn : ∀ a b : V3 ℝ, 0 ≤ earth * arc a b := fun a b => mul_nonneg he (Real.arccos_nonneg _)
  have h := minkowski (h := h1 - h2) (k := h2 - h3) (nn (place l1 o1) (place l2 o2)) (nn (place l2 o2) (place l3 o3))
    (nn (place l1 o1) (place l3 o3)) (by
      rw [← mul_add]
      exact mul_le_mul_of_nonneg_left (arc_triangle (place_normSq _ _) (place_normSq _ _) (place_normSq _ _)) he)
  rwa [sub_add_sub_cancel] at h

/-- **C39.** `moveDistance` follows the great circle with the given bearing by the given distance, and the
new latitude is in the usual range. -/
theorem C39_great_circle (lat lon d b : ℝ) (h1 : -90 < lat) (h2 : lat < 90) :
    ∃ lat2 lon2, (moveDistance (pt lat lon) (fin d) (fin b)).Is lat2 lon2 ∧ -90 ≤ lat2 ∧ lat2 ≤ 90 ∧
      place lat2 lon2 = walk lat lon (d / earth) (rad b) :=
  moveDistance_is (pt_is lat lon) (Or.inl ⟨rfl, rfl⟩) earth_pos.ne' (is_fin d) (is_fin b) (cos_pos h1 h2)

/-- **C39.** Moving by `d` gives a point at distance `d`. -/
theorem C39_distance (lat lon d b : ℝ) (h1 : -90 < lat) (h2 : lat < 90) (hd0 : 0 ≤ d) (hd : d ≤ earth * Real.pi) :
    Num.Is (getDistance (pt lat lon) (moveDistance (pt lat lon) (fin d) (fin b))) d := by
  obtain ⟨lat2, lon2, hi, -, -, hw⟩ := C39_great_circle lat lon d b h1 h2
  refine (getDistance_is (pt_is lat lon) hi (Or.inl rfl)).congr ?_
  have he := earth_pos
  rw [hw, ← IsAngle.eq_arc (t := d / earth) ⟨by positivity, ?_, ?_⟩, mul_div_cancel₀ _ he.ne']
  · rw [div_le_iff₀ he]; linarith
  · rw [← (walk_dots lat lon (d / earth) (rad b)).1]; simp only [V3.dot]; ring

/-- **C40.** Moving with the bearing `b` gives a point with this bearing (modulo full turns, and exactly for
`b` between -180 and 180). -/
theorem C40_bearing (lat lon d b : ℝ) (h1 : -90 < lat) (h2 : lat < 90) (hd0 : 0 < d) (hd : d < earth * Real.pi) :
    ∃ t, Num.Is (getBearing (pt lat lon) (moveDistance (pt lat lon) (fin d) (fin b))) t ∧ |t| ≤ 180 ∧
      (∃ k : ℤ, t = b + 360 * k) ∧ (-180 < b → b < 180 → t = b) := by
  obtain ⟨lat2, lon2, hi, -, -, hw⟩ := C39_great_circle lat lon d b h1 h2
  obtain ⟨X, Y, eb, hX, hY⟩ := getBearing_eq (pt_is lat lon) hi
  have he := earth_pos
  have hpi := Real.pi_pos
  have hs : 0 < Real.sin (d / earth) := Real.sin_pos_of_pos_of_lt_pi (by positivity) (by rw [div_lt_iff₀ he]; linarith)
  obtain ⟨w1, w2, w3⟩ := walk_dots lat lon (d / earth) (rad b)
  rw [hw, w3] at hX
  rw [hw, w2] at hY
  have hsc := Real.sin_sq_add_cos_sq (rad b)
  have e : (Real.sin (d / earth) * Real.cos (rad b)) ^ 2 + (Real.sin (d / earth) * Real.sin (rad b)) ^ 2 =
      Real.sin (d / earth) ^ 2 := by linear_combination Real.sin (d / earth) ^ 2 * hsc
  obtain ⟨θ, hθ, habs, hc, hsn⟩ := Projection.arctan2_spec hX hY (by rw [e]; positivity)
  rw [e, Real.sqrt_sq hs.le] at hc hsn
  have hc' := mul_left_cancel₀ hs.ne' hc
  have hs' := mul_left_cancel₀ hs.ne' hsn
  have ha : (θ : Real.Angle) = (rad b : Real.Angle) := Real.Angle.cos_sin_inj hc' hs'
  obtain ⟨k, hk⟩ := Real.Angle.angle_eq_iff_two_pi_dvd_sub.1 ha
  have hθb : θ * (180 / Real.pi) = b + 360 * k := by
    have : θ = rad b + 2 * Real.pi * k := by linarith
    rw [this]; unfold rad; field_simp; ring
  have hle : |θ * (180 / Real.pi)| ≤ 180 := by
    rw [abs_mul, abs_of_pos (show 0 < 180 / Real.pi by positivity)]
    calc _ ≤ Real.pi * (180 / Real.pi) := mul_le_mul_of_nonneg_right habs (by positivity)
      _ = 180 := by field_simp
  refine ⟨θ * (180 / Real.pi), ?_, hle, ⟨k, hθb⟩, ?_⟩
  · rw [eb]; exact hθ.rad2deg
  · intro b1 b2
    rw [hθb] at hle ⊢
    obtain ⟨l1, l2⟩ := abs_le.1 hle
    have k1 : (-1 : ℝ) < k := by linarith
    have k2 : (k : ℝ) < 1 := by linarith
    have k1' : (-1 : ℤ) < k := by exact_mod_cast k1
    have k2' : k < (1 : ℤ) := by exact_mod_cast k2
    have : k = 0 := by omega
    rw [this]; simp

/-- 100 km to the south-east of the equator. -/
example : Num.Is (getBearing (pt 0 0) (moveDistance (pt 0 0) (fin 100000) (fin 135))) 135 ∧
    Num.Is (getDistance (pt 0 0) (moveDistance (pt 0 0) (fin 100000) (fin 135))) 100000 := by
  have h3 := Real.two_le_pi
  obtain ⟨t, ht, -, -, h⟩ := C40_bearing 0 0 100000 135 (by norm_num) (by norm_num) (by norm_num) (by unfold earth; nlinarith)
  rw [h (by norm_num) (by norm_num)] at ht
  exact ⟨ht, C39_distance 0 0 100000 135 (by norm_num) (by norm_num) (by norm_num) (by unfold earth; nlinarith)⟩

/-- A place determines its latitude, and off the poles its longitude up to full turns. -/
theorem Gps.place_inj {l1 o1 l2 o2 : ℝ} (h : place l1 o1 = place l2 o2) (a1 : -90 ≤ l1) (a2 : l1 ≤ 90) (b1 : -90 ≤ l2)
    (b2 : l2 ≤ 90) : l1 = l2 ∧ (-90 < l2 → l2 < 90 → ∃ k : ℤ, o1 = o2 + 360 * k) := by
  have hpi := Real.pi_pos
  have hz : Real.sin (rad l1) = Real.sin (rad l2) := congrArg V3.z h
  have r : ∀ l : ℝ, -90 ≤ l → l ≤ 90 → rad l ∈ Set.Icc (-(Real.pi / 2)) (Real.pi / 2) := by
    intro l x y; unfold rad; constructor <;> nlinarith
  have hl := Real.injOn_sin (r l1 a1 a2) (r l2 b1 b2) hz
  have hll : l1 = l2 := by rw [← rad2deg_rad l1, hl, rad2deg_rad]
  refine ⟨hll, fun c1 c2 => ?_⟩
  have hc := cos_pos c1 c2
  have hx : Real.cos (rad l1) * Real.cos (rad o1) = Real.cos (rad l2) * Real.cos (rad o2) := congrArg V3.x h
  have hy : Real.cos (rad l1) * Real.sin (rad o1) = Real.cos (rad l2) * Real.sin (rad o2) := congrArg V3.y h
  rw [hll] at hx hy
  have ha : (rad o1 : Real.Angle) = (rad o2 : Real.Angle) :=
    Real.Angle.cos_sin_inj (mul_left_cancel₀ hc.ne' hx) (mul_left_cancel₀ hc.ne' hy)
  obtain ⟨k, hk⟩ := Real.Angle.angle_eq_iff_two_pi_dvd_sub.1 ha
  refine ⟨k, ?_⟩
  have : rad o1 = rad o2 + 2 * Real.pi * k := by linarith
  rw [← rad2deg_rad o1, this]; unfold rad; field_simp; ring

/-- **C41.** From gps coordinates to local coordinates and back: the same place, for all targets (also the
reference point itself, its antipode and the poles). -/
theorem C41_gps_space_gps (l1 o1 l2 o2 : ℝ) (h1 : -90 < l1) (h2 : l1 < 90) :
    ∃ s, spaceFromGPS (.one (pt l2 o2)) (pt l1 o1) = .ok [s] ∧
      ∃ lat lon, (gpsFromSpace s (pt l1 o1)).Is lat lon ∧ place lat lon = place l2 o2 ∧
        (-90 ≤ l2 → l2 ≤ 90 → lat = l2 ∧ (-90 < l2 → l2 < 90 → ∃ k : ℤ, lon = o2 + 360 * k)) := by
  refine ⟨_, rfl, ?_⟩
  obtain ⟨lat, lon, hi, a1, a2, e⟩ := gpsFromSpace_spaceRow (pt_is l1 o1) (pt_is l2 o2) rfl (cos_pos h1 h2) (fin 0)
  exact ⟨lat, lon, hi, e, fun b1 b2 => place_inj e a1 a2 b1 b2⟩

example : (-90 : ℝ) < 50 ∧ (50 : ℝ) < 90 := by norm_num

/-- **C42.** From local coordinates to gps coordinates and back. -/
theorem C42_space_gps_space (lat lon x y z : ℝ) (h1 : -90 < lat) (h2 : lat < 90)
    (hd : Real.sqrt (x ^ 2 + y ^ 2) < earth * Real.pi) :
    ∃ s, spaceFromGPS (.one (gpsFromSpace (V3.num ⟨x, y, z⟩) (pt lat lon))) (pt lat lon) = .ok [s] ∧
      V3.Is s ⟨x, y, z⟩ := by
  refine ⟨_, rfl, ?_⟩
  have h := spaceRow_gpsFromSpace (p := pt lat lon) (p' := pt lat lon) (pt_is lat lon) (pt_is lat lon)
    (Or.inl ⟨rfl, rfl⟩) earth_pos rfl (V3.is_num ⟨x, y, z⟩) (cos_pos h1 h2) hd
  rw [div_self earth_pos.ne', mul_one, mul_one] at h
  exact h

/-- A point 5 km away. -/
example : Real.sqrt ((3000 : ℝ) ^ 2 + 4000 ^ 2) < earth * Real.pi := by
  rw [show (3000 : ℝ) ^ 2 + 4000 ^ 2 = 5000 ^ 2 by norm_num, Real.sqrt_sq (by norm_num)]
  have h3 := Real.two_le_pi
  unfold earth; nlinarith

/-- The camera conversions there and back shrink the horizontal coordinates by `R / (R + elevation)`. -/
theorem Gps.camera_space_gps_space (lat lon h x y z : ℝ) (h1 : -90 < lat) (h2 : lat < 90) (hh : 0 < earth + h)
    (hd : Real.sqrt (x ^ 2 + y ^ 2) < (earth + h) * Real.pi) :
    ∃ s, cameraSpaceFromGPS lat lon (.one (cameraGpsFromSpace lat lon h (V3.num ⟨x, y, z⟩))) = .ok [s] ∧
      V3.Is s ⟨x * (earth / (earth + h)), y * (earth / (earth + h)), z⟩ :=
  ⟨_, rfl, spaceRow_gpsFromSpace (p := ptH lat lon h) (p' := pt lat lon) (ptH_is lat lon h) (pt_is lat lon)
    (Or.inr ⟨_, _, rfl, is_fin h, rfl⟩) hh rfl (V3.is_num ⟨x, y, z⟩) (cos_pos h1 h2) hd⟩

/-- **C43** (partial: elevation 0).  `Camera.spaceFromGPS` undoes `Camera.gpsFromSpace`. -/
theorem C43_camera_round_trip_partial (lat lon x y z : ℝ) (h1 : -90 < lat) (h2 : lat < 90)
    (hd : Real.sqrt (x ^ 2 + y ^ 2) < earth * Real.pi) :
    ∃ s, cameraSpaceFromGPS lat lon (.one (cameraGpsFromSpace lat lon 0 (V3.num ⟨x, y, z⟩))) = .ok [s] ∧
      V3.Is s ⟨x, y, z⟩ := by
  have h := camera_space_gps_space lat lon 0 x y z h1 h2 (by linarith [earth_pos]) (by rwa [add_zero])
  rwa [add_zero, div_self earth_pos.ne', mul_one, mul_one] at h

/-- **C43 is violated** for every other elevation and every point not on the vertical axis: the result is
the point with x and y scaled by `R / (R + elevation)`, and never the point itself. -/
theorem C43_violated (lat lon h x y z : ℝ) (h1 : -90 < lat) (h2 : lat < 90) (hh : 0 < earth + h) (h0 : h ≠ 0)
    (hd : Real.sqrt (x ^ 2 + y ^ 2) < (earth + h) * Real.pi) (hxy : x ≠ 0 ∨ y ≠ 0) :
    ∃ s, cameraSpaceFromGPS lat lon (.one (cameraGpsFromSpace lat lon h (V3.num ⟨x, y, z⟩))) = .ok [s] ∧
      V3.Is s ⟨x * (earth / (earth + h)), y * (earth / (earth + h)), z⟩ ∧ ¬ V3.Is s ⟨x, y, z⟩ := by
  obtain ⟨s, e, hs⟩ := camera_space_gps_space lat lon h x y z h1 h2 hh hd
  refine ⟨s, e, hs, fun hs' => ?_⟩
  have hne : earth / (earth + h) ≠ 1 := by
    intro hq; rw [div_eq_one_iff_eq hh.ne'] at hq; apply h0; linarith
  have ex : x * (earth / (earth + h)) = x := hs.1.unique hs'.1
  have ey : y * (earth / (earth + h)) = y := hs.2.1.unique hs'.2.1
  rcases hxy with hx | hy
  · exact hne (mul_left_cancel₀ hx (by rw [ex, mul_one]))
  · exact hne (mul_left_cancel₀ hy (by rw [ey, mul_one]))

/-- A camera 100 m above the ground and a point 5 km away. -/
example : 0 < earth + 100 ∧ Real.sqrt ((3000 : ℝ) ^ 2 + 4000 ^ 2) < (earth + 100) * Real.pi := by
  rw [show (3000 : ℝ) ^ 2 + 4000 ^ 2 = 5000 ^ 2 by norm_num, Real.sqrt_sq (by norm_num)]
  have h3 := Real.two_le_pi
  unfold earth; constructor <;> nlinarith

theorem Gps.mapM_heights (rows : List (Pt × Num)) (h : ∀ q ∈ rows, q.1.h = some q.2) :
    (rows.map Prod.fst).mapM Pt.col2 = .ok (rows.map Prod.snd) := by
  induction rows with
  | nil => rfl
  | cons a as ih =>
    have ha := h a (by simp)
    have := ih fun q hq => h q (by simp [hq])
    rw [List.map_cons, List.mapM_cons, this]
    simp only [Pt.col2, ha]
    rfl

/-- **C44** (partial: all batch sizes but two).  Every row of the result is the result for the row alone. -/
theorem C44_batch_partial (gps0 : Pt) (rows : List (Pt × Num)) (h : ∀ q ∈ rows, q.1.h = some q.2)
    (hN : rows.length ≠ 2) :
    ∃ out, spaceFromGPS (.many (rows.map Prod.fst)) gps0 = .ok out ∧ out.length = rows.length ∧
      ∀ i (hi : i < rows.length) (ho : i < out.length), spaceFromGPS (.one rows[i].1) gps0 = .ok [out[i]] := by
  refine ⟨rows.map fun q => spaceRow gps0 q.1 q.2, ?_, by simp, ?_⟩
  · simp only [spaceFromGPS, heights, Arr.len, Arr.rows, List.length_map, hN, if_false, mapM_heights rows h,
      bind, Except.bind, pure, Except.pure]
    congr 1
    clear h hN
    induction rows with
    | nil => rfl
    | cons a as ih => simp only [List.map_cons, List.zip_cons_cons, ih]
  · intro i hi ho
    have := h rows[i] (List.getElem_mem hi)
    simp [spaceFromGPS, heights, Arr.len, Arr.rows, this, Pt.col2, bind, Except.bind, pure, Except.pure]

/-- **C44 is violated** for batches of two rows: all heights come out as 0, whatever the input. -/
theorem C44_violated (gps0 p q : Pt) (a b : Num) (hp : p.h = some a) (hq : q.h = some b) :
    ∃ s t, spaceFromGPS (.one p) gps0 = .ok [s] ∧ spaceFromGPS (.one q) gps0 = .ok [t] ∧ s.z = a ∧ t.z = b ∧
      spaceFromGPS (.many [p, q]) gps0 = .ok [⟨s.x, s.y, fin 0⟩, ⟨t.x, t.y, fin 0⟩] := by
  refine ⟨spaceRow gps0 p a, spaceRow gps0 q b, ?_, ?_, rfl, rfl, rfl⟩ <;>
    simp [spaceFromGPS, heights, Arr.len, Arr.rows, hp, hq, Pt.col2, bind, Except.bind, pure, Except.pure]

example : ∃ (p q : Pt) (a b : Num), p.h = some a ∧ q.h = some b := ⟨⟨fin 1, fin 2, some (fin 3)⟩, ⟨fin 4, fin 5, some (fin 6)⟩, _, _, rfl, rfl⟩

/-- **C44 is violated** for batches without heights as well: every batch of one, three or more rows is
rejected although each row alone is accepted. -/
theorem C44_no_heights_violated (gps0 p : Pt) (ps : List Pt) (hp : ∀ q ∈ p :: ps, q.h = none) (hN : ps.length ≠ 1) :
    spaceFromGPS (.many (p :: ps)) gps0 = .error .indexError ∧
      ∀ q ∈ p :: ps, ∃ s, spaceFromGPS (.one q) gps0 = .ok [s] := by
  constructor
  · have : (p :: ps).length ≠ 2 := by simp [hN]
    simp only [spaceFromGPS, heights, Arr.len, Arr.rows, this, if_false, List.mapM_cons, Pt.col2, hp p (by simp),
      bind, Except.bind]
  · intro q hq
    refine ⟨spaceRow gps0 q (fin 0), ?_⟩
    simp [spaceFromGPS, heights, Arr.len, Arr.rows, hp q hq, bind, Except.bind, pure, Except.pure]

/-- Three places with heights. -/
example : ∃ rows : List (Pt × Num), rows.length ≠ 2 ∧ (∀ q ∈ rows, q.1.h = some q.2) ∧ rows.length = 3 :=
  ⟨[(ptH 1 2 3, fin 3), (ptH 4 5 6, fin 6), (ptH 7 8 9, fin 9)], by simp, by simp [ptH], rfl⟩
