import Verif.Model.GpsImage
import Verif.Props.Camera
import Verif.Props.Gps

/-! # Properties of `gpsFromImage` and `imageFromGPS` (C112) -/

open Classical Num Camera Gps GpsImage

/-- The gps coordinates of a pixel, read back in local coordinates: the point seen in the pixel with x and y scaled by
`R / (R + elevation)`. -/
theorem GpsImage.there (c : Cam) (lat lon : ℝ) (h1 : -90 < lat) (h2 : lat < 90) (hh : 0 < Geo.earth + c.orient.pos.z)
    (p : V2 Num) (k : Constraint) (n : V3 Num) (hn : spaceFromImage c p k = .ok n) (P : V3 ℝ) (hP : n.Is P)
    (hd : Real.sqrt (P.x ^ 2 + P.y ^ 2) < (Geo.earth + c.orient.pos.z) * Real.pi) :
    ∃ g s, gpsFromImage c lat lon p k = .ok g ∧ imageFromGPS c lat lon (.one g) = .ok [imageFromSpace c s] ∧
      s.Is ⟨P.x * (Geo.earth / (Geo.earth + c.orient.pos.z)), P.y * (Geo.earth / (Geo.earth + c.orient.pos.z)), P.z⟩ := by
  refine ⟨cameraGpsFromSpace lat lon c.orient.pos.z n, _, ?_, rfl,
    spaceRow_gpsFromSpace (p := ptH lat lon c.orient.pos.z) (p' := pt lat lon) (ptH_is lat lon _) (pt_is lat lon)
      (Or.inr ⟨_, _, rfl, is_fin _, rfl⟩) hh rfl hP (cos_pos h1 h2) hd⟩
  unfold gpsFromImage
  rw [hn]
  rfl

/-- The image of a visible point, for a camera without distortion. -/
theorem GpsImage.image_real (c : Cam) (hc : c.Proper) (hl : c.lens = noDistortion) {n : V3 Num} {P : V3 ℝ} (hn : n.Is P)
    (hv : Visible c P) : ∃ (p : V2 ℝ) (u : ℝ), (imageFromSpace c n).Is p ∧ P = (dirR c p).mulS u + c.orient.pos := by
  obtain ⟨p, h1, h2⟩ := space_of_image c hc hn hv true
  obtain ⟨u, -, e, -⟩ := h2 (by rw [hl]; exact fun _ h => h)
  refine ⟨p, u, ?_, e⟩
  unfold imageFromSpace
  rw [hl]
  exact h1

/-- **C112** (partial: elevation 0, or the point on the vertical axis) `imageFromGPS` undoes `gpsFromImage`. -/
theorem C112_round_trip_partial (c : Cam) (hc : c.Proper) (hl : c.lens = noDistortion) (lat lon : ℝ) (h1 : -90 < lat)
    (h2 : lat < 90) (hh : 0 < Geo.earth + c.orient.pos.z) (P : V3 ℝ) (hz : P.z ≠ c.orient.pos.z)
    (h0 : c.orient.pos.z = 0 ∨ P.x = 0 ∧ P.y = 0) (hv : Visible c P)
    (hseam : c.kind = .rectilinear ∨ ¬ OnSeam c P)
    (hd : Real.sqrt (P.x ^ 2 + P.y ^ 2) < (Geo.earth + c.orient.pos.z) * Real.pi) :
    ∃ g q p, gpsFromImage c lat lon (imageFromSpace c P.num) { Z := some (.fin P.z) } = .ok g ∧
      imageFromGPS c lat lon (.one g) = .ok [q] ∧ q.Is p ∧ (imageFromSpace c P.num).Is p := by
  obtain ⟨n, hn, hP⟩ := C07_space_image_space c hc hl P hv 2 hz true
  obtain ⟨g, s, e1, e2, hs⟩ := there c lat lon h1 h2 hh _ _ n hn P hP hd
  have hs : s.Is P := by
    refine hs.congr ?_
    rcases h0 with h | ⟨hx, hy⟩
    · rw [h, add_zero, div_self (by norm_num [Geo.earth] : Geo.earth ≠ 0), mul_one, mul_one]
    · rw [hx, hy, zero_mul]
      ext
      · exact hx.symm
      · exact hy.symm
      · rfl
  obtain ⟨p, -, k1, -⟩ := image_real c hc hl hs hv
  have a1 := cameraFromSpace_is c hs
  have a2 := cameraFromSpace_is c (V3.is_num P)
  have hsame := Projection.imageFromCamera_same c.kind c.intr one_pos a1 (a2.congr (by ext <;> simp)) (by
    by_cases hz : |(camR c P).z| < Projection.minDepth
    · exact Or.inl ⟨hz, rfl⟩
    · right; simp only [V3.mulS_z, mul_one, and_self]; exact not_lt.1 hz) (by
    rcases hseam with h | h
    · exact Or.inl h
    · right; intro hh; exact h ⟨_, a2, hh⟩) true
  refine ⟨g, _, p, e1, e2, k1, ?_⟩
  unfold imageFromSpace at k1 ⊢
  rw [hl] at k1 ⊢
  rcases hsame with ⟨h, -⟩ | ⟨q, h, h'⟩
  · have k1 : (Projection.imageFromCamera c.kind c.intr (Spatial.cameraFromSpace c.orient.mat s) true).Is p := k1
    rw [h] at k1
    exact k1.1.elim
  · have k1 : (Projection.imageFromCamera c.kind c.intr (Spatial.cameraFromSpace c.orient.mat s) true).Is p := k1
    have : q = p := h.unique k1
    subst this
    exact h'

/-- **C112 violated** For every camera with another elevation and every visible point of the ground that is not below the
origin, the gps coordinates of its pixel lead to another pixel. -/
theorem C112_violated (c : Cam) (hc : c.Proper) (hl : c.lens = noDistortion) (lat lon : ℝ) (h1 : -90 < lat)
    (h2 : lat < 90) (hh : 0 < Geo.earth + c.orient.pos.z) (h0 : c.orient.pos.z ≠ 0) (x y : ℝ) (hxy : x ≠ 0 ∨ y ≠ 0)
    (hv : Visible c ⟨x, y, 0⟩)
    (hv' : Visible c ⟨x * (Geo.earth / (Geo.earth + c.orient.pos.z)), y * (Geo.earth / (Geo.earth + c.orient.pos.z)), 0⟩)
    (hd : Real.sqrt (x ^ 2 + y ^ 2) < (Geo.earth + c.orient.pos.z) * Real.pi) :
    ∃ g q p p', gpsFromImage c lat lon (imageFromSpace c (V3.num ⟨x, y, 0⟩)) {} = .ok g ∧
      imageFromGPS c lat lon (.one g) = .ok [q] ∧ (imageFromSpace c (V3.num ⟨x, y, 0⟩)).Is p ∧ q.Is p' ∧ p' ≠ p := by
  obtain ⟨n, hn, hP⟩ := C07_space_image_space c hc hl ⟨x, y, 0⟩ hv 2 (by simpa using h0.symm) true
  obtain ⟨g, s, e1, e2, hs⟩ := there c lat lon h1 h2 hh _ _ n hn _ hP hd
  obtain ⟨p, u, k1, k2⟩ := image_real c hc hl (V3.is_num ⟨x, y, 0⟩) hv
  obtain ⟨p', u', k1', k2'⟩ := image_real c hc hl hs hv'
  refine ⟨g, _, p, p', e1, e2, k1, k1', ?_⟩
  rintro rfl
  have z1 := congrArg V3.z k2
  have z2 := congrArg V3.z k2'
  simp only [V3.add_z, V3.mulS_z] at z1 z2
  have hu : u = u' := by
    have hdz : (dirR c p').z ≠ 0 := by
      intro h
      rw [h, zero_mul, zero_add] at z1
      exact h0 z1.symm
    have : (dirR c p').z * u = (dirR c p').z * u' := by linarith
    exact mul_left_cancel₀ hdz this
  rw [hu, ← k2'] at k2
  have hne : Geo.earth / (Geo.earth + c.orient.pos.z) ≠ 1 := by
    intro hq; rw [div_eq_one_iff_eq hh.ne'] at hq; apply h0; linarith
  have ex := congrArg V3.x k2
  have ey := congrArg V3.y k2
  simp only at ex ey
  rcases hxy with hx | hy
  · exact hne (mul_left_cancel₀ hx (by rw [← ex, mul_one]))
  · exact hne (mul_left_cancel₀ hy (by rw [← ey, mul_one]))

/-- **C112 violated** Two points at once: their heights are ignored. -/
theorem C112_violated_two (c : Cam) (lat lon : ℝ) (g g' : Pt) (a b : Num) (hg : g.h = some a) (hg' : g'.h = some b) :
    ∃ s t : V3 Num, s.z = a ∧ t.z = b ∧ imageFromGPS c lat lon (.one g) = .ok [imageFromSpace c s] ∧
      imageFromGPS c lat lon (.one g') = .ok [imageFromSpace c t] ∧
      imageFromGPS c lat lon (.many [g, g']) = .ok [imageFromSpace c ⟨s.x, s.y, .fin 0⟩, imageFromSpace c ⟨t.x, t.y, .fin 0⟩] := by
  obtain ⟨s, t, h1, h2, h3, h4, h5⟩ := C44_violated ⟨fin lat, fin lon, none⟩ g g' a b hg hg'
  refine ⟨s, t, h3, h4, ?_, ?_, ?_⟩ <;>
    simp [imageFromGPS, cameraSpaceFromGPS, h1, h2, h5, bind, Except.bind, pure, Except.pure]

/-- A camera 10 m above the ground looking straight down. -/
example : ∃ g q p p', gpsFromImage exampleCam 52 13 (imageFromSpace exampleCam (V3.num ⟨3, 4, 0⟩)) {} = .ok g ∧
    imageFromGPS exampleCam 52 13 (.one g) = .ok [q] ∧ (imageFromSpace exampleCam (V3.num ⟨3, 4, 0⟩)).Is p ∧ q.Is p' ∧ p' ≠ p :=
  C112_violated exampleCam exampleCam_proper rfl 52 13 (by norm_num) (by norm_num)
    (by simp [exampleCam, Orient.pos]; norm_num [Geo.earth]) (by simp [exampleCam, Orient.pos]) 3 4
    (Or.inl (by norm_num)) (exampleCam_visible _ (by norm_num)) (exampleCam_visible _ (by norm_num)) (by
      rw [show (3 : ℝ) ^ 2 + 4 ^ 2 = 5 ^ 2 by norm_num, Real.sqrt_sq (by norm_num)]
      have h3 := Real.two_le_pi
      simp only [exampleCam, Orient.pos, Geo.earth]; nlinarith)

/-- The point below the origin. -/
example : ∃ g q p, gpsFromImage exampleCam 52 13 (imageFromSpace exampleCam (V3.num ⟨0, 0, 0⟩)) { Z := some (.fin 0) } = .ok g ∧
    imageFromGPS exampleCam 52 13 (.one g) = .ok [q] ∧ q.Is p ∧ (imageFromSpace exampleCam (V3.num ⟨0, 0, 0⟩)).Is p :=
  C112_round_trip_partial exampleCam exampleCam_proper rfl 52 13 (by norm_num) (by norm_num)
    (by simp [exampleCam, Orient.pos]; norm_num [Geo.earth]) ⟨0, 0, 0⟩ (by simp [exampleCam, Orient.pos])
    (Or.inr ⟨rfl, rfl⟩) (exampleCam_visible _ (by norm_num)) (Or.inl rfl) (by
      have h3 := Real.two_le_pi
      simp [exampleCam, Orient.pos, Geo.earth]; nlinarith)
