import Verif.Proofs.Camera

/-! # Properties of the projections (C01-C05, C16, C17, C83) -/

open Classical Num Projection

/-- **C01** For a `RectilinearProjection`, every point in front of the camera on the ray of a pixel is
projected to the pixel. -/
theorem C01_rectilinear_inverts_rays (I : Intr) (hfx : I.fx ≠ 0) (hfy : I.fy ≠ 0) (p : V2 ℝ)
    (normed hide : Bool) :
    ∃ ray : V3 ℝ, (getRay .rectilinear I p.num normed).Is ray ∧ ray.z < 0 ∧
      ∀ t : ℝ, 0 < t → minDepth ≤ |t * ray.z| →
        ∀ P : V3 Num, P.Is ⟨t * ray.x, t * ray.y, t * ray.z⟩ →
          (imageFromCamera .rectilinear I P hide).Is p := by
  obtain ⟨s, hs, -, -, h⟩ := getRay_exists .rectilinear hfx hfy (V2.is_num p) normed
  refine ⟨_, h, by simp [rayR, hs], ?_⟩
  intro t ht hd P hP
  refine imageFromCamera_ray .rectilinear hfx hfy trivial (u := s * t) (by positivity) (hP.congr ?_) ?_ hide
  · ext <;> simp <;> ring
  · refine hd.trans (le_of_eq ?_)
    simp only [V3.mulS_z]; congr 1; ring

example : ∃ (I : Intr) (p : V2 ℝ), I.fx ≠ 0 ∧ I.fy ≠ 0 ∧ p.x ≠ I.cx ∧
    (imageFromCamera .rectilinear I ⟨.fin 2, .fin (-2), .fin (-10)⟩ true).Is p := by
  refine ⟨⟨100, 100, 50, 25, 100, 50⟩, ⟨70, 45⟩, by norm_num, by norm_num, by norm_num, ?_⟩
  have h := imageFromCamera_ray .rectilinear (I := ⟨100, 100, 50, 25, 100, 50⟩) (p := ⟨70, 45⟩)
    (by norm_num) (by norm_num) trivial (u := 10) (by norm_num)
    (q := ⟨.fin 2, .fin (-2), .fin (-10)⟩) (by refine ⟨?_, ?_, ?_⟩ <;> simp [rayR] <;> norm_num)
    (by simp [rayR]; norm_num) true
  exact h

/-- The full claim of **C02**/**C03**: every point on the ray of a pixel in range is projected to the
pixel. -/
def InvertsRays (k : Kind) (I : Intr) : Prop :=
  ∀ (p : V2 ℝ), InRange k I p → ∀ (normed hide : Bool) (ray : V3 ℝ), (getRay k I p.num normed).Is ray →
    ∀ t : ℝ, 0 < t → ∀ P : V3 Num, P.Is ⟨t * ray.x, t * ray.y, t * ray.z⟩ →
      (imageFromCamera k I P hide).Is p

/-- **C02** (partial: the points must be at least 1e-10 in front of or behind the plane of the camera;
see `C02_violated`) -/
theorem C02_cylindrical_inverts_rays_partial (I : Intr) (hfx : I.fx ≠ 0) (hfy : I.fy ≠ 0) (p : V2 ℝ)
    (hp : |p.x - I.cx| < Real.pi * |I.fx|) (normed hide : Bool) :
    ∃ ray : V3 ℝ, (getRay .cylindrical I p.num normed).Is ray ∧
      ∀ t : ℝ, 0 < t → minDepth ≤ |t * ray.z| →
        ∀ P : V3 Num, P.Is ⟨t * ray.x, t * ray.y, t * ray.z⟩ →
          (imageFromCamera .cylindrical I P hide).Is p := by
  obtain ⟨s, hs, -, -, h⟩ := getRay_exists .cylindrical hfx hfy (V2.is_num p) normed
  refine ⟨_, h, ?_⟩
  intro t ht hd P hP
  have hr : InRange .cylindrical I p := by
    show |(p.x - I.cx) / I.fx| < Real.pi
    rw [abs_div, div_lt_iff₀ (abs_pos.2 hfx)]; exact hp
  refine imageFromCamera_ray .cylindrical hfx hfy hr (u := s * t) (by positivity) (hP.congr ?_) ?_ hide
  · ext <;> simp <;> ring
  · refine hd.trans (le_of_eq ?_)
    simp only [V3.mulS_z]; congr 1; ring

example : ∃ (I : Intr) (p : V2 ℝ), I.fx ≠ 0 ∧ I.fy ≠ 0 ∧ |p.x - I.cx| < Real.pi * |I.fx| :=
  ⟨⟨100, 100, 50, 25, 100, 50⟩, ⟨50, 3⟩, by norm_num, by norm_num, by simp [Real.pi_pos]⟩

/-- **C03** (partial: the points must be at least 1e-10 in front of or behind the plane of the camera;
see `C03_violated`) -/
theorem C03_equirectangular_inverts_rays_partial (I : Intr) (hfx : I.fx ≠ 0) (hfy : I.fy ≠ 0) (p : V2 ℝ)
    (hp : |p.x - I.cx| < Real.pi * |I.fx|) (hp' : |p.y - I.cy| < Real.pi / 2 * |I.fy|)
    (normed hide : Bool) :
    ∃ ray : V3 ℝ, (getRay .equirectangular I p.num normed).Is ray ∧
      ∀ t : ℝ, 0 < t → minDepth ≤ |t * ray.z| →
        ∀ P : V3 Num, P.Is ⟨t * ray.x, t * ray.y, t * ray.z⟩ →
          (imageFromCamera .equirectangular I P hide).Is p := by
  obtain ⟨s, hs, -, -, h⟩ := getRay_exists .equirectangular hfx hfy (V2.is_num p) normed
  refine ⟨_, h, ?_⟩
  intro t ht hd P hP
  have hr : InRange .equirectangular I p := by
    constructor
    · rw [abs_div, div_lt_iff₀ (abs_pos.2 hfx)]; exact hp
    · rw [abs_div, div_lt_iff₀ (abs_pos.2 hfy)]; exact hp'
  refine imageFromCamera_ray .equirectangular hfx hfy hr (u := s * t) (by positivity) (hP.congr ?_) ?_ hide
  · ext <;> simp <;> ring
  · refine hd.trans (le_of_eq ?_)
    simp only [V3.mulS_z]; congr 1; ring

example : ∃ (I : Intr) (p : V2 ℝ), I.fx ≠ 0 ∧ I.fy ≠ 0 ∧ |p.x - I.cx| < Real.pi * |I.fx| ∧ |p.y - I.cy| < Real.pi / 2 * |I.fy| :=
  ⟨⟨100, 100, 50, 25, 100, 50⟩, ⟨50, 25⟩, by norm_num, by norm_num, by simp [Real.pi_pos], by simp [Real.pi_pos]⟩

/-- A pixel a quarter turn away from the centre. -/
noncomputable def quarterTurn (I : Intr) (y : ℝ) : V2 ℝ := ⟨I.cx + I.fx * (Real.pi / 2), y⟩

/-- The rays of these pixels are exactly sideways. -/
theorem quarterTurn_z (k : Kind) (hk : k ≠ .rectilinear) (I : Intr) (hfx : I.fx ≠ 0) (y : ℝ) :
    (rayR k I (quarterTurn I y)).z = 0 := by
  have e : I.fx * (Real.pi / 2) / I.fx = Real.pi / 2 := by field_simp
  cases k with
  | rectilinear => exact absurd rfl hk
  | cylindrical => simp [rayR, quarterTurn, e]
  | equirectangular => simp [rayR, quarterTurn, e]

theorem projCyl_zero (I : Intr) : projCyl I ⟨.fin 0, .fin 0, .fin 0⟩ = V2.nan := by
  have h0 : Num.Is (Num.sqrt ((fin 0).npow 2 + (fin 0).npow 2)) 0 := by
    have := (((is_fin 0).npow 2).add ((is_fin 0).npow 2)).sqrt (by norm_num)
    refine this.congr (by norm_num)
  have h1 : Num.Is (-(fin I.fy) * fin 0) 0 := ((is_fin I.fy).neg.mul (is_fin 0)).congr (by ring)
  unfold projCyl
  simp only [zero_div_zero h1 h0, nan_add, if_true]

/-- **C02** is violated: for every cylindrical projection and every pixel exactly a quarter turn away
from the centre, *all* points on the ray of the pixel are projected to nan. -/
theorem C02_violated (I : Intr) (hfx : I.fx ≠ 0) (hfy : I.fy ≠ 0) :
    (∀ (y : ℝ) (normed hide : Bool) (ray : V3 ℝ),
      (getRay .cylindrical I (quarterTurn I y).num normed).Is ray →
      ∀ (t : ℝ) (P : V3 Num), P.Is ⟨t * ray.x, t * ray.y, t * ray.z⟩ →
        imageFromCamera .cylindrical I P hide = V2.nan) ∧
    ¬ InvertsRays .cylindrical I := by
  have key : ∀ (y : ℝ) (normed hide : Bool) (ray : V3 ℝ),
      (getRay .cylindrical I (quarterTurn I y).num normed).Is ray →
      ∀ (t : ℝ) (P : V3 Num), P.Is ⟨t * ray.x, t * ray.y, t * ray.z⟩ →
        imageFromCamera .cylindrical I P hide = V2.nan := by
    intro y normed hide ray hray t P hP
    obtain ⟨s, hs, -, -, h⟩ := getRay_exists .cylindrical hfx hfy (V2.is_num (quarterTurn I y)) normed
    have e := hray.unique h
    have hz : ray.z = 0 := by rw [e]; simp [quarterTurn_z .cylindrical (by decide) I hfx y]
    have hs : snap P = ⟨.fin 0, .fin 0, .fin 0⟩ :=
      snap_near (q := ⟨t * ray.x, t * ray.y, t * ray.z⟩) hP.2.2 (by simp [hz])
    simp only [imageFromCamera, imageFromCameraCyl, hs]
    exact projCyl_zero I
  refine ⟨key, fun hall => ?_⟩
  obtain ⟨s, hs, -, -, h⟩ := getRay_exists .cylindrical hfx hfy (V2.is_num (quarterTurn I 0)) false
  have hP := V3.is_num (⟨1 * ((rayR .cylindrical I (quarterTurn I 0)).mulS s).x,
    1 * ((rayR .cylindrical I (quarterTurn I 0)).mulS s).y, 1 * ((rayR .cylindrical I (quarterTurn I 0)).mulS s).z⟩ : V3 ℝ)
  have hr : InRange .cylindrical I (quarterTurn I 0) := by
    show |(I.cx + I.fx * (Real.pi / 2) - I.cx) / I.fx| < Real.pi
    have e : (I.cx + I.fx * (Real.pi / 2) - I.cx) / I.fx = Real.pi / 2 := by field_simp; ring
    rw [e, abs_of_pos (by positivity)]
    linarith [Real.pi_pos]
  have h1 := hall _ hr false true _ h 1 one_pos _ hP
  rw [key _ _ true _ h 1 _ hP] at h1
  exact V2.not_is_nan _ h1

example : ∃ I : Intr, I.fx ≠ 0 ∧ I.fy ≠ 0 := ⟨⟨100, 100, 50, 25, 100, 50⟩, by norm_num, by norm_num⟩

theorem projEqui_zero (I : Intr) :
    (projEqui I ⟨.fin 0, .fin 0, .fin 0⟩).Is ⟨I.cx + I.fx * Real.pi, I.cy⟩ := by
  have hn : (-(fin 0) : Num) = nzero := by show Num.neg (fin 0) = _; simp [Num.neg]
  have h1 : Num.Is (arctan2 (-(fin 0)) (-(fin 0))) (-Real.pi) := by
    rw [hn]; unfold arctan2
    simp [IsInf, IsZero, Num.Is, signbit, sgn]
  have h0 : Num.sqrt ((fin 0).npow 2 + (fin 0).npow 2) = fin 0 := by
    have e : (fin 0).npow 2 = fin 0 := by
      show Num.mul (Num.mul (fin 1) (fin 0)) (fin 0) = _
      have e1 : Num.mul (fin 1) (fin 0) = fin 0 := by
        simp [Num.mul, IsInf, signed, signbit, rv, Xor, not_lt.2 (zero_le_one (α := ℝ))]
      rw [e1]
      simp [Num.mul, IsInf, signed, signbit, rv, Xor]
    rw [e]
    show Num.sqrt (Num.add (fin 0) (fin 0)) = _
    simp [Num.add, rv, Num.sqrt]
  have h2 : Num.Is (arctan2 (fin 0) (fin 0)) 0 := by
    unfold arctan2
    simp [IsInf, IsZero, signbit, is_signed]
  unfold projEqui
  simp only [h0]
  exact ⟨(((is_fin I.fx).neg.mul h1).add (is_fin I.cx)).congr (by ring),
    (((is_fin I.fy).neg.mul h2).add (is_fin I.cy)).congr (by ring)⟩

/-- **C03** is violated: for every equirectangular projection and every pixel exactly a quarter turn away
from the centre, *all* points on the ray of the pixel are projected to one and the same pixel, which is a
half turn away from the centre. -/
theorem C03_violated (I : Intr) (hfx : I.fx ≠ 0) (hfy : I.fy ≠ 0) :
    (∀ (y : ℝ) (normed hide : Bool) (ray : V3 ℝ),
      (getRay .equirectangular I (quarterTurn I y).num normed).Is ray →
      ∀ (t : ℝ) (P : V3 Num), P.Is ⟨t * ray.x, t * ray.y, t * ray.z⟩ →
        (imageFromCamera .equirectangular I P hide).Is ⟨I.cx + I.fx * Real.pi, I.cy⟩) ∧
    ¬ InvertsRays .equirectangular I := by
  have key : ∀ (y : ℝ) (normed hide : Bool) (ray : V3 ℝ),
      (getRay .equirectangular I (quarterTurn I y).num normed).Is ray →
      ∀ (t : ℝ) (P : V3 Num), P.Is ⟨t * ray.x, t * ray.y, t * ray.z⟩ →
        (imageFromCamera .equirectangular I P hide).Is ⟨I.cx + I.fx * Real.pi, I.cy⟩ := by
    intro y normed hide ray hray t P hP
    obtain ⟨s, hs, -, -, h⟩ := getRay_exists .equirectangular hfx hfy (V2.is_num (quarterTurn I y)) normed
    have e := hray.unique h
    have hz : ray.z = 0 := by rw [e]; simp [quarterTurn_z .equirectangular (by decide) I hfx y]
    have hs : snap P = ⟨.fin 0, .fin 0, .fin 0⟩ :=
      snap_near (q := ⟨t * ray.x, t * ray.y, t * ray.z⟩) hP.2.2 (by simp [hz])
    simp only [imageFromCamera, imageFromCameraEqui, hs]
    exact projEqui_zero I
  refine ⟨key, fun hall => ?_⟩
  obtain ⟨s, hs, -, -, h⟩ := getRay_exists .equirectangular hfx hfy (V2.is_num (quarterTurn I I.cy)) false
  have hP := V3.is_num (⟨1 * ((rayR .equirectangular I (quarterTurn I I.cy)).mulS s).x,
    1 * ((rayR .equirectangular I (quarterTurn I I.cy)).mulS s).y,
    1 * ((rayR .equirectangular I (quarterTurn I I.cy)).mulS s).z⟩ : V3 ℝ)
  have hr : InRange .equirectangular I (quarterTurn I I.cy) := by
    constructor
    · have e : (I.cx + I.fx * (Real.pi / 2) - I.cx) / I.fx = Real.pi / 2 := by field_simp; ring
      show |(I.cx + I.fx * (Real.pi / 2) - I.cx) / I.fx| < Real.pi
      rw [e, abs_of_pos (by positivity)]
      linarith [Real.pi_pos]
    · simp [quarterTurn, Real.pi_pos]
  have h1 := hall _ hr false true _ h 1 one_pos _ hP
  have h2 := key _ _ true _ h 1 _ hP
  have h3 := congrArg V2.x (h1.unique h2)
  simp only [quarterTurn] at h3
  have h4 : I.fx * (Real.pi / 2) = 0 := by linarith
  rcases mul_eq_zero.1 h4 with h5 | h5
  · exact hfx h5
  · linarith [Real.pi_pos]

example : ∃ I : Intr, I.fx ≠ 0 ∧ I.fy ≠ 0 := ⟨⟨100, 100, 50, 25, 100, 50⟩, by norm_num, by norm_num⟩

/-- **C04** `RectilinearProjection.imageFromCamera` hides exactly the points behind the camera and the
points within 1e-10 of the camera plane; the other points get a finite pixel. -/
theorem C04_rectilinear_hides_backpoints (I : Intr) (P : V3 ℝ) (hide : Bool) :
    (imageFromCamera .rectilinear I P.num hide = V2.nan ↔
      (hide = true ∧ 0 < P.z) ∨ |P.z| < minDepth) ∧
    (¬ ((hide = true ∧ 0 < P.z) ∨ |P.z| < minDepth) →
      ∃ p, (imageFromCamera .rectilinear I P.num hide).Is p) := by
  have hsnap : |P.z| < minDepth → imageFromCamera .rectilinear I P.num hide = V2.nan := by
    intro h
    have hs : snap P.num = ⟨.fin 0, .fin 0, .fin 0⟩ := snap_near (q := P) (is_fin _) h
    simp only [imageFromCamera, imageFromCameraRect, hs]
    have h1 : Num.Is (-(fin 0) * fin I.fx) 0 := ((is_fin 0).neg.mul (is_fin I.fx)).congr (by ring)
    have h2 : Num.Is (fin 0 * fin I.fy) 0 := ((is_fin 0).mul (is_fin I.fy)).congr (by ring)
    unfold projRect
    simp only [zero_div_zero h1 (is_fin 0), zero_div_zero h2 (is_fin 0), nan_add]
    split_ifs <;> rfl
  have hfin : ¬ ((hide = true ∧ 0 < P.z) ∨ |P.z| < minDepth) →
      ∃ p, (imageFromCamera .rectilinear I P.num hide).Is p := by
    intro h
    push Not at h
    have hz0 : P.z ≠ 0 := by
      intro h0
      have h2 := h.2
      rw [h0] at h2; simp only [minDepth, abs_zero] at h2; norm_num at h2
    have hs := snap_far (V3.is_num P) h.2
    simp only [imageFromCamera, imageFromCameraRect, hs]
    exact ⟨_, projRect_is (V3.is_num P) hz0 hide (fun hh => lt_of_le_of_ne (h.1 hh) hz0)⟩
  refine ⟨⟨?_, ?_⟩, hfin⟩
  · intro h
    by_contra hcon
    obtain ⟨p, hp⟩ := hfin hcon
    rw [h] at hp
    exact V2.not_is_nan _ hp
  · intro h
    by_cases hsn : |P.z| < minDepth
    · exact hsnap hsn
    · rcases h with ⟨h1, h2⟩ | h
      · have hs := snap_far (V3.is_num P) (not_lt.1 hsn)
        simp only [imageFromCamera, imageFromCameraRect, hs, projRect]
        rw [if_pos]
        exact ⟨h1, ((is_fin 0).lt_iff (is_fin P.z)).2 h2⟩
      · exact hsnap h

example : imageFromCamera .rectilinear ⟨100, 100, 50, 25, 100, 50⟩ (V3.num ⟨1, 2, 3⟩) true = V2.nan :=
  ((C04_rectilinear_hides_backpoints _ _ _).1).2 (Or.inl ⟨rfl, by norm_num⟩)

/-- **C05** The ray of the pixel of a point is a positive multiple of the point: for rectilinear
projections for all points in front of the camera, for panoramas for all points off the camera plane. -/
theorem C05_ray_through_projected_point (k : Kind) (I : Intr) (hfx : I.fx ≠ 0) (hfy : I.fy ≠ 0) (P : V3 ℝ)
    (hz : minDepth ≤ |P.z|) (hf : k = .rectilinear → P.z < 0) (normed hide : Bool) :
    ∃ ray : V3 ℝ, (getRay k I (imageFromCamera k I P.num hide) normed).Is ray ∧ Geo.PosMul ray P := by
  obtain ⟨p, hp, u, hu, e⟩ := imageFromCamera_exists k hfx hfy (V3.is_num P) hz hide hf
  obtain ⟨s, hs, -, -, h⟩ := getRay_exists k hfx hfy hp normed
  refine ⟨_, h, s / u, by positivity, ?_, ?_, ?_⟩ <;> rw [e] <;> simp <;> field_simp

example : ∃ ray : V3 ℝ, (getRay .equirectangular ⟨100, 100, 50, 25, 100, 50⟩
    (imageFromCamera .equirectangular ⟨100, 100, 50, 25, 100, 50⟩ (V3.num ⟨-1, 2, 3⟩))).Is ray ∧
    Geo.PosMul ray ⟨-1, 2, 3⟩ :=
  C05_ray_through_projected_point .equirectangular ⟨100, 100, 50, 25, 100, 50⟩ (by norm_num) (by norm_num)
    ⟨-1, 2, 3⟩ (by simp [minDepth]; norm_num) (by simp) false true
