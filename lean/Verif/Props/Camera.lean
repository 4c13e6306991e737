import Verif.Props.Spatial
import Verif.Spec.Camera

/-! # Properties of the camera conversions (C06-C10, C14, C18, C19) -/

open Classical Num Camera

/-! ### auxiliary -/

theorem Camera.camR_of_is (c : Cam) {P Q : V3 ℝ} (h : (Spatial.cameraFromSpace c.orient.mat P.num).Is Q) :
    Q = camR c P := h.unique (cameraFromSpace_is c (V3.is_num P))

theorem Camera.spaceFromImage_coord (c : Cam) (n : V2 Num) (i : Fin 3) (v : Num) :
    spaceFromImage c n (coord i v) =
      .ok (pointAt (getRay c n).1 (getRay c n).2 ((v - (getRay c n).1.get i) / (getRay c n).2.get i)) := by
  fin_cases i <;> rfl

theorem Camera.getRay_real (c : Cam) (hc : c.Proper) {n : V2 Num} {p : V2 ℝ}
    (hp : (c.lens.imageFromDistorted n).Is p) : (getRay c n).2.Is (dirR c p) := by
  obtain ⟨s, -, h1, -, h2⟩ := getRay_dir c hc.1 hc.2 hp false
  refine h2.congr ?_
  rw [h1 rfl]; ext <;> simp

/-- A point on the ray of a pixel is projected to the pixel. -/
theorem Camera.image_of_ray_point (c : Cam) (hc : c.Proper) {p : V2 ℝ}
    (hp : Projection.InRange c.kind c.intr p) {P : V3 Num} {Q : V3 ℝ} (hP : P.Is Q) {f : ℝ} (hf : 0 ≤ f)
    (e : Q = (dirR c p).mulS f + c.orient.pos) (hd : Deep c Q) (hide : Bool) :
    (Projection.imageFromCamera c.kind c.intr (Spatial.cameraFromSpace c.orient.mat P) hide).Is p := by
  obtain ⟨C, hC, hz⟩ := hd
  have hC' := camR_of_is c hC
  rw [e, camR_on_ray] at hC'
  subst hC'
  have hf' : 0 < f := by
    rcases hf.lt_or_eq with h | h
    · exact h
    · rw [← h] at hz; simp [Projection.minDepth] at hz; norm_num at hz
  have h1 := cameraFromSpace_is c hP
  rw [e, camR_on_ray] at h1
  exact Projection.imageFromCamera_ray c.kind hc.1 hc.2 hp hf' h1 hz hide

/-- `spaceFromImage` of the pixel of a visible point, for a lens that is exact at the pixel. -/
theorem Camera.space_of_image (c : Cam) (hc : c.Proper) {P : V3 ℝ} {n : V3 Num} (hn : n.Is P) (hv : Visible c P)
    (hide : Bool) :
    ∃ p : V2 ℝ, (Projection.imageFromCamera c.kind c.intr (Spatial.cameraFromSpace c.orient.mat n) hide).Is p ∧
      (c.lens.ExactAt p → ∃ u : ℝ, 0 < u ∧ P = (dirR c p).mulS u + c.orient.pos ∧
        (getRay c (imageFromSpace c n hide)).2.Is (dirR c p)) := by
  obtain ⟨Q, hQ, hz, hf⟩ := hv
  have hQ' := camR_of_is c hQ
  have h0 := cameraFromSpace_is c hn
  rw [← hQ'] at h0
  obtain ⟨p, h1, u, hu, e⟩ := Projection.imageFromCamera_exists c.kind hc.1 hc.2 h0 hz hide hf
  refine ⟨p, h1, fun hL => ⟨u, hu, space_on_ray c P (hQ' ▸ e), ?_⟩⟩
  exact getRay_real c hc (hL _ h1)

theorem Camera.factor_is {o d : V3 Num} {O D P : V3 ℝ} {u : ℝ} (ho : o.Is O) (hd : d.Is D)
    (e : P = D.mulS u + O) (i : Fin 3) (hne : P.get i ≠ O.get i) {v : Num} (hv : Num.Is v (P.get i)) :
    Num.Is ((v - o.get i) / d.get i) u := by
  have hdi : D.get i ≠ 0 := by
    intro h0
    apply hne
    rw [e]
    fin_cases i <;> simp_all [V3.get]
  have h1 := (hv.sub (ho.get i)).div (hd.get i) hdi
  refine h1.congr ?_
  rw [div_eq_iff hdi, e]
  fin_cases i <;> simp [V3.get] <;> ring

/-! ### C06, C07 -/

/-- **C06**, for a camera with any lens: `q` is the undistorted position of the pixel `p`, and distorting
`q` gives `p` again. -/
theorem C06_image_space_image_lens (c : Cam) (hc : c.Proper) (p q : V2 ℝ) (n : V2 Num)
    (hq : Projection.InRange c.kind c.intr q) (hu : (c.lens.imageFromDistorted n).Is q)
    (hL : ∀ m : V2 Num, m.Is q → (c.lens.distortedFromImage m).Is p)
    (k : Constraint) (hk : k.mesh = none) (P : V3 Num) (h : spaceFromImage c n k = .ok P)
    (Q : V3 ℝ) (hP : P.Is Q) (hd : Deep c Q) (hide : Bool) :
    (imageFromSpace c P hide).Is p := by
  apply hL
  obtain ⟨s, hs, -, -, hdir⟩ := getRay_dir c hc.1 hc.2 hu true
  have hdir0 := getRay_real c hc hu
  unfold spaceFromImage at h
  rw [hk] at h
  simp only at h
  cases hD : k.D with
  | some d =>
    rw [hD] at h
    simp only [Except.ok.injEq] at h
    subst h
    obtain ⟨r, -, hr, h3⟩ := pointAt_finite hdir (getRay_offset c n true) hP.finite
    have e := hP.unique h3
    refine image_of_ray_point c hc hq hP (f := s * r) (by positivity) ?_ hd hide
    rw [e]; ext <;> simp <;> ring
  | none =>
    rw [hD] at h
    simp only at h
    cases hg : k.given with
    | none => rw [hg] at h; simp at h
    | some iv =>
      obtain ⟨i, v⟩ := iv
      rw [hg] at h
      simp only [Except.ok.injEq] at h
      subst h
      obtain ⟨r, -, hr, h3⟩ := pointAt_finite hdir0 (getRay_offset c n false) hP.finite
      exact image_of_ray_point c hc hq hP hr (hP.unique h3) hd hide

/-- **C06** Image to space to image is the identity, for cameras without distortion and all constraints
X, Y, Z and D. -/
theorem C06_image_space_image (c : Cam) (hc : c.Proper) (hl : c.lens = noDistortion) (p : V2 ℝ)
    (hp : Projection.InRange c.kind c.intr p) (k : Constraint) (hk : k.mesh = none) (P : V3 Num)
    (h : spaceFromImage c p.num k = .ok P) (Q : V3 ℝ) (hP : P.Is Q) (hd : Deep c Q) (hide : Bool) :
    (imageFromSpace c P hide).Is p :=
  C06_image_space_image_lens c hc p p p.num hp (by rw [hl]; exact V2.is_num p) (by rw [hl]; exact fun _ h => h)
    k hk P h Q hP hd hide

theorem Camera.exactFor_none {c : Cam} (hl : c.lens = noDistortion) (P : V3 ℝ) (hide : Bool) : ExactFor c P hide :=
  fun p _ => by rw [hl]; exact fun _ h => h

/-- **C07**, for a camera with a lens that is exact at the (undistorted) pixel of the point. -/
theorem C07_space_image_space_lens (c : Cam) (hc : c.Proper) (P : V3 ℝ) (n : V3 Num) (hn : n.Is P)
    (hv : Visible c P) (i : Fin 3) (hi : P.get i ≠ c.orient.pos.get i) (hide : Bool)
    (hL : ∀ p : V2 ℝ, (Projection.imageFromCamera c.kind c.intr (Spatial.cameraFromSpace c.orient.mat n) hide).Is p →
      c.lens.ExactAt p) (v : Num) (hv' : Num.Is v (P.get i)) :
    ∃ Q : V3 Num, spaceFromImage c (imageFromSpace c n hide) (coord i v) = .ok Q ∧ Q.Is P := by
  obtain ⟨p, h1, h2⟩ := space_of_image c hc hn hv hide
  obtain ⟨u, hu, e, hd⟩ := h2 (hL p h1)
  refine ⟨_, spaceFromImage_coord c _ i _, ?_⟩
  have ho := getRay_offset c (imageFromSpace c n hide) false
  have hf := factor_is ho hd e i hi hv'
  exact (pointAt_is hd ho hf hu.le).congr e.symm

/-- **C07** Space to image to space is the identity, for cameras without distortion, for each of the
three constraints. -/
theorem C07_space_image_space (c : Cam) (hc : c.Proper) (hl : c.lens = noDistortion) (P : V3 ℝ)
    (hv : Visible c P) (i : Fin 3) (hi : P.get i ≠ c.orient.pos.get i) (hide : Bool) :
    ∃ Q : V3 Num, spaceFromImage c (imageFromSpace c P.num hide) (coord i (fin (P.get i))) = .ok Q ∧ Q.Is P :=
  C07_space_image_space_lens c hc P P.num (V3.is_num P) hv i hi hide
    (fun p _ => by rw [hl]; exact fun _ h => h) _ rfl

/-- A camera 10 m above the ground looking straight down; used to show that hypotheses can be met. -/
noncomputable def Camera.exampleCam : Cam :=
  ⟨.rectilinear, ⟨100, 100, 50, 25, 100, 50⟩, .thr ⟨10, 0, 0, 0, 0, 0⟩, noDistortion⟩

theorem Camera.exampleCam_camR (P : V3 ℝ) : camR exampleCam P = ⟨P.x, P.y, P.z - 10⟩ := by
  have hw : Spatial.wrap360 0 = 0 := by simp [Spatial.wrap360]
  have hr : Spatial.rad 0 = 0 := by simp [Spatial.rad]
  ext <;> simp [camR, exampleCam, Orient.mat, Orient.pos, Spatial.initCameraMatrix, Spatial.matrices, hw, hr,
    M3.applyR, V3.dot, Spatial.rotation, M3.mul, M3.rowMul, M3.T, Spatial.R_roll, Spatial.R_tilt, Spatial.R_head]

theorem Camera.exampleCam_visible (P : V3 ℝ) (h : P.z ≤ 9) : Visible exampleCam P := by
  have h0 := cameraFromSpace_is exampleCam (V3.is_num P)
  rw [exampleCam_camR] at h0
  refine ⟨_, h0, ?_, fun _ => ?_⟩
  · rw [abs_of_neg (by show P.z - 10 < 0; linarith)]
    simp only [Projection.minDepth]; norm_num; linarith
  · show P.z - 10 < 0; linarith

theorem Camera.exampleCam_proper : exampleCam.Proper := by
  constructor <;> simp [exampleCam]

example : ∃ Q : V3 Num, spaceFromImage exampleCam (imageFromSpace exampleCam (V3.num ⟨1, 2, 3⟩))
    (coord 2 (fin 3)) = .ok Q ∧ Q.Is ⟨1, 2, 3⟩ :=
  C07_space_image_space exampleCam exampleCam_proper rfl ⟨1, 2, 3⟩
    (exampleCam_visible _ (by norm_num)) 2 (by simp [exampleCam, Orient.pos, V3.get]) true

/-- The hypotheses of C06, for the pixel of the point (1, 2, 3). -/
example : ∃ (p : V2 ℝ) (P : V3 Num) (Q : V3 ℝ), Projection.InRange exampleCam.kind exampleCam.intr p ∧
    spaceFromImage exampleCam p.num (coord 2 (fin 3)) = .ok P ∧ P.Is Q ∧ Deep exampleCam Q := by
  obtain ⟨q, h1, h2⟩ := space_of_image exampleCam exampleCam_proper (V3.is_num ⟨1, 2, 3⟩) (exampleCam_visible _ (by norm_num)) true
  obtain ⟨u, hu, e, -⟩ := h2 fun _ h => h
  have hd := getRay_real exampleCam exampleCam_proper (p := q) (n := q.num) (V2.is_num q)
  have ho := getRay_offset exampleCam q.num false
  have hf := factor_is ho hd e 2 (by simp [exampleCam, Orient.pos, V3.get]) (is_fin 3)
  refine ⟨q, _, _, trivial, spaceFromImage_coord _ _ 2 _, pointAt_is hd ho hf hu.le, ?_⟩
  rw [← e]
  obtain ⟨R, hR, h, -⟩ := exampleCam_visible ⟨1, 2, 3⟩ (by norm_num)
  exact ⟨R, hR, h⟩

/-- A lens that moves the image by one pixel is exact everywhere. -/
example : ∃ L : Lens, L ≠ noDistortion ∧ ∀ p : V2 ℝ, L.ExactAt p := by
  refine ⟨⟨fun p => ⟨p.x - fin 1, p.y⟩, fun p => ⟨p.x + fin 1, p.y⟩⟩, fun h => ?_, fun p n hn => ⟨?_, hn.2⟩⟩
  · have := congrFun (congrArg Lens.imageFromDistorted h) ⟨fin 1, fin 0⟩
    have h2 := congrArg V2.x this
    have h3 : ((fin 1 : Num) - fin 1).Is 1 := by rw [show (fin 1 : Num) - fin 1 = fin 1 from h2]; exact is_fin 1
    have := h3.unique ((is_fin 1).sub (is_fin 1))
    norm_num at this
  · exact ((hn.1.add (is_fin 1)).sub (is_fin 1)).congr (by ring)

/-! ### C08, C09, C10 -/

/-- **C10** `getRay`: the origin is the camera position; the normed direction has length one and is a
positive multiple of the un-normed direction. -/
theorem C10_ray_origin_and_length (c : Cam) (hc : c.Proper) (n : V2 Num) (p : V2 ℝ)
    (hp : (c.lens.imageFromDistorted n).Is p) :
    (getRay c n false).1.Is c.orient.pos ∧ (getRay c n true).1.Is c.orient.pos ∧
    ∃ d e : V3 ℝ, (getRay c n false).2.Is d ∧ (getRay c n true).2.Is e ∧ e.norm = 1 ∧ Geo.PosMul e d := by
  refine ⟨getRay_offset c n false, getRay_offset c n true, dirR c p, ?_⟩
  obtain ⟨s, hs, -, h1, h2⟩ := getRay_dir c hc.1 hc.2 hp true
  refine ⟨_, getRay_real c hc hp, h2, ?_, s, hs, ?_, ?_, ?_⟩
  · have hn := dirR_norm_pos c p
    unfold V3.norm
    rw [Real.sqrt_eq_one]
    have : (dirR c p).normSq = (dirR c p).norm ^ 2 := by
      unfold V3.norm; rw [Real.sq_sqrt (V3.normSq_nonneg _)]
    have e : ((dirR c p).mulS s).normSq = (dirR c p).normSq * s ^ 2 := by
      simp [V3.normSq]; ring
    rw [e, this, h1 rfl]; field_simp
  all_goals simp; ring

/-- **C08** `spaceFromImage` with one of the constraints X, Y, Z: a finite result has the requested
coordinate and lies on the ray of the pixel in front of the camera; if the plane is behind the camera the
result is nan; if the ray is parallel to the plane the result is not finite; in all other cases it is
finite. -/
theorem C08_constraint_or_nan (c : Cam) (hc : c.Proper) (n : V2 Num) (p : V2 ℝ)
    (hp : (c.lens.imageFromDistorted n).Is p) (i : Fin 3) (v : ℝ) :
    ∃ (P : V3 Num) (d : V3 ℝ), spaceFromImage c n (coord i (fin v)) = .ok P ∧ (getRay c n).2.Is d ∧
      (P.Finite → ∃ Q : V3 ℝ, P.Is Q ∧ Q.get i = v ∧ Geo.OnRay c.orient.pos d Q) ∧
      ((v - c.orient.pos.get i) / d.get i < 0 → P = V3.nan) ∧
      (d.get i = 0 → ¬ P.Finite) ∧
      (d.get i ≠ 0 → 0 ≤ (v - c.orient.pos.get i) / d.get i → P.Finite) := by
  have hd := getRay_real c hc hp
  have ho := getRay_offset c n false
  refine ⟨_, dirR c p, spaceFromImage_coord c n i _, hd, ?_, ?_, ?_, ?_⟩
  · intro hfin
    obtain ⟨r, h1, h2, h3⟩ := pointAt_finite hd ho hfin
    refine ⟨_, h3, ?_, r, h2, ?_, ?_, ?_⟩
    · by_cases h0 : (dirR c p).get i = 0
      · exfalso
        have hx := (is_fin v).sub (ho.get i)
        have hy := h0 ▸ (hd.get i)
        by_cases hv : v - c.orient.pos.get i = 0
        · rw [zero_div_zero (hv ▸ hx) hy] at h1; exact h1
        · exact h1.not_inf (div_zero_inf hx hv hy)
      · have := ((is_fin v).sub (ho.get i)).div (hd.get i) h0
        have e := h1.unique this
        rw [eq_div_iff h0] at e
        fin_cases i <;> simp [V3.get] at e ⊢ <;> linarith
    all_goals simp; ring
  · intro hneg
    have h0 : (dirR c p).get i ≠ 0 := by intro h0; rw [h0, div_zero] at hneg; exact lt_irrefl _ hneg
    exact pointAt_neg (((is_fin v).sub (ho.get i)).div (hd.get i) h0) hneg
  · intro h0 hfin
    obtain ⟨r, h1, -, -⟩ := pointAt_finite hd ho hfin
    have hx := (is_fin v).sub (ho.get i)
    have hy := h0 ▸ (hd.get i)
    by_cases hv : v - c.orient.pos.get i = 0
    · rw [zero_div_zero (hv ▸ hx) hy] at h1; exact h1
    · exact h1.not_inf (div_zero_inf hx hv hy)
  · intro h0 h
    exact (pointAt_is hd ho (((is_fin v).sub (ho.get i)).div (hd.get i) h0) h).finite

/-- If several constraints are given, X wins over Y and Y over Z; D wins over all of them; without any the
function raises an UnboundLocalError. -/
theorem C08_priority (c : Cam) (n : V2 Num) (v d : Num) (Y Z : Option Num) (K : Constraint)
    (hK : K.mesh = none) :
    spaceFromImage c n { X := some v, Y := Y, Z := Z } = spaceFromImage c n (coord 0 v) ∧
    spaceFromImage c n { Y := some v, Z := Z } = spaceFromImage c n (coord 1 v) ∧
    spaceFromImage c n { K with D := some d } = spaceFromImage c n { D := some d } ∧
    spaceFromImage c n { Z := none } = .error .unboundLocal := by
  refine ⟨rfl, rfl, ?_, rfl⟩
  simp [spaceFromImage, hK]

/-- **C09** `spaceFromImage` with D: the point of the ray at exactly that distance from the camera, nan
for a negative distance. -/
theorem C09_distance (c : Cam) (hc : c.Proper) (n : V2 Num) (p : V2 ℝ)
    (hp : (c.lens.imageFromDistorted n).Is p) (d : ℝ) :
    ∃ (P : V3 Num) (dir : V3 ℝ), spaceFromImage c n { D := some (fin d) } = .ok P ∧ (getRay c n).2.Is dir ∧
      (0 ≤ d → ∃ Q : V3 ℝ, P.Is Q ∧ V3.dist Q c.orient.pos = d ∧ Geo.OnRay c.orient.pos dir Q) ∧
      (d < 0 → P = V3.nan) := by
  obtain ⟨h1, h2, dir, e, h3, h4, h5, u, hu, hx, hy, hz⟩ := C10_ray_origin_and_length c hc n p hp
  refine ⟨_, dir, rfl, h3, ?_, ?_⟩
  · intro hd
    refine ⟨_, pointAt_is h4 h2 (is_fin d) hd, ?_, d * u, by positivity, ?_, ?_, ?_⟩
    · have : e.mulS d + c.orient.pos - c.orient.pos = e.mulS d := by ext <;> simp
      unfold V3.dist
      rw [this]
      unfold V3.norm at h5 ⊢
      have e2 : (e.mulS d).normSq = e.normSq * d ^ 2 := by simp [V3.normSq]; ring
      rw [e2, Real.sqrt_mul (V3.normSq_nonneg _), h5, Real.sqrt_sq hd, one_mul]
    · simp [hx]; ring
    · simp [hy]; ring
    · simp [hz]; ring
  · intro hd
    exact pointAt_neg (is_fin d) hd

example : ∃ (p : V2 ℝ), (exampleCam.lens.imageFromDistorted (V2.num ⟨3, 4⟩)).Is p := ⟨⟨3, 4⟩, V2.is_num _⟩

/-! ### C14 -/

theorem Projection.arg_scale {s a b : ℝ} (hs : 0 < s) :
    Complex.arg ⟨s * a, s * b⟩ = Complex.arg ⟨a, b⟩ := by
  have : (⟨s * a, s * b⟩ : ℂ) = (s : ℂ) * ⟨a, b⟩ := by
    apply Complex.ext <;> simp
  rw [this, Complex.arg_real_mul _ hs]

/-- Points on the same half line from the camera have the same image. -/
theorem Projection.imageFromCamera_same (k : Kind) (I : Intr) {q q' : V3 Num} {Q : V3 ℝ} {s : ℝ} (hs : 0 < s)
    (h : q.Is Q) (h' : q'.Is (Q.mulS s))
    (hd : (|Q.z| < minDepth ∧ s = 1) ∨ (minDepth ≤ |Q.z| ∧ minDepth ≤ |(Q.mulS s).z|))
    (hseam : k = .rectilinear ∨ ¬ (Q.x = 0 ∧ 0 < Q.z)) (hide : Bool) :
    V2.Same (imageFromCamera k I q hide) (imageFromCamera k I q' hide) := by
  rcases hd with ⟨hz, rfl⟩ | ⟨hz, hz'⟩
  · have e1 := snap_near h.2.2 hz
    have e2 : snap q' = ⟨.fin 0, .fin 0, .fin 0⟩ := snap_near h'.2.2 (by simpa [minDepth] using hz)
    cases k with
    | rectilinear =>
      left
      simp only [imageFromCamera, imageFromCameraRect, e1, e2, and_self]
      have h1 : Num.Is (-(fin 0) * fin I.fx) 0 := ((is_fin 0).neg.mul (is_fin I.fx)).congr (by ring)
      have h2 : Num.Is (fin 0 * fin I.fy) 0 := ((is_fin 0).mul (is_fin I.fy)).congr (by ring)
      unfold projRect
      simp only [zero_div_zero h1 (is_fin 0), zero_div_zero h2 (is_fin 0), nan_add]
      split_ifs <;> rfl
    | cylindrical =>
      left
      simp only [imageFromCamera, imageFromCameraCyl, e1, e2, and_self]
      have h0 : Num.Is (Num.sqrt ((fin 0).npow 2 + (fin 0).npow 2)) 0 := by
        have := (((is_fin 0).npow 2).add ((is_fin 0).npow 2)).sqrt (by norm_num)
        exact this.congr (by norm_num)
      have h1 : Num.Is (-(fin I.fy) * fin 0) 0 := ((is_fin I.fy).neg.mul (is_fin 0)).congr (by ring)
      unfold projCyl
      simp only [zero_div_zero h1 h0, nan_add, if_true]
    | equirectangular =>
      right
      simp only [imageFromCamera, imageFromCameraEqui, e1, e2, and_self]
      unfold projEqui
      obtain ⟨a, ha⟩ := Is.arctan2_finite ((is_fin 0).neg) ((is_fin 0).neg)
      have h0 : Num.Is (Num.sqrt ((fin 0).npow 2 + (fin 0).npow 2)) 0 := by
        have := (((is_fin 0).npow 2).add ((is_fin 0).npow 2)).sqrt (by norm_num)
        exact this.congr (by norm_num)
      obtain ⟨b, hb⟩ := Is.arctan2_finite (is_fin 0) h0
      exact ⟨⟨_, _⟩, ((is_fin I.fx).neg.mul ha).add (is_fin I.cx), ((is_fin I.fy).neg.mul hb).add (is_fin I.cy)⟩
  · have e1 := snap_far h hz
    have e2 := snap_far h' hz'
    have hz0 : Q.z ≠ 0 := by
      intro h; rw [h] at hz; simp [minDepth] at hz; norm_num at hz
    cases k with
    | rectilinear =>
      simp only [imageFromCamera, imageFromCameraRect, e1, e2]
      by_cases hh : hide = true ∧ 0 < Q.z
      · left
        unfold projRect
        rw [if_pos ⟨hh.1, ((is_fin 0).lt_iff h.2.2).2 hh.2⟩,
          if_pos ⟨hh.1, ((is_fin 0).lt_iff h'.2.2).2 (by simp; exact mul_pos hh.2 hs)⟩]
        exact ⟨rfl, rfl⟩
      · right
        push Not at hh
        have hlt : hide = true → Q.z < 0 := fun t => lt_of_le_of_ne (hh t) hz0
        refine ⟨_, projRect_is (I := I) h hz0 hide hlt, ?_⟩
        have := projRect_is (I := I) h' (by simp [hz0, hs.ne']) hide
          (fun t => by simp; exact mul_neg_of_neg_of_pos (hlt t) hs)
        refine this.congr ?_
        ext <;> simp <;> field_simp
    | cylindrical =>
      right
      simp only [imageFromCamera, imageFromCameraCyl, e1, e2]
      have hns : ¬ (Q.x = 0 ∧ 0 < Q.z) := by rcases hseam with h | h; · simp at h
                                             · exact h
      have hb : -Q.x ≠ 0 ∨ 0 < -Q.z := by
        by_contra hcon
        push Not at hcon
        exact hns ⟨by linarith [hcon.1], lt_of_le_of_ne (by linarith [hcon.2]) (Ne.symm hz0)⟩
      obtain ⟨hx, hy, hzz⟩ := h
      obtain ⟨hx', hy', hzz'⟩ := h'
      have hpos : 0 < Q.x ^ 2 + Q.z ^ 2 := by
        have : 0 < Q.z ^ 2 := by positivity
        nlinarith [sq_nonneg Q.x]
      have hr : 0 < Real.sqrt (Q.x ^ 2 + Q.z ^ 2) := Real.sqrt_pos.2 hpos
      have a1 := hx.neg.arctan2 hzz.neg hb
      have a2 := hx'.neg.arctan2 hzz'.neg (by
        simp only [V3.mulS_x, V3.mulS_z]
        rcases hb with h | h
        · left; intro h0; apply h; have := mul_eq_zero.1 (neg_eq_zero.1 h0); simp [hs.ne'] at this; simp [this]
        · right; nlinarith)
      have ea : Complex.arg ⟨-(Q.mulS s).z, -(Q.mulS s).x⟩ = Complex.arg ⟨-Q.z, -Q.x⟩ := by
        rw [← arg_scale (a := -Q.z) (b := -Q.x) hs]; congr 2 <;> simp <;> ring
      rw [ea] at a2
      have s1 := ((hx.npow 2).add (hzz.npow 2)).sqrt hpos.le
      have s2 := ((hx'.npow 2).add (hzz'.npow 2)).sqrt (by positivity)
      have es : Real.sqrt ((Q.mulS s).x ^ 2 + (Q.mulS s).z ^ 2) = s * Real.sqrt (Q.x ^ 2 + Q.z ^ 2) := by
        rw [show (Q.mulS s).x ^ 2 + (Q.mulS s).z ^ 2 = s ^ 2 * (Q.x ^ 2 + Q.z ^ 2) by simp; ring,
          Real.sqrt_mul (by positivity), Real.sqrt_sq hs.le]
      rw [es] at s2
      have y1 := (((is_fin I.fy).neg.mul hy).div s1 hr.ne').add (is_fin I.cy)
      have y2 := (((is_fin I.fy).neg.mul hy').div s2 (mul_pos hs hr).ne').add (is_fin I.cy)
      refine ⟨⟨-I.fx * Complex.arg ⟨-Q.z, -Q.x⟩ + I.cx, -I.fy * Q.y / Real.sqrt (Q.x ^ 2 + Q.z ^ 2) + I.cy⟩, ?_, ?_⟩
      · unfold projCyl
        simp only
        rw [if_neg y1.ne_nan]
        exact ⟨((is_fin I.fx).neg.mul a1).add (is_fin I.cx), y1⟩
      · unfold projCyl
        simp only
        rw [if_neg y2.ne_nan]
        refine ⟨((is_fin I.fx).neg.mul a2).add (is_fin I.cx), y2.congr ?_⟩
        simp; field_simp
    | equirectangular =>
      right
      simp only [imageFromCamera, imageFromCameraEqui, e1, e2]
      have hns : ¬ (Q.x = 0 ∧ 0 < Q.z) := by rcases hseam with h | h; · simp at h
                                             · exact h
      have hb : -Q.x ≠ 0 ∨ 0 < -Q.z := by
        by_contra hcon
        push Not at hcon
        exact hns ⟨by linarith [hcon.1], lt_of_le_of_ne (by linarith [hcon.2]) (Ne.symm hz0)⟩
      obtain ⟨hx, hy, hzz⟩ := h
      obtain ⟨hx', hy', hzz'⟩ := h'
      have hpos : 0 < Q.x ^ 2 + Q.z ^ 2 := by
        have : 0 < Q.z ^ 2 := by positivity
        nlinarith [sq_nonneg Q.x]
      have hr : 0 < Real.sqrt (Q.x ^ 2 + Q.z ^ 2) := Real.sqrt_pos.2 hpos
      have a1 := hx.neg.arctan2 hzz.neg hb
      have a2 := hx'.neg.arctan2 hzz'.neg (by
        simp only [V3.mulS_x, V3.mulS_z]
        rcases hb with h | h
        · left; intro h0; apply h; have := mul_eq_zero.1 (neg_eq_zero.1 h0); simp [hs.ne'] at this; simp [this]
        · right; nlinarith)
      have ea : Complex.arg ⟨-(Q.mulS s).z, -(Q.mulS s).x⟩ = Complex.arg ⟨-Q.z, -Q.x⟩ := by
        rw [← arg_scale (a := -Q.z) (b := -Q.x) hs]; congr 2 <;> simp <;> ring
      rw [ea] at a2
      have s1 := ((hx.npow 2).add (hzz.npow 2)).sqrt hpos.le
      have s2 := ((hx'.npow 2).add (hzz'.npow 2)).sqrt (by positivity)
      have es : Real.sqrt ((Q.mulS s).x ^ 2 + (Q.mulS s).z ^ 2) = s * Real.sqrt (Q.x ^ 2 + Q.z ^ 2) := by
        rw [show (Q.mulS s).x ^ 2 + (Q.mulS s).z ^ 2 = s ^ 2 * (Q.x ^ 2 + Q.z ^ 2) by simp; ring,
          Real.sqrt_mul (by positivity), Real.sqrt_sq hs.le]
      rw [es] at s2
      have b1 := hy.arctan2 s1 (Or.inr hr)
      have b2 := hy'.arctan2 s2 (Or.inr (mul_pos hs hr))
      have eb : Complex.arg ⟨s * Real.sqrt (Q.x ^ 2 + Q.z ^ 2), (Q.mulS s).y⟩ =
          Complex.arg ⟨Real.sqrt (Q.x ^ 2 + Q.z ^ 2), Q.y⟩ := by
        rw [← arg_scale (a := Real.sqrt (Q.x ^ 2 + Q.z ^ 2)) hs]; congr 2; simp; ring
      rw [eb] at b2
      exact ⟨⟨_, _⟩, ⟨((is_fin I.fx).neg.mul a1).add (is_fin I.cx), ((is_fin I.fy).neg.mul b1).add (is_fin I.cy)⟩,
        ⟨((is_fin I.fx).neg.mul a2).add (is_fin I.cx), ((is_fin I.fy).neg.mul b2).add (is_fin I.cy)⟩⟩

/-- The undistorted image of a point before `rotateSpace(delta)` and of the turned point after it. -/
theorem Camera.rotate_undistorted (c : Cam) (o : Spatial.Params) (ho : c.orient = .thr o)
    (delta : ℝ) (P : V3 ℝ) (hseam : c.kind = .rectilinear ∨ ¬ OnSeam c P) (hide : Bool) :
    V2.Same (Projection.imageFromCamera c.kind c.intr (Spatial.cameraFromSpace c.orient.mat P.num) hide)
      (Projection.imageFromCamera c.kind c.intr (Spatial.cameraFromSpace (Orient.thr (rotateSpace o delta)).mat
        (Geo.clockwise (delta * Real.pi / 180) P).num) hide) := by
  set c' : Cam := { c with orient := .thr (rotateSpace o delta) } with hc'
  have h1 := cameraFromSpace_is c (V3.is_num P)
  have h2 := cameraFromSpace_is c' (V3.is_num (Geo.clockwise (delta * Real.pi / 180) P))
  have hm : c.orient.mat = Spatial.matrices o := by
    rw [ho]; exact (C12_heading_wrap o).2.2.2.2.1
  have hm' : c'.orient.mat = Spatial.matrices (rotateSpace o delta) :=
    (C12_heading_wrap (rotateSpace o delta)).2.2.2.2.1
  have hhead : Spatial.R_head (Spatial.rad (rotateSpace o delta).heading_deg) =
      Spatial.R_head (Spatial.rad (o.heading_deg + delta)) := by
    obtain ⟨k, hk⟩ := Spatial.wrap360_turns (o.heading_deg + delta)
    simp only [rotateSpace, hk, Spatial.R_head_turns]
  have hrad : delta * Real.pi / 180 = Spatial.rad delta := by unfold Spatial.rad; ring
  have hadd : Spatial.rad (o.heading_deg + delta) = Spatial.rad o.heading_deg + Spatial.rad delta := by
    unfold Spatial.rad; ring
  have key : camR c' (Geo.clockwise (delta * Real.pi / 180) P) = camR c P := by
    unfold camR
    rw [hm, hm']
    simp only [Spatial.matrices, Spatial.rotation]
    rw [hhead, hrad, hadd]
    have hsc := Real.sin_sq_add_cos_sq (Spatial.rad delta)
    have hpos' : c'.orient.pos = Geo.clockwise (Spatial.rad delta) c.orient.pos := by
      rw [ho]; simp [hc', Orient.pos, rotateSpace, Geo.clockwise]
    rw [hpos']
    set p0 := c.orient.pos
    have hR : ∀ v : V3 ℝ, (Spatial.R_head (Spatial.rad o.heading_deg + Spatial.rad delta)).applyR
        (Geo.clockwise (Spatial.rad delta) v) = (Spatial.R_head (Spatial.rad o.heading_deg)).applyR v := by
      intro v
      set d := Spatial.rad delta
      set h := Spatial.rad o.heading_deg
      simp only [Spatial.R_head, Real.cos_add, Real.sin_add, Geo.clockwise, M3.applyR, V3.dot]
      ext
      · simp only; grobner
      · simp only; grobner
      · simp
    have hlin : Geo.clockwise (Spatial.rad delta) P - Geo.clockwise (Spatial.rad delta) p0 =
        Geo.clockwise (Spatial.rad delta) (P - p0) := by
      ext <;> simp [Geo.clockwise] <;> ring
    have hmul : ∀ (A B : M3) (v : V3 ℝ), (M3.mul A B).applyR v = A.applyR (B.applyR v) := by
      intro A B v
      ext <;> simp [M3.mul, M3.rowMul, M3.T, M3.applyR, V3.dot] <;> ring
    rw [hlin, hmul, hmul, hR, hmul, hmul]
    rfl
  rw [key] at h2
  have h2' : (Spatial.cameraFromSpace c'.orient.mat (Geo.clockwise (delta * Real.pi / 180) P).num).Is
      ((camR c P).mulS 1) := h2.congr (by ext <;> simp)
  have hs : c.kind = .rectilinear ∨ ¬ ((camR c P).x = 0 ∧ 0 < (camR c P).z) := by
    rcases hseam with h | h
    · exact Or.inl h
    · right; intro hh; exact h ⟨_, h1, hh⟩
  have := Projection.imageFromCamera_same c.kind c.intr one_pos h1 h2' (by
    by_cases hz : |(camR c P).z| < Projection.minDepth
    · exact Or.inl ⟨hz, rfl⟩
    · right; simp only [V3.mulS_z, mul_one, and_self]; exact not_lt.1 hz) hs hide
  exact this

/-- **C14** After `rotateSpace(delta)` the image of the point turned clockwise by delta is the image of the
point before.  (At the seam of a panorama the image of a point is one of two pixels a full turn apart; it
is excluded.) -/
theorem C14_rotateSpace (c : Cam) (o : Spatial.Params) (ho : c.orient = .thr o) (hl : c.lens = noDistortion)
    (delta : ℝ) (P : V3 ℝ) (hseam : c.kind = .rectilinear ∨ ¬ OnSeam c P) (hide : Bool) :
    V2.Same (imageFromSpace c P.num hide)
      (imageFromSpace { c with orient := .thr (rotateSpace o delta) }
        (Geo.clockwise (delta * Real.pi / 180) P).num hide) := by
  have := rotate_undistorted c o ho delta P hseam hide
  simpa [imageFromSpace, hl, noDistortion] using this

example : V2.Same (imageFromSpace exampleCam (V3.num ⟨1, 2, 0⟩))
    (imageFromSpace { exampleCam with orient := .thr (rotateSpace ⟨10, 0, 0, 0, 0, 0⟩ 30) }
      (Geo.clockwise (30 * Real.pi / 180) ⟨1, 2, 0⟩).num) :=
  C14_rotateSpace exampleCam ⟨10, 0, 0, 0, 0, 0⟩ rfl rfl 30 ⟨1, 2, 0⟩ (Or.inl rfl) true

/-! ### C18, C19 -/

/-- **C18** (partial: the object must differ from the camera in x *and* in y, see `C18_violated`), for lenses that are
exact at the two pixels. -/
theorem C18_object_height_lens_partial (c : Cam) (hc : c.Proper) (x y Z h : ℝ)
    (hfeet : Visible c ⟨x, y, Z⟩) (hhead : Visible c ⟨x, y, Z + h⟩) (hZ : Z ≠ c.orient.pos.z)
    (hx : x ≠ c.orient.pos.x) (hy : y ≠ c.orient.pos.y) (hide : Bool)
    (hL1 : ExactFor c ⟨x, y, Z⟩ hide) (hL2 : ExactFor c ⟨x, y, Z + h⟩ hide) :
    ∃ H : Num, getObjectHeight c (imageFromSpace c (V3.num ⟨x, y, Z⟩) hide)
      (imageFromSpace c (V3.num ⟨x, y, Z + h⟩) hide) (fin Z) = .ok H ∧ Num.Is H h := by
  obtain ⟨F, hF, hFi⟩ := C07_space_image_space_lens c hc ⟨x, y, Z⟩ _ (V3.is_num _) hfeet 2 hZ hide hL1 (fin Z) rfl
  obtain ⟨A, hA, hAi⟩ := C07_space_image_space_lens c hc ⟨x, y, Z + h⟩ _ (V3.is_num _) hhead 1 hy hide
    hL2 F.y hFi.2.1
  obtain ⟨B, hB, hBi⟩ := C07_space_image_space_lens c hc ⟨x, y, Z + h⟩ _ (V3.is_num _) hhead 0 hx hide
    hL2 F.x hFi.1
  have hF' : spaceFromImage c (imageFromSpace c (V3.num ⟨x, y, Z⟩) hide) { Z := some (fin Z) } = .ok F := hF
  have hA' : spaceFromImage c (imageFromSpace c (V3.num ⟨x, y, Z + h⟩) hide) { Y := some F.y } = .ok A := hA
  have hB' : spaceFromImage c (imageFromSpace c (V3.num ⟨x, y, Z + h⟩) hide) { X := some F.x } = .ok B := hB
  refine ⟨(Ray.mean2 A B).z - F.z, ?_, ?_⟩
  · unfold getObjectHeight
    simp only [hF', hA', hB', bind, Except.bind, pure, Except.pure]
  · have := (((hAi.2.2.add hBi.2.2).div (is_fin 2) two_ne_zero).sub hFi.2.2)
    exact this.congr (by simp)

/-- **C18** (partial: the object must differ from the camera in x *and* in y, see `C18_violated`) -/
theorem C18_object_height_partial (c : Cam) (hc : c.Proper) (hl : c.lens = noDistortion) (x y Z h : ℝ)
    (hfeet : Visible c ⟨x, y, Z⟩) (hhead : Visible c ⟨x, y, Z + h⟩) (hZ : Z ≠ c.orient.pos.z)
    (hx : x ≠ c.orient.pos.x) (hy : y ≠ c.orient.pos.y) (hide : Bool) :
    ∃ H : Num, getObjectHeight c (imageFromSpace c (V3.num ⟨x, y, Z⟩) hide)
      (imageFromSpace c (V3.num ⟨x, y, Z + h⟩) hide) (fin Z) = .ok H ∧ Num.Is H h :=
  C18_object_height_lens_partial c hc x y Z h hfeet hhead hZ hx hy hide (exactFor_none hl _ _) (exactFor_none hl _ _)

/-- **C19** The length of objects lying flat at height Z, for lenses that are exact at the two pixels. -/
theorem C19_object_length_lens (c : Cam) (hc : c.Proper) (A B : V3 ℝ) (Z : ℝ)
    (hA : A.z = Z) (hB : B.z = Z) (hZ : Z ≠ c.orient.pos.z) (hvA : Visible c A) (hvB : Visible c B)
    (hide : Bool) (hL1 : ExactFor c A hide) (hL2 : ExactFor c B hide) :
    ∃ L : Num, getObjectLength c (imageFromSpace c A.num hide) (imageFromSpace c B.num hide) (fin Z) = .ok L ∧
      Num.Is L (V3.dist A B) := by
  obtain ⟨F, hF, hFi⟩ := C07_space_image_space_lens c hc A _ (V3.is_num _) hvA 2 (by simpa [hA] using hZ) hide hL1
    (fin (A.get 2)) rfl
  obtain ⟨G, hG, hGi⟩ := C07_space_image_space_lens c hc B _ (V3.is_num _) hvB 2 (by simpa [hB] using hZ) hide hL2
    (fin (B.get 2)) rfl
  have hF' : spaceFromImage c (imageFromSpace c A.num hide) { Z := some (fin Z) } = .ok F := by
    rw [← hA]; exact hF
  have hG' : spaceFromImage c (imageFromSpace c B.num hide) { Z := some (fin Z) } = .ok G := by
    rw [← hB]; exact hG
  refine ⟨(F - G).normN, ?_, (hFi.sub hGi).normN⟩
  unfold getObjectLength
  simp only [hF', hG', bind, Except.bind, pure, Except.pure]

/-- **C19** The length of objects lying flat at height Z. -/
theorem C19_object_length (c : Cam) (hc : c.Proper) (hl : c.lens = noDistortion) (A B : V3 ℝ) (Z : ℝ)
    (hA : A.z = Z) (hB : B.z = Z) (hZ : Z ≠ c.orient.pos.z) (hvA : Visible c A) (hvB : Visible c B)
    (hide : Bool) :
    ∃ L : Num, getObjectLength c (imageFromSpace c A.num hide) (imageFromSpace c B.num hide) (fin Z) = .ok L ∧
      Num.Is L (V3.dist A B) :=
  C19_object_length_lens c hc A B Z hA hB hZ hvA hvB hide (exactFor_none hl _ _) (exactFor_none hl _ _)

/-- **C18**, **C19** Without a height given the objects stand or lie on the ground `z = 0`. -/
theorem C18_ground_partial (c : Cam) (hc : c.Proper) (x y h : ℝ)
    (hfeet : Visible c ⟨x, y, 0⟩) (hhead : Visible c ⟨x, y, h⟩) (hZ : c.orient.pos.z ≠ 0)
    (hx : x ≠ c.orient.pos.x) (hy : y ≠ c.orient.pos.y) (hide : Bool)
    (hL1 : ExactFor c ⟨x, y, 0⟩ hide) (hL2 : ExactFor c ⟨x, y, h⟩ hide) :
    ∃ H : Num, getObjectHeight c (imageFromSpace c (V3.num ⟨x, y, 0⟩) hide)
      (imageFromSpace c (V3.num ⟨x, y, h⟩) hide) = .ok H ∧ Num.Is H h := by
  have := C18_object_height_lens_partial c hc x y 0 h hfeet (by simpa using hhead) hZ.symm hx hy hide hL1 (by simpa using hL2)
  simpa using this

theorem C19_ground (c : Cam) (hc : c.Proper) (A B : V3 ℝ)
    (hA : A.z = 0) (hB : B.z = 0) (hZ : c.orient.pos.z ≠ 0) (hvA : Visible c A) (hvB : Visible c B)
    (hide : Bool) (hL1 : ExactFor c A hide) (hL2 : ExactFor c B hide) :
    ∃ L : Num, getObjectLength c (imageFromSpace c A.num hide) (imageFromSpace c B.num hide) = .ok L ∧ Num.Is L (V3.dist A B) :=
  C19_object_length_lens c hc A B 0 hA hB hZ.symm hvA hvB hide hL1 hL2

/-- **C18** is violated: for every camera and every object with the same x (or the same y) as the camera,
in particular every object straight ahead of a camera at the origin that looks along an axis, the result
is nan. -/
theorem C18_violated (c : Cam) (hc : c.Proper) (x y Z h : ℝ)
    (hfeet : Visible c ⟨x, y, Z⟩) (hhead : Visible c ⟨x, y, Z + h⟩) (hZ : Z ≠ c.orient.pos.z)
    (hxy : x = c.orient.pos.x ∨ y = c.orient.pos.y) (hide : Bool)
    (hL1 : ExactFor c ⟨x, y, Z⟩ hide) (hL2 : ExactFor c ⟨x, y, Z + h⟩ hide) :
    getObjectHeight c (imageFromSpace c (V3.num ⟨x, y, Z⟩) hide)
      (imageFromSpace c (V3.num ⟨x, y, Z + h⟩) hide) (fin Z) = .ok .nan := by
  obtain ⟨F, hF, hFi⟩ := C07_space_image_space_lens c hc ⟨x, y, Z⟩ _ (V3.is_num _) hfeet 2 hZ hide hL1 (fin Z) rfl
  have hF' : spaceFromImage c (imageFromSpace c (V3.num ⟨x, y, Z⟩) hide) { Z := some (fin Z) } = .ok F := hF
  obtain ⟨p, h1, h2⟩ := space_of_image c hc (V3.is_num ⟨x, y, Z + h⟩) hhead hide
  obtain ⟨u, hu, e, hd⟩ := h2 (hL2 p h1)
  have ho := getRay_offset c (imageFromSpace c (V3.num ⟨x, y, Z + h⟩) hide) false
  have key : ∀ (i : Fin 3) (v : Num), Num.Is v (c.orient.pos.get i) → (dirR c p).get i = 0 →
      ∃ A : V3 Num, spaceFromImage c (imageFromSpace c (V3.num ⟨x, y, Z + h⟩) hide) (coord i v) = .ok A ∧
        A.z = nan := by
    intro i v hv h0
    refine ⟨_, spaceFromImage_coord c _ i v, ?_⟩
    have : (v - (getRay c (imageFromSpace c (V3.num ⟨x, y, Z + h⟩) hide)).1.get i) /
        (getRay c (imageFromSpace c (V3.num ⟨x, y, Z + h⟩) hide)).2.get i = nan :=
      zero_div_zero ((hv.sub (ho.get i)).congr (sub_self _)) (h0 ▸ hd.get i)
    rw [this]
    unfold pointAt
    rw [if_neg (not_nan_lt _)]
    show _ * nan + _ = nan
    simp
  have hu0 := hu.ne'
  obtain ⟨A, hA⟩ : ∃ A, spaceFromImage c (imageFromSpace c (V3.num ⟨x, y, Z + h⟩) hide) { Y := some F.y } = .ok A :=
    ⟨_, rfl⟩
  obtain ⟨B, hB⟩ : ∃ B, spaceFromImage c (imageFromSpace c (V3.num ⟨x, y, Z + h⟩) hide) { X := some F.x } = .ok B :=
    ⟨_, rfl⟩
  have hnan : A.z = nan ∨ B.z = nan := by
    rcases hxy with hx | hy
    · right
      have e0 := congrArg V3.x e
      simp only [V3.add_x, V3.mulS_x] at e0
      obtain ⟨A', h3, h4⟩ := key 0 F.x (hFi.1.congr hx) (by
        have : (dirR c p).x * u = 0 := by linarith
        exact (mul_eq_zero.1 this).resolve_right hu0)
      have h5 : (Except.ok B : Except PyErr _) = .ok A' := by rw [← hB, ← h3]; rfl
      injection h5 with h5
      rw [h5]; exact h4
    · left
      have e0 := congrArg V3.y e
      simp only [V3.add_y, V3.mulS_y] at e0
      obtain ⟨A', h3, h4⟩ := key 1 F.y (hFi.2.1.congr hy) (by
        have : (dirR c p).y * u = 0 := by linarith
        exact (mul_eq_zero.1 this).resolve_right hu0)
      have h5 : (Except.ok A : Except PyErr _) = .ok A' := by rw [← hA, ← h3]; rfl
      injection h5 with h5
      rw [h5]; exact h4
  have e1 : getObjectHeight c (imageFromSpace c (V3.num ⟨x, y, Z⟩) hide)
      (imageFromSpace c (V3.num ⟨x, y, Z + h⟩) hide) (fin Z) = .ok ((Ray.mean2 A B).z - F.z) := by
    unfold getObjectHeight
    simp only [hF', hA, hB, bind, Except.bind, pure, Except.pure]
  rw [e1]
  have e2 : (Ray.mean2 A B).z = nan := by
    show (A.z + B.z) / _ = nan
    rcases hnan with h | h <;> rw [h] <;> simp
  rw [e2, nan_sub]

example : getObjectHeight exampleCam (imageFromSpace exampleCam (V3.num ⟨0, 3, 0⟩) true)
    (imageFromSpace exampleCam (V3.num ⟨0, 3, 0 + 2⟩) true) (fin 0) = .ok .nan :=
  C18_violated exampleCam exampleCam_proper 0 3 0 2 (exampleCam_visible _ (by norm_num))
    (exampleCam_visible _ (by norm_num)) (by simp [exampleCam, Orient.pos]) (Or.inl rfl) true (exactFor_none rfl _ _)
    (exactFor_none rfl _ _)

example : ∃ H : Num, getObjectHeight exampleCam (imageFromSpace exampleCam (V3.num ⟨1, 3, 0⟩) true)
    (imageFromSpace exampleCam (V3.num ⟨1, 3, 2⟩) true) = .ok H ∧ Num.Is H 2 :=
  C18_ground_partial exampleCam exampleCam_proper 1 3 2 (exampleCam_visible _ (by norm_num))
    (exampleCam_visible _ (by norm_num)) (by simp [exampleCam, Orient.pos])
    (by simp [exampleCam, Orient.pos]) (by simp [exampleCam, Orient.pos]) true (exactFor_none rfl _ _) (exactFor_none rfl _ _)

example : ∃ L : Num, getObjectLength exampleCam (imageFromSpace exampleCam (V3.num ⟨1, 3, 0⟩) true)
    (imageFromSpace exampleCam (V3.num ⟨2, 3, 0⟩) true) = .ok L ∧ Num.Is L (V3.dist ⟨1, 3, 0⟩ ⟨2, 3, 0⟩) :=
  C19_ground exampleCam exampleCam_proper ⟨1, 3, 0⟩ ⟨2, 3, 0⟩ rfl rfl (by simp [exampleCam, Orient.pos]) (exampleCam_visible _ (by norm_num))
    (exampleCam_visible _ (by norm_num)) true (exactFor_none rfl _ _) (exactFor_none rfl _ _)

example : ∃ H : Num, getObjectHeight exampleCam (imageFromSpace exampleCam (V3.num ⟨1, 3, 0⟩) true)
    (imageFromSpace exampleCam (V3.num ⟨1, 3, 0 + 2⟩) true) (fin 0) = .ok H ∧ Num.Is H 2 :=
  C18_object_height_partial exampleCam exampleCam_proper rfl 1 3 0 2 (exampleCam_visible _ (by norm_num))
    (exampleCam_visible _ (by norm_num)) (by simp [exampleCam, Orient.pos])
    (by simp [exampleCam, Orient.pos]) (by simp [exampleCam, Orient.pos]) true
