import Verif.Props.Lines

/-! # What changes in the picture when the camera moves without turning (C159) -/

open Camera Projection Lines

theorem Parallax.camR_moved (c : Cam) {b d : V3 ℝ} (hb : (Spatial.spaceFromCamera c.orient.mat b.num true).Is d) (P : V3 ℝ) :
    camR (moved c d) P = camR c P - b := by
  obtain ⟨h1, -, h3⟩ := moved_R c d
  have e := hb.unique (M3.apply_is (V3.is_num b))
  have e' : c.orient.mat.R.applyR d = b := by
    rw [e, (rigid_mat c.orient).inv]
    exact M3.applyR_applyR_T (rigid_mat c.orient).RT b
  rw [← e']
  unfold camR
  rw [h1, h3]
  ext <;> simp [M3.applyR, V3.dot] <;> ring

/-- **C159** A rectilinear camera without lens distortion moves without turning, by `b` in its own coordinates (right, up, backwards). The image of a point at rest
moves as the pinhole camera demands. -/
theorem C159_parallax (c : Cam) (hk : c.kind = .rectilinear) (hl : c.lens = noDistortion) (b d : V3 ℝ)
    (hb : (Spatial.spaceFromCamera c.orient.mat b.num true).Is d) (P C : V3 ℝ) (hC : (Spatial.cameraFromSpace c.orient.mat P.num).Is C) (hide : Bool) (p q : V2 ℝ)
    (hp : (imageFromSpace c P.num hide).Is p) (hq : (imageFromSpace (moved c d) P.num hide).Is q) :
    (C.z - b.z) * (q.x - c.intr.cx) = C.z * (p.x - c.intr.cx) + c.intr.fx * b.x ∧
    (C.z - b.z) * (q.y - c.intr.cy) = C.z * (p.y - c.intr.cy) - c.intr.fy * b.y := by
  have e : C = camR c P := hC.unique (cameraFromSpace_is c (V3.is_num P))
  obtain ⟨-, -, h1, rfl⟩ := image_inv c hk hl P hide hp
  obtain ⟨-, -, h2, rfl⟩ := image_inv (moved c d) hk hl P hide hq
  rw [Parallax.camR_moved c hb] at h2 ⊢
  rw [← e] at h1 h2 ⊢
  simp only [V3.sub_x, V3.sub_y, V3.sub_z] at h2 ⊢
  have e1 : (moved c d).intr = c.intr := rfl
  rw [e1]
  generalize C.z - b.z = w at *
  constructor <;> field_simp <;> ring

/-- **C159** Two cameras side by side: the shift of the image is the focal length times the shift of the camera over the depth of the point. So the depth can be
computed from the shift. -/
theorem C159_disparity (c : Cam) (hk : c.kind = .rectilinear) (hl : c.lens = noDistortion) (b d : V3 ℝ) (hz : b.z = 0)
    (hb : (Spatial.spaceFromCamera c.orient.mat b.num true).Is d) (P C : V3 ℝ) (hC : (Spatial.cameraFromSpace c.orient.mat P.num).Is C) (hide : Bool) (p q : V2 ℝ)
    (hp : (imageFromSpace c P.num hide).Is p) (hq : (imageFromSpace (moved c d) P.num hide).Is q) :
    p.x - q.x = c.intr.fx * b.x / -C.z ∧ q.y - p.y = c.intr.fy * b.y / -C.z ∧
    (c.intr.fx * b.x ≠ 0 → p.x ≠ q.x ∧ -C.z = c.intr.fx * b.x / (p.x - q.x)) ∧
    (c.intr.fy * b.y ≠ 0 → p.y ≠ q.y ∧ -C.z = c.intr.fy * b.y / (q.y - p.y)) := by
  obtain ⟨h1, h2⟩ := C159_parallax c hk hl b d hb P C hC hide p q hp hq
  have e : C = camR c P := hC.unique (cameraFromSpace_is c (V3.is_num P))
  obtain ⟨-, -, h3, -⟩ := image_inv c hk hl P hide hp
  rw [← e] at h3
  have h4 : -C.z ≠ 0 := neg_ne_zero.2 h3
  rw [hz, sub_zero] at h1 h2
  have h5 : (p.x - q.x) * -C.z = c.intr.fx * b.x := by linarith
  have h6 : (q.y - p.y) * -C.z = c.intr.fy * b.y := by linarith
  refine ⟨(eq_div_iff h4).2 h5, (eq_div_iff h4).2 h6, fun h => ?_, fun h => ?_⟩
  · have h0 : p.x - q.x ≠ 0 := fun h0 => h (by rw [← h5, h0, zero_mul])
    exact ⟨sub_ne_zero.1 h0, (eq_div_iff h0).2 (by linarith)⟩
  · have h0 : q.y - p.y ≠ 0 := fun h0 => h (by rw [← h6, h0, zero_mul])
    exact ⟨(sub_ne_zero.1 h0).symm, (eq_div_iff h0).2 (by linarith)⟩

/-- **C159** Near points move more than far points. -/
theorem C159_nearer (c : Cam) (hk : c.kind = .rectilinear) (hl : c.lens = noDistortion) (b d : V3 ℝ) (hz : b.z = 0) (hx : 0 < c.intr.fx * b.x)
    (hb : (Spatial.spaceFromCamera c.orient.mat b.num true).Is d) (P P' C C' : V3 ℝ) (hC : (Spatial.cameraFromSpace c.orient.mat P.num).Is C)
    (hC' : (Spatial.cameraFromSpace c.orient.mat P'.num).Is C') (p q p' q' : V2 ℝ)
    (hp : (imageFromSpace c P.num).Is p) (hq : (imageFromSpace (moved c d) P.num).Is q)
    (hp' : (imageFromSpace c P'.num).Is p') (hq' : (imageFromSpace (moved c d) P'.num).Is q') :
    0 < p.x - q.x ∧ (-C.z < -C'.z ↔ p'.x - q'.x < p.x - q.x) := by
  obtain ⟨h1, -⟩ := C159_disparity c hk hl b d hz hb P C hC true p q hp hq
  obtain ⟨h2, -⟩ := C159_disparity c hk hl b d hz hb P' C' hC' true p' q' hp' hq'
  have e : C = camR c P := hC.unique (cameraFromSpace_is c (V3.is_num P))
  have e' : C' = camR c P' := hC'.unique (cameraFromSpace_is c (V3.is_num P'))
  have h3 := (image_inv c hk hl P true hp).2.1 rfl
  have h4 := (image_inv c hk hl P' true hp').2.1 rfl
  rw [← e] at h3
  rw [← e'] at h4
  rw [h1, h2]
  have a : 0 < -C.z := by linarith
  have a' : 0 < -C'.z := by linarith
  exact ⟨div_pos hx a, (div_lt_div_iff_of_pos_left hx a' a).symm⟩

/-- **C159** A camera that moves straight ahead: the picture expands from the principal point. -/
theorem C159_ahead (c : Cam) (hk : c.kind = .rectilinear) (hl : c.lens = noDistortion) (m : ℝ) (d : V3 ℝ)
    (hb : (Spatial.spaceFromCamera c.orient.mat (V3.num ⟨0, 0, -m⟩) true).Is d) (P : V3 ℝ) (p q : V2 ℝ)
    (hp : (imageFromSpace c P.num).Is p) (hq : (imageFromSpace (moved c d) P.num).Is q) :
    ∃ s : ℝ, 0 < s ∧ (0 < m → 1 < s) ∧ (m < 0 → s < 1) ∧
      q = ⟨c.intr.cx + s * (p.x - c.intr.cx), c.intr.cy + s * (p.y - c.intr.cy)⟩ := by
  have hC := cameraFromSpace_is c (V3.is_num P)
  obtain ⟨h1, h2⟩ := C159_parallax c hk hl ⟨0, 0, -m⟩ d hb P _ hC true p q hp hq
  have h3 := (image_inv c hk hl P true hp).2.1 rfl
  have h4 := (image_inv (moved c d) hk hl P true hq).2.1 rfl
  rw [Parallax.camR_moved c hb] at h4
  simp only [V3.sub_z, sub_neg_eq_add, mul_zero, add_zero, sub_zero] at h1 h2 h4
  generalize (camR c P).z = z at *
  have h5 : z + m ≠ 0 := h4.ne
  refine ⟨z / (z + m), div_pos_of_neg_of_neg h3 h4, fun hm => ?_, fun hm => ?_, ?_⟩
  · rw [lt_div_iff_of_neg h4]; linarith
  · rw [div_lt_iff_of_neg h4]; linarith
  · ext
    · simp only; field_simp; linarith
    · simp only; field_simp; linarith

/-! ### Examples -/

/-- A camera that has moved by `b` in its own coordinates. -/
theorem Parallax.ex_moved (b : V3 ℝ) : ∃ d : V3 ℝ, (Spatial.spaceFromCamera exCam.orient.mat b.num true).Is d ∧ ∀ P : V3 ℝ, 1 ≤ P.y → 1 ≤ P.y + b.z →
    (∃ p, (imageFromSpace exCam P.num).Is p) ∧ ∃ q, (imageFromSpace (moved exCam d) P.num).Is q := by
  have hb : (Spatial.spaceFromCamera exCam.orient.mat b.num true).Is _ := M3.apply_is (V3.is_num b)
  refine ⟨_, hb, fun P h1 h2 => ⟨exCam_sees P h1, _, image_of (moved exCam _) rfl rfl P true ?_ fun _ => ?_⟩⟩
  · rw [Parallax.camR_moved _ hb, exCam_camR]
    simp only [V3.sub_z]
    have : minDepth ≤ 1 := by norm_num [minDepth]
    rw [abs_of_neg (by linarith)]
    linarith
  · rw [Parallax.camR_moved _ hb, exCam_camR]
    simp only [V3.sub_z]
    linarith

example : ∃ (d : V3 ℝ) (p q : V2 ℝ), (imageFromSpace exCam (V3.num ⟨3, 20, 5⟩)).Is p ∧ (imageFromSpace (moved exCam d) (V3.num ⟨3, 20, 5⟩)).Is q ∧ p.x - q.x = 5 := by
  obtain ⟨d, hd, h⟩ := Parallax.ex_moved ⟨1, 0, 0⟩
  obtain ⟨⟨p, hp⟩, q, hq⟩ := h ⟨3, 20, 5⟩ (by norm_num) (by norm_num)
  refine ⟨d, p, q, hp, hq, ?_⟩
  rw [(C159_disparity exCam rfl rfl ⟨1, 0, 0⟩ d rfl hd _ _ (cameraFromSpace_is exCam (V3.is_num _)) true p q hp hq).1, exCam_camR]
  norm_num [exCam]

example : ∃ (d : V3 ℝ) (p q p' q' : V2 ℝ), (imageFromSpace exCam (V3.num ⟨3, 20, 5⟩)).Is p ∧ (imageFromSpace (moved exCam d) (V3.num ⟨3, 20, 5⟩)).Is q ∧
    (imageFromSpace exCam (V3.num ⟨3, 40, 5⟩)).Is p' ∧ (imageFromSpace (moved exCam d) (V3.num ⟨3, 40, 5⟩)).Is q' ∧ p'.x - q'.x < p.x - q.x := by
  obtain ⟨d, hd, h⟩ := Parallax.ex_moved ⟨1, 0, 0⟩
  obtain ⟨⟨p, hp⟩, q, hq⟩ := h ⟨3, 20, 5⟩ (by norm_num) (by norm_num)
  obtain ⟨⟨p', hp'⟩, q', hq'⟩ := h ⟨3, 40, 5⟩ (by norm_num) (by norm_num)
  refine ⟨d, p, q, p', q', hp, hq, hp', hq', ?_⟩
  refine (C159_nearer exCam rfl rfl ⟨1, 0, 0⟩ d rfl (by norm_num [exCam]) hd _ _ _ _ (cameraFromSpace_is exCam (V3.is_num _))
    (cameraFromSpace_is exCam (V3.is_num _)) p q p' q' hp hq hp' hq').2.1 ?_
  rw [exCam_camR, exCam_camR]
  norm_num

example : ∃ (d : V3 ℝ) (p q : V2 ℝ), (imageFromSpace exCam (V3.num ⟨3, 20, 5⟩)).Is p ∧ (imageFromSpace (moved exCam d) (V3.num ⟨3, 20, 5⟩)).Is q ∧
    ∃ s : ℝ, 1 < s ∧ q = ⟨50 + s * (p.x - 50), 25 + s * (p.y - 25)⟩ := by
  obtain ⟨d, hd, h⟩ := Parallax.ex_moved ⟨0, 0, -2⟩
  obtain ⟨⟨p, hp⟩, q, hq⟩ := h ⟨3, 20, 5⟩ (by norm_num) (by norm_num)
  obtain ⟨s, -, h1, -, h2⟩ := C159_ahead exCam rfl rfl 2 d hd _ p q hp hq
  exact ⟨d, p, q, hp, hq, s, h1 (by norm_num), h2⟩
