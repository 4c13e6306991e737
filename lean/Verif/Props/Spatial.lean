import Verif.Proofs.Camera

/-! # Properties of the orientation classes (C11-C13, C86) -/

open Classical Num Spatial

theorem Spatial.triple_applyR (A : M3) (a b c : V3 ℝ) :
    Geo.triple (A.applyR a) (A.applyR b) (A.applyR c) = A.det * Geo.triple a b c := by
  simp only [Geo.triple, M3.applyR, M3.det, V3.dot, V3.cross]
  ring

/-- **C11** The two conversions of an orientation object are the two directions of one orientation
preserving rigid motion that maps the camera position to the origin. -/
theorem C11_rigid_motion (o : Camera.Orient) :
    ∃ f g : V3 ℝ → V3 ℝ,
      (∀ (p : V3 Num) (P : V3 ℝ), p.Is P → (cameraFromSpace o.mat p).Is (f P)) ∧
      (∀ (p : V3 Num) (P : V3 ℝ), p.Is P → (spaceFromCamera o.mat p).Is (g P)) ∧
      (∀ P, g (f P) = P) ∧ (∀ P, f (g P) = P) ∧ Geo.RigidMotion f ∧ Geo.RigidMotion g ∧
      f o.pos = ⟨0, 0, 0⟩ := by
  have hr := Camera.rigid_mat o
  have ht := Camera.mat_t o
  have hf : Geo.RigidMotion fun P => o.mat.R.applyR (P - o.pos) := by
    constructor
    · intro P Q
      simp only [V3.dist, V3.norm]
      rw [← M3.applyR_sub, M3.normSq_applyR hr.TR]
      congr 2; ext <;> simp
    · intro O A B C
      simp only [← M3.applyR_sub]
      rw [Spatial.triple_applyR, hr.det, one_mul]
      congr 1 <;> ext <;> simp
  have e1 : ∀ P : V3 ℝ, o.mat.R.T.applyR (o.mat.R.applyR (P - o.pos)) + o.pos = P := by
    intro P
    rw [M3.applyR_T_applyR hr.TR]; ext <;> simp
  have e2 : ∀ P : V3 ℝ, o.mat.R.applyR (o.mat.R.T.applyR P + o.pos - o.pos) = P := by
    intro P
    have : o.mat.R.T.applyR P + o.pos - o.pos = o.mat.R.T.applyR P := by ext <;> simp
    rw [this, M3.applyR_applyR_T hr.RT]
  refine ⟨fun P => o.mat.R.applyR (P - o.pos), fun P => o.mat.R.T.applyR P + o.pos, ?_, ?_, e1, e2, hf, ?_, ?_⟩
  · intro p P h
    unfold cameraFromSpace
    rw [← ht]
    exact M3.apply_is (h.sub (V3.is_num _))
  · intro p P h
    have := (M3.apply_is (A := o.mat.Rinv) h).add (V3.is_num o.mat.t)
    rw [hr.inv, ht] at this
    unfold spaceFromCamera
    simp only [Bool.false_eq_true, if_false]
    rw [hr.inv, ht]; exact this
  · constructor
    · intro P Q
      rw [← hf.dist]; simp only [e2]
    · intro O A B C
      rw [← hf.volume]; simp only [e2]
  · have : o.pos - o.pos = (⟨0, 0, 0⟩ : V3 ℝ) := by ext <;> simp
    simp only [this]
    ext <;> simp [M3.applyR, V3.dot]

example : ∃ P' : V3 ℝ, (cameraFromSpace (Camera.Orient.thr ⟨10, 45, 10, 400, 3, 4⟩).mat (V3.num ⟨1, 2, 3⟩)).Is P' ∧
    V3.dist P' ⟨0, 0, 0⟩ = V3.dist ⟨1, 2, 3⟩ ⟨3, 4, 10⟩ := by
  obtain ⟨f, g, hf, -, -, -, h, -, h0⟩ := C11_rigid_motion (.thr ⟨10, 45, 10, 400, 3, 4⟩)
  exact ⟨_, hf _ _ (V3.is_num _), by rw [← h0, h.dist]; rfl⟩

/-- Directions are converted without the translation. -/
theorem C11_direction (o : Camera.Orient) (p : V3 Num) (P : V3 ℝ) (h : p.Is P) :
    ∃ D : V3 ℝ, (spaceFromCamera o.mat p true).Is D ∧
      (spaceFromCamera o.mat p false).Is (D + o.pos) ∧ D.norm = P.norm := by
  have hr := Camera.rigid_mat o
  have ht := Camera.mat_t o
  refine ⟨o.mat.Rinv.applyR P, M3.apply_is h, ?_, ?_⟩
  · have := (M3.apply_is (A := o.mat.Rinv) h).add (V3.is_num o.mat.t)
    rw [ht] at this
    simpa [spaceFromCamera, ht] using this
  · unfold V3.norm
    rw [hr.inv, M3.normSq_applyR (A := o.mat.R.T) hr.RT]

theorem Spatial.rad_add_turns (h : ℝ) (k : ℤ) : rad (h + 360 * k) = rad h + k * (2 * Real.pi) := by
  unfold rad; ring

theorem Spatial.R_head_turns (h : ℝ) (k : ℤ) : R_head (rad (h + 360 * k)) = R_head (rad h) := by
  rw [Spatial.rad_add_turns]
  unfold R_head
  rw [Real.cos_add_int_mul_two_pi, Real.sin_add_int_mul_two_pi]

theorem Spatial.wrap360_turns (h : ℝ) : ∃ k : ℤ, wrap360 h = h + 360 * k := by
  unfold wrap360
  split_ifs
  · exact ⟨-⌊h / 360⌋, by unfold pymod; push_cast; ring⟩
  · exact ⟨0, by simp⟩

theorem Spatial.pymod_range (x : ℝ) : 0 ≤ pymod x 360 ∧ pymod x 360 < 360 := by
  unfold pymod
  have h1 := Int.floor_le (x / 360)
  have h2 := Int.lt_floor_add_one (x / 360)
  constructor
  · have : 360 * (⌊x / 360⌋ : ℝ) ≤ 360 * (x / 360) := by linarith
    linarith [mul_div_cancel₀ x (show (360:ℝ) ≠ 0 by norm_num)]
  · have : x / 360 * 360 = x := by field_simp
    nlinarith

/-- **C12** A heading outside [-360, 360] is stored as a heading in [0, 360) that differs by full turns, any
other heading and all other parameters are stored unchanged; and the matrices are those of the heading
that was given. -/
theorem C12_heading_wrap (p : Params) :
    let q := (initCameraMatrix p).1
    (∃ k : ℤ, q.heading_deg = p.heading_deg + 360 * k) ∧
    (|p.heading_deg| > 360 → 0 ≤ q.heading_deg ∧ q.heading_deg < 360) ∧
    (|p.heading_deg| ≤ 360 → q.heading_deg = p.heading_deg) ∧
    q = { p with heading_deg := q.heading_deg } ∧
    (initCameraMatrix p).2 = matrices p ∧
    ∀ k : ℤ, (initCameraMatrix { p with heading_deg := p.heading_deg + 360 * k }).2 =
      (initCameraMatrix p).2 := by
  have key : ∀ p : Params, (initCameraMatrix p).2 = matrices p := by
    intro p
    obtain ⟨k, hk⟩ := Spatial.wrap360_turns p.heading_deg
    simp only [initCameraMatrix, matrices, hk, rotation, Spatial.R_head_turns]
  refine ⟨Spatial.wrap360_turns _, ?_, ?_, rfl, key p, ?_⟩
  · intro h
    have : p.heading_deg < -360 ∨ p.heading_deg > 360 := by
      rcases lt_abs.1 h with h | h
      · right; exact h
      · left; linarith
    simp only [initCameraMatrix, wrap360, if_pos this]
    exact Spatial.pymod_range _
  · intro h
    have : ¬ (p.heading_deg < -360 ∨ p.heading_deg > 360) := by
      have := abs_le.1 h
      push Not; exact ⟨by linarith, by linarith⟩
    simp only [initCameraMatrix, wrap360, if_neg this]
  · intro k
    rw [key, key]
    simp only [matrices, rotation, Spatial.R_head_turns]

example : ∃ p : Params, |p.heading_deg| > 360 ∧ (initCameraMatrix p).1.heading_deg = 359 := by
  refine ⟨⟨1, 2, 3, -361, 4, 5⟩, by norm_num, ?_⟩
  have : ⌊(-361 : ℝ) / 360⌋ = -2 := by rw [Int.floor_eq_iff]; norm_num
  simp only [initCameraMatrix, wrap360, pymod, this]
  norm_num

/-- **C13** A yaw-pitch-roll orientation is the orientation with tilt = 90 + pitch, heading = yaw and
roll = -roll, for all angles (also outside the usual ranges). -/
theorem C13_yaw_pitch_roll (p : ParamsYPR) :
    (initCameraMatrixYPR p).2 =
      (initCameraMatrix ⟨p.elevation_m, 90 + p.pitch_deg, -p.roll_deg, p.yaw_deg, p.pos_x_m, p.pos_y_m⟩).2 := by
  rw [(C12_heading_wrap _).2.2.2.2.1]
  obtain ⟨k, hk⟩ := Spatial.wrap360_turns p.pitch_deg
  have ht : R_tilt (Real.pi / 2 + rad (p.pitch_deg + 360 * k)) = R_tilt (rad (90 + p.pitch_deg)) := by
    have e1 : Real.pi / 2 + rad (p.pitch_deg + 360 * k) = rad (90 + p.pitch_deg) + k * (2 * Real.pi) := by
      unfold rad; ring
    rw [e1]; unfold R_tilt
    rw [Real.cos_add_int_mul_two_pi, Real.sin_add_int_mul_two_pi]
  have hr : rad (-p.roll_deg) = -(rad p.roll_deg) := by unfold rad; ring
  simp only [initCameraMatrixYPR, matricesYPR, matrices, rotation, hk, ht, hr]

/-- The documented relation heading = -yaw (docstring of `SpatialOrientationYawPitchRoll`) does not hold. -/
theorem C13_docstring_violated :
    ¬ ∀ p : ParamsYPR, (initCameraMatrixYPR p).2 =
      (initCameraMatrix ⟨p.elevation_m, 90 + p.pitch_deg, -p.roll_deg, -p.yaw_deg, p.pos_x_m, p.pos_y_m⟩).2 := by
  intro h
  have h1 := h ⟨0, 90, 0, 0, 0, 0⟩
  rw [C13_yaw_pitch_roll, (C12_heading_wrap _).2.2.2.2.1, (C12_heading_wrap _).2.2.2.2.1] at h1
  have h2 := congrArg (fun m => m.R.r0.y) h1
  have e1 : rad 90 = Real.pi / 2 := by unfold rad; ring
  have e2 : rad (-90) = -(Real.pi / 2) := by unfold rad; ring
  have e3 : rad 0 = 0 := by unfold rad; ring
  simp [matrices, rotation, M3.mul, M3.rowMul, M3.T, V3.dot, R_roll, R_tilt, R_head, e1, e2, e3] at h2
  norm_num at h2

/-- **C86** What the angles mean.  The camera looks along (sin tilt · sin heading, sin tilt · cos heading,
-cos tilt): straight down for tilt 0, to the horizon for tilt 90, upwards beyond; to the north (y) for
heading 0, to the east (x) for heading 90.  Without roll, the image's right hand side is horizontal, a
quarter turn clockwise from the viewing direction; roll turns right and up around the viewing
direction. -/
theorem C86_meaning_of_the_angles (p : Params) (D : V3 ℝ) (d : V3 Num) (hd : d.Is D) :
    let t := rad p.tilt_deg
    let h := rad p.heading_deg
    let r := rad p.roll_deg
    let ahead : V3 ℝ := ⟨Real.sin t * Real.sin h, Real.sin t * Real.cos h, -Real.cos t⟩
    let right : V3 ℝ := ⟨Real.cos h, -Real.sin h, 0⟩
    let up : V3 ℝ := ⟨Real.cos t * Real.sin h, Real.cos t * Real.cos h, Real.sin t⟩
    -- a direction of camera space is composed of right (+x), up (+y) and ahead (-z)
    (spaceFromCamera (initCameraMatrix p).2 d true).Is
      (right.mulS (D.x * Real.cos r - D.y * Real.sin r) + up.mulS (D.x * Real.sin r + D.y * Real.cos r)
        + ahead.mulS (-D.z)) := by
  intro t h r ahead right up
  rw [(C12_heading_wrap _).2.2.2.2.1]
  have := M3.apply_is (A := (matrices p).Rinv) hd
  simp only [spaceFromCamera, if_true]
  refine this.congr ?_
  have hi : (matrices p).Rinv = (rotation r t h).T := Spatial.inv_rot _ _ _
  rw [hi]
  ext <;> simp [M3.applyR, M3.T, V3.dot, rotation, M3.mul, M3.rowMul, R_roll, R_tilt, R_head, ahead, right, up] <;> ring
