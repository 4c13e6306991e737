import Verif.Proofs.Spatial
import Verif.Model.Camera
import Verif.Spec.Geometry

/-! Helper lemmas for the camera conversions. -/

open Classical Num

namespace Projection

/-- Positive multiples of the ray of a pixel are projected to the pixel. -/
theorem imageFromCamera_ray (k : Kind) {I : Intr} (hfx : I.fx ≠ 0) (hfy : I.fy ≠ 0) {p : V2 ℝ}
    (hp : InRange k I p) {u : ℝ} (hu : 0 < u) {q : V3 Num} (hq : q.Is ((rayR k I p).mulS u))
    (hz : 1 / 10 ^ 10 ≤ |((rayR k I p).mulS u).z|) (hide : Bool) :
    (imageFromCamera k I q hide).Is p := by
  have hs := snap_far hq hz
  cases k with
  | rectilinear =>
    simp only [imageFromCamera, imageFromCameraRect, hs]
    have h := projRect_is (I := I) hq (by simp [rayR]; exact hu.ne') hide (fun _ => by simp [rayR]; exact hu)
    refine h.congr ?_
    ext <;> simp [rayR] <;> field_simp <;> ring
  | cylindrical =>
    simp only [imageFromCamera, imageFromCameraCyl, hs]
    have hp' := abs_lt.1 hp
    have h := projCyl_polar (I := I) (r := u) (θ := (p.x - I.cx) / I.fx) (b := (p.y - I.cy) / I.fy) hu
      hp'.1 hp'.2 (hq.congr (by ext <;> simp [rayR] <;> ring))
    refine h.congr ?_
    ext <;> simp <;> field_simp <;> ring
  | equirectangular =>
    simp only [imageFromCamera, imageFromCameraEqui, hs]
    have hp' := abs_lt.1 hp.1
    have hp2 := abs_lt.1 hp.2
    have h := projEqui_polar (I := I) (r := u) (θ := (p.x - I.cx) / I.fx) (b := (p.y - I.cy) / I.fy) hu
      hp'.1 hp'.2 hp2.1 hp2.2 (hq.congr (by ext <;> simp [rayR] <;> ring))
    refine h.congr ?_
    ext <;> simp <;> field_simp <;> ring

/-- `arctan2` gives an angle with the right sine and cosine, for all finite arguments other than the
origin. -/
theorem arctan2_spec {y x : Num} {b a : ℝ} (hy : Num.Is y b) (hx : Num.Is x a) (h : a ^ 2 + b ^ 2 ≠ 0) :
    ∃ θ, Num.Is (arctan2 y x) θ ∧ |θ| ≤ Real.pi ∧ Real.sqrt (a ^ 2 + b ^ 2) * Real.cos θ = a ∧
      Real.sqrt (a ^ 2 + b ^ 2) * Real.sin θ = b := by
  have hn : ‖(⟨a, b⟩ : ℂ)‖ = Real.sqrt (a ^ 2 + b ^ 2) := by
    rw [Complex.norm_def, Complex.normSq_mk]; ring_nf
  by_cases hc : b ≠ 0 ∨ 0 < a
  · refine ⟨_, hy.arctan2 hx hc, Complex.abs_arg_le_pi _, ?_, ?_⟩
    · rw [← hn]; exact Complex.norm_mul_cos_arg ⟨a, b⟩
    · rw [← hn]; exact Complex.norm_mul_sin_arg ⟨a, b⟩
  · push Not at hc
    obtain ⟨hb, ha⟩ := hc
    subst hb
    have ha' : a < 0 := lt_of_le_of_ne ha (by rintro rfl; simp at h)
    refine ⟨_, hy.arctan2_neg hx ha', ?_, ?_, ?_⟩
    · unfold sgn; split_ifs <;> simp [abs_of_pos Real.pi_pos]
    · have : Real.cos (sgn y * Real.pi) = -1 := by
        unfold sgn; split_ifs <;> simp
      rw [this]
      have e : Real.sqrt (a ^ 2 + 0 ^ 2) = -a := by
        rw [show a ^ 2 + (0:ℝ) ^ 2 = (-a) ^ 2 by ring]
        exact Real.sqrt_sq (by linarith)
      rw [e]; ring
    · have : Real.sin (sgn y * Real.pi) = 0 := by
        unfold sgn; split_ifs <;> simp
      rw [this]; ring

/-- A point at sufficient depth has a pixel whose ray passes through the point. -/
theorem imageFromCamera_exists (k : Kind) {I : Intr} (hfx : I.fx ≠ 0) (hfy : I.fy ≠ 0) {q : V3 Num}
    {Q : V3 ℝ} (hq : q.Is Q) (hz : 1 / 10 ^ 10 ≤ |Q.z|) (hide : Bool)
    (hf : k = .rectilinear → Q.z < 0) :
    ∃ p : V2 ℝ, (imageFromCamera k I q hide).Is p ∧ ∃ u : ℝ, 0 < u ∧ Q = (rayR k I p).mulS u := by
  have hs := snap_far hq hz
  have hz0 : Q.z ≠ 0 := by
    intro h; rw [h] at hz; simp at hz; norm_num at hz
  cases k with
  | rectilinear =>
    simp only [imageFromCamera, imageFromCameraRect, hs]
    refine ⟨_, projRect_is (I := I) hq hz0 hide (fun _ => hf rfl), -Q.z, by linarith [hf rfl], ?_⟩
    ext <;> simp [rayR] <;> field_simp
  | cylindrical =>
    simp only [imageFromCamera, imageFromCameraCyl, hs]
    obtain ⟨hx, hy, hz'⟩ := hq
    have hpos : 0 < (-Q.z) ^ 2 + (-Q.x) ^ 2 := by
      have : 0 < Q.z ^ 2 := by positivity
      nlinarith [sq_nonneg Q.x]
    obtain ⟨θ, h1, h2, h3, h4⟩ := arctan2_spec hx.neg hz'.neg hpos.ne'
    have hr : 0 < Real.sqrt ((-Q.z) ^ 2 + (-Q.x) ^ 2) := Real.sqrt_pos.2 hpos
    set r := Real.sqrt ((-Q.z) ^ 2 + (-Q.x) ^ 2) with hrdef
    have hsq : Num.Is (Num.sqrt (q.x.npow 2 + q.z.npow 2)) r := by
      have := ((hx.npow 2).add (hz'.npow 2)).sqrt (by positivity)
      refine this.congr ?_
      rw [hrdef]; congr 1; ring
    have hY : Num.Is (-(fin I.fy) * q.y / Num.sqrt (q.x.npow 2 + q.z.npow 2) + fin I.cy)
        (-I.fy * Q.y / r + I.cy) :=
      (((is_fin I.fy).neg.mul hy).div hsq hr.ne').add (is_fin I.cy)
    refine ⟨⟨-I.fx * θ + I.cx, -I.fy * Q.y / r + I.cy⟩, ?_, r, hr, ?_⟩
    · unfold projCyl
      simp only
      rw [if_neg hY.ne_nan]
      exact ⟨((is_fin I.fx).neg.mul h1).add (is_fin I.cx), hY⟩
    · have e : ((-I.fx * θ + I.cx) - I.cx) / I.fx = -θ := by field_simp; ring
      have e2 : ((-I.fy * Q.y / r + I.cy) - I.cy) / I.fy = - Q.y / r := by field_simp; ring
      ext
      · simp only [rayR, V3.mulS, e, Real.sin_neg]; linarith
      · simp only [rayR, V3.mulS, e2]; field_simp
      · simp only [rayR, V3.mulS, e, Real.cos_neg]; linarith
  | equirectangular =>
    simp only [imageFromCamera, imageFromCameraEqui, hs]
    obtain ⟨hx, hy, hz'⟩ := hq
    have hpos : 0 < (-Q.z) ^ 2 + (-Q.x) ^ 2 := by
      have : 0 < Q.z ^ 2 := by positivity
      nlinarith [sq_nonneg Q.x]
    obtain ⟨θ, h1, h2, h3, h4⟩ := arctan2_spec hx.neg hz'.neg hpos.ne'
    have hr : 0 < Real.sqrt ((-Q.z) ^ 2 + (-Q.x) ^ 2) := Real.sqrt_pos.2 hpos
    set r := Real.sqrt ((-Q.z) ^ 2 + (-Q.x) ^ 2) with hrdef
    have hsq : Num.Is (Num.sqrt (q.x.npow 2 + q.z.npow 2)) r := by
      have := ((hx.npow 2).add (hz'.npow 2)).sqrt (by positivity)
      refine this.congr ?_
      rw [hrdef]; congr 1; ring
    obtain ⟨φ, g1, g2, g3, g4⟩ := arctan2_spec hy hsq (by positivity)
    have hn : 0 < Real.sqrt (r ^ 2 + Q.y ^ 2) := Real.sqrt_pos.2 (by positivity)
    set n := Real.sqrt (r ^ 2 + Q.y ^ 2)
    have hc : 0 < Real.cos φ := by
      by_contra hcon
      have := mul_nonpos_of_nonneg_of_nonpos hn.le (not_lt.1 hcon)
      linarith
    refine ⟨⟨-I.fx * θ + I.cx, -I.fy * φ + I.cy⟩, ?_, r, hr, ?_⟩
    · exact ⟨((is_fin I.fx).neg.mul h1).add (is_fin I.cx), ((is_fin I.fy).neg.mul g1).add (is_fin I.cy)⟩
    · have e : ((-I.fx * θ + I.cx) - I.cx) / I.fx = -θ := by field_simp; ring
      have e2 : ((-I.fy * φ + I.cy) - I.cy) / I.fy = -φ := by field_simp; ring
      ext
      · simp only [rayR, V3.mulS, e, Real.sin_neg]; linarith
      · simp only [rayR, V3.mulS, e2]
        rw [Real.tan_neg, Real.tan_eq_sin_div_cos, ← g3, ← g4]
        field_simp
      · simp only [rayR, V3.mulS, e, Real.cos_neg]; linarith

end Projection

namespace Camera

/-- The facts about the stored matrices every orientation satisfies. -/
structure Rigid (m : Spatial.CamMatrix) : Prop where
  TR : M3.mul m.R.T m.R = M3.one
  RT : M3.mul m.R m.R.T = M3.one
  inv : m.Rinv = m.R.T
  det : m.R.det = 1

theorem rigid_mat (o : Orient) : Rigid o.mat := by
  cases o with
  | thr p => exact ⟨Spatial.rot_TR _ _ _, Spatial.rot_RT _ _ _, Spatial.inv_rot _ _ _, Spatial.det_rot _ _ _⟩
  | ypr p => exact ⟨Spatial.rot_TR _ _ _, Spatial.rot_RT _ _ _, Spatial.inv_rot _ _ _, Spatial.det_rot _ _ _⟩

theorem mat_t (o : Orient) : o.mat.t = o.pos := by cases o <;> rfl

/-- The camera coordinates of a real point. -/
noncomputable def camR (c : Cam) (P : V3 ℝ) : V3 ℝ := c.orient.mat.R.applyR (P - c.orient.pos)

theorem cameraFromSpace_is (c : Cam) {p : V3 Num} {P : V3 ℝ} (h : p.Is P) :
    (Spatial.cameraFromSpace c.orient.mat p).Is (camR c P) := by
  unfold Spatial.cameraFromSpace camR
  rw [← mat_t]
  exact M3.apply_is (h.sub (V3.is_num _))

/-- The direction of the ray of a pixel in space, un-normed, over the reals. -/
noncomputable def dirR (c : Cam) (p : V2 ℝ) : V3 ℝ :=
  c.orient.mat.R.T.applyR (Projection.rayR c.kind c.intr p)

theorem getRay_offset (c : Cam) (p : V2 Num) (normed : Bool) : (getRay c p normed).1.Is c.orient.pos := by
  have h : (V3.num ⟨0, 0, 0⟩).Is ⟨0, 0, 0⟩ := V3.is_num _
  have h1 := (M3.apply_is (A := c.orient.mat.Rinv) h).add (V3.is_num c.orient.mat.t)
  have e : (getRay c p normed).1 = (c.orient.mat.Rinv.apply (V3.num ⟨0, 0, 0⟩) + c.orient.mat.t.num) := rfl
  rw [e]
  refine h1.congr ?_
  rw [← mat_t]
  ext <;> simp [M3.applyR, V3.dot]

theorem getRay_dir (c : Cam) (hfx : c.intr.fx ≠ 0) (hfy : c.intr.fy ≠ 0) {n : V2 Num} {p : V2 ℝ}
    (hp : (c.lens.imageFromDistorted n).Is p) (normed : Bool) :
    ∃ s : ℝ, 0 < s ∧ (normed = false → s = 1) ∧ (normed = true → s = 1 / (dirR c p).norm) ∧
      (getRay c n normed).2.Is ((dirR c p).mulS s) := by
  obtain ⟨s, h1, h2, h3, h4⟩ := Projection.getRay_exists c.kind hfx hfy hp normed
  have hn : (dirR c p).norm = (Projection.rayR c.kind c.intr p).norm := by
    unfold dirR V3.norm
    have := M3.normSq_applyR (A := c.orient.mat.R.T) (rigid_mat c.orient).RT (Projection.rayR c.kind c.intr p)
    rw [this]
  refine ⟨s, h1, h2, fun h => by rw [hn]; exact h3 h, ?_⟩
  have h5 := M3.apply_is (A := c.orient.mat.Rinv) h4
  have e : (getRay c n normed).2 = c.orient.mat.Rinv.apply
      (Projection.getRay c.kind c.intr (c.lens.imageFromDistorted n) normed) := rfl
  rw [e]
  refine h5.congr ?_
  rw [(rigid_mat c.orient).inv, M3.applyR_mulS]; rfl

theorem dirR_normSq_pos (c : Cam) (p : V2 ℝ) : 0 < (dirR c p).normSq := by
  unfold dirR
  rw [M3.normSq_applyR (A := c.orient.mat.R.T) (rigid_mat c.orient).RT]
  exact Projection.rayR_normSq_pos _ _ _

theorem dirR_norm_pos (c : Cam) (p : V2 ℝ) : 0 < (dirR c p).norm :=
  V3.norm_pos_of_ne (dirR_normSq_pos c p).ne'

/-- The camera coordinates of a point on the ray of a pixel. -/
theorem camR_on_ray (c : Cam) (p : V2 ℝ) (f : ℝ) :
    camR c ((dirR c p).mulS f + c.orient.pos) = (Projection.rayR c.kind c.intr p).mulS f := by
  unfold camR
  have : (dirR c p).mulS f + c.orient.pos - c.orient.pos = (dirR c p).mulS f := by
    ext <;> simp
  rw [this, M3.applyR_mulS]
  unfold dirR
  rw [M3.applyR_applyR_T (rigid_mat c.orient).RT]

/-- A point whose camera coordinates are on the ray of a pixel. -/
theorem space_on_ray (c : Cam) (P : V3 ℝ) {p : V2 ℝ} {u : ℝ}
    (h : camR c P = (Projection.rayR c.kind c.intr p).mulS u) : P = (dirR c p).mulS u + c.orient.pos := by
  have h1 : c.orient.mat.R.T.applyR (camR c P) = P - c.orient.pos := by
    unfold camR
    rw [M3.applyR_T_applyR (rigid_mat c.orient).TR]
  rw [h, M3.applyR_mulS] at h1
  have h2 : (dirR c p).mulS u = P - c.orient.pos := h1
  rw [h2]
  ext <;> simp

/-! ### non-finite factors -/

theorem inf_mul_nonzero {x d : Num} {r : ℝ} (hx : IsInf x) (hd : Num.Is d r) (hr : r ≠ 0) :
    IsInf (d * x) := by
  show IsInf (Num.mul d x)
  have hxn : x ≠ nan := by rintro rfl; exact hx
  have hx0 : ¬ IsZero x := by
    intro h
    cases x <;> simp_all [IsInf, IsZero]
  unfold Num.mul
  rw [if_neg (by simp [hxn, hd.ne_nan]), if_pos (Or.inr hx),
    if_neg (by simp only [hd.isZero_iff, not_or]; exact ⟨hr, hx0⟩)]
  unfold signedInf; split_ifs <;> trivial

theorem inf_mul_zero {x d : Num} (hx : IsInf x) (hd : Num.Is d 0) : d * x = nan := by
  show Num.mul d x = nan
  have hxn : x ≠ nan := by rintro rfl; exact hx
  unfold Num.mul
  rw [if_neg (by simp [hxn, hd.ne_nan]), if_pos (Or.inr hx), if_pos (Or.inl (hd.isZero_iff.2 rfl))]

theorem not_finite_of_inf {x : Num} (h : IsInf x) : ¬ x.Finite := fun ⟨_, h'⟩ => h'.not_inf h

theorem inf_add {x y : Num} {r : ℝ} (hx : IsInf x) (hy : Num.Is y r) : IsInf (x + y) := by
  show IsInf (Num.add x y)
  cases x <;> cases y <;> simp_all [IsInf, Num.add, Num.Is]

/-- A non-finite factor does not give a finite point. -/
theorem mulS_not_finite {d o : V3 Num} {D O : V3 ℝ} {f : Num} (hd : d.Is D) (ho : o.Is O) (hf : ¬ f.Finite) :
    ¬ (d.mulS f + o).Finite := by
  rintro ⟨h, -, -⟩
  have hx : (d.mulS f + o).x = d.x * f + o.x := rfl
  rw [hx] at h
  cases f with
  | fin r => exact hf ⟨r, rfl⟩
  | nzero => exact hf ⟨0, rfl⟩
  | nan => simp at h; exact not_finite_nan h
  | pinf =>
    have hI : IsInf pinf := trivial
    by_cases h0 : D.x = 0
    · rw [inf_mul_zero hI (h0 ▸ hd.1), nan_add] at h; exact not_finite_nan h
    · exact not_finite_of_inf (inf_add (inf_mul_nonzero hI hd.1 h0) ho.1) h
  | ninf =>
    have hI : IsInf ninf := trivial
    by_cases h0 : D.x = 0
    · rw [inf_mul_zero hI (h0 ▸ hd.1), nan_add] at h; exact not_finite_nan h
    · exact not_finite_of_inf (inf_add (inf_mul_nonzero hI hd.1 h0) ho.1) h

theorem not_finite_nan3 : ¬ V3.nan.Finite := fun h => not_finite_nan h.1

/-- A finite point of `pointAt` has a finite non-negative factor. -/
theorem pointAt_finite {d o : V3 Num} {D O : V3 ℝ} {f : Num} (hd : d.Is D) (ho : o.Is O)
    (h : (pointAt o d f).Finite) :
    ∃ r : ℝ, Num.Is f r ∧ 0 ≤ r ∧ (pointAt o d f).Is (D.mulS r + O) := by
  unfold pointAt at *
  split_ifs at * with h0
  · exact absurd h not_finite_nan3
  · by_cases hf : f.Finite
    · obtain ⟨r, hr⟩ := hf
      refine ⟨r, hr, ?_, (hd.mulS hr).add ho⟩
      by_contra hneg
      exact h0 ((hr.lt_iff (is_fin 0)).2 (not_le.1 hneg))
    · exact absurd h (mulS_not_finite hd ho hf)

theorem pointAt_is {d o : V3 Num} {D O : V3 ℝ} {f : Num} {r : ℝ} (hd : d.Is D) (ho : o.Is O)
    (hf : Num.Is f r) (hr : 0 ≤ r) : (pointAt o d f).Is (D.mulS r + O) := by
  unfold pointAt
  rw [if_neg (by rw [hf.lt_iff (is_fin 0)]; exact not_lt.2 hr)]
  exact (hd.mulS hf).add ho

theorem pointAt_neg {d o : V3 Num} {f : Num} {r : ℝ} (hf : Num.Is f r) (hr : r < 0) :
    pointAt o d f = V3.nan := by
  unfold pointAt
  rw [if_pos (by rw [hf.lt_iff (is_fin 0)]; exact hr)]

end Camera
