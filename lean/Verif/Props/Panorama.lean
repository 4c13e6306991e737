import Verif.Spec.Panorama
import Verif.Props.Turned

/-! # A level panorama shows the bearing and the elevation of a point -/

open Classical Camera Projection Turned

namespace Panorama

/-- The camera coordinates of a level camera. -/
theorem camR_level (k : Kind) (I : Intr) (o : Orient) (ho : Level o) (L : Lens) (P : V3 ℝ) :
    camR ⟨k, I, o, L⟩ P =
      ⟨Real.cos (heading o * Real.pi / 180) * (P - o.pos).x - Real.sin (heading o * Real.pi / 180) * (P - o.pos).y, (P - o.pos).z,
        -(Real.sin (heading o * Real.pi / 180) * (P - o.pos).x + Real.cos (heading o * Real.pi / 180) * (P - o.pos).y)⟩ := by
  have e1 : ∀ x : ℝ, Spatial.rad x = x * Real.pi / 180 := fun x => by unfold Spatial.rad; ring
  cases o with
  | thr p =>
    obtain ⟨e, t, r, h, x, y⟩ := p
    obtain ⟨h1, h2⟩ := ho
    simp only at h1 h2
    subst h1 h2
    have w := (C12_heading_wrap ⟨e, 90, 0, h, x, y⟩).2.2.2.2.1
    have b : (90 : ℝ) * Real.pi / 180 = Real.pi / 2 := by ring
    ext <;> simp [camR, heading, Orient.mat, Orient.pos, w, Spatial.matrices, e1, b, M3.applyR, V3.dot,
      Spatial.rotation, M3.mul, M3.rowMul, M3.T, Spatial.R_roll, Spatial.R_tilt, Spatial.R_head] <;> ring
  | ypr p =>
    obtain ⟨h1, h2⟩ := ho
    have b : Spatial.wrap360 0 = 0 := by unfold Spatial.wrap360; rw [if_neg (by norm_num)]
    ext <;> simp [camR, heading, Orient.mat, Orient.pos, Spatial.initCameraMatrixYPR, Spatial.matricesYPR, e1, b, h1, h2, M3.applyR,
      V3.dot, Spatial.rotation, M3.mul, M3.rowMul, M3.T, Spatial.R_roll, Spatial.R_tilt, Spatial.R_head] <;> ring

end Panorama

open Panorama

/-- **C169** The picture of a level panorama: the column is the bearing of the point relative to the heading, in units of the focal length and up to full
circles; the row is the slope or the angle of elevation. -/
theorem C169_picture (k : Kind) (hk : k ≠ .rectilinear) (I : Intr) (o : Orient) (ho : Level o) (P : V3 ℝ) (hide : Bool)
    (hP : Deep ⟨k, I, o, noDistortion⟩ P) (b y : ℝ) (hb : Bearing (P - o.pos) b) (hy : Height k (P - o.pos) y) :
    ∃ (q : V2 ℝ) (n : ℤ), (imageFromSpace ⟨k, I, o, noDistortion⟩ P.num hide).Is q ∧
      q.x = I.cx + I.fx * (b - heading o * Real.pi / 180) + n * (2 * Real.pi * I.fx) ∧ |q.x - I.cx| ≤ Real.pi * |I.fx| ∧ q.y = I.cy - I.fy * y := by
  obtain ⟨C, hC, hz⟩ := hP
  have e : C = camR ⟨k, I, o, noDistortion⟩ P := hC.unique (cameraFromSpace_is ⟨k, I, o, noDistortion⟩ (V3.is_num P))
  rw [camR_level k I o ho] at e
  obtain ⟨θ, t1, t2, t3, hq⟩ := pan_any k hk I hC hz hide
  obtain ⟨D, hD⟩ : ∃ D, D = P - o.pos := ⟨_, rfl⟩
  obtain ⟨h, hh⟩ : ∃ h, h = heading o * Real.pi / 180 := ⟨_, rfl⟩
  rw [← hD] at hb hy
  rw [← hD, ← hh] at e
  rw [← hh]
  have hsc := Real.sin_sq_add_cos_sq h
  have hg : Real.sqrt (C.x ^ 2 + C.z ^ 2) = ground D := by
    unfold ground
    congr 1
    rw [e]
    simp only
    linear_combination (D.x ^ 2 + D.y ^ 2) * hsc
  have hCy : C.y = D.z := by rw [e]
  rw [hg] at t2 t3 hq
  rw [hCy] at hq
  have hr : 0 < ground D := by
    rw [← hg]
    refine Real.sqrt_pos.2 ?_
    have hz0 : C.z ≠ 0 := by
      intro h0; rw [h0] at hz; norm_num [minDepth] at hz
    positivity
  obtain ⟨b1, b2⟩ := hb
  have hc : Real.cos θ = Real.cos (h - b) := by
    apply mul_left_cancel₀ hr.ne'
    rw [t2, e, Real.cos_sub]
    simp only
    linear_combination Real.sin h * b1 + Real.cos h * b2
  have hs : Real.sin θ = Real.sin (h - b) := by
    apply mul_left_cancel₀ hr.ne'
    rw [t3, e, Real.sin_sub]
    simp only
    linear_combination -Real.cos h * b1 + Real.sin h * b2
  obtain ⟨n, hn⟩ := Real.Angle.angle_eq_iff_two_pi_dvd_sub.1 (Real.Angle.cos_sin_inj hc hs)
  refine ⟨_, -n, hq, ?_, ?_, ?_⟩
  · simp only
    push_cast
    linear_combination -I.fx * hn
  · simp only
    rw [add_sub_cancel_right, abs_mul, abs_neg, mul_comm]
    exact mul_le_mul_of_nonneg_right t1 (abs_nonneg _)
  · simp only
    cases k with
    | rectilinear => exact absurd rfl hk
    | cylindrical =>
      simp only [Height] at hy ⊢
      rw [hy]
      field_simp
      ring
    | equirectangular =>
      simp only [Height, Elevation] at hy ⊢
      have a1 := abs_lt.1 hy.1
      have hpi := Real.pi_pos
      have hcos : 0 < Real.cos y := Real.cos_pos_of_mem_Ioo ⟨a1.1, a1.2⟩
      have : Complex.arg ⟨ground D, D.z⟩ = y := by
        have := arg_polar (θ := y) (div_pos hr hcos) (by linarith) (by linarith)
        have e1 : ground D / Real.cos y * Real.cos y = ground D := by field_simp
        have e2 : ground D / Real.cos y * Real.sin y = D.z := by rw [hy.2, Real.tan_eq_sin_div_cos]; ring
        rwa [e1, e2] at this
      rw [this]
      ring

namespace Panorama

theorem inv_level (o : Orient) (ho : Level o) (r : V3 ℝ) :
    o.mat.Rinv.applyR r =
      ⟨Real.cos (heading o * Real.pi / 180) * r.x - Real.sin (heading o * Real.pi / 180) * r.z,
        -Real.sin (heading o * Real.pi / 180) * r.x - Real.cos (heading o * Real.pi / 180) * r.z, r.y⟩ := by
  have hi : o.mat.Rinv = o.mat.R.T := by cases o <;> exact Spatial.inv_rot _ _ _
  have e1 : ∀ x : ℝ, Spatial.rad x = x * Real.pi / 180 := fun x => by unfold Spatial.rad; ring
  rw [hi]
  cases o with
  | thr p =>
    obtain ⟨e, t, r, h, x, y⟩ := p
    obtain ⟨h1, h2⟩ := ho
    simp only at h1 h2
    subst h1 h2
    have w := (C12_heading_wrap ⟨e, 90, 0, h, x, y⟩).2.2.2.2.1
    have b : (90 : ℝ) * Real.pi / 180 = Real.pi / 2 := by ring
    ext <;> simp [heading, Orient.mat, w, Spatial.matrices, e1, b, M3.applyR, V3.dot,
      Spatial.rotation, M3.mul, M3.rowMul, M3.T, Spatial.R_roll, Spatial.R_tilt, Spatial.R_head] <;> ring
  | ypr p =>
    obtain ⟨h1, h2⟩ := ho
    have b : Spatial.wrap360 0 = 0 := by unfold Spatial.wrap360; rw [if_neg (by norm_num)]
    ext <;> simp [heading, Orient.mat, Spatial.initCameraMatrixYPR, Spatial.matricesYPR, e1, b, h1, h2, M3.applyR,
      V3.dot, Spatial.rotation, M3.mul, M3.rowMul, M3.T, Spatial.R_roll, Spatial.R_tilt, Spatial.R_head] <;> ring

/-- How much the ray of a pixel rises on a horizontal distance of 1. -/
noncomputable def rise (k : Kind) (I : Intr) (p : V2 ℝ) : ℝ :=
  match k with
  | .equirectangular => Real.tan ((I.cy - p.y) / I.fy)
  | _ => (I.cy - p.y) / I.fy

theorem ray_level (k : Kind) (hk : k ≠ .rectilinear) (I : Intr) (hfx : I.fx ≠ 0) (hfy : I.fy ≠ 0) (o : Orient) (ho : Level o) (p : V2 ℝ) :
    (Camera.getRay ⟨k, I, o, noDistortion⟩ p.num).2.Is ⟨Real.sin (heading o * Real.pi / 180 + (p.x - I.cx) / I.fx),
      Real.cos (heading o * Real.pi / 180 + (p.x - I.cx) / I.fx), rise k I p⟩ := by
  refine V3.Is.congr (M3.apply_is (A := o.mat.Rinv) (getRay_is k hfx hfy (V2.is_num p))) ?_
  rw [inv_level o ho]
  have e : (I.cy - p.y) / I.fy = -((p.y - I.cy) / I.fy) := by ring
  cases k with
  | rectilinear => exact absurd rfl hk
  | cylindrical => ext <;> simp [rayR, rise, Real.sin_add, Real.cos_add, e] <;> ring
  | equirectangular => ext <;> simp [rayR, rise, Real.sin_add, Real.cos_add, e] <;> ring

theorem ground_mul (a z f : ℝ) (hf : 0 ≤ f) : ground ⟨Real.sin a * f, Real.cos a * f, z⟩ = f := by
  unfold ground
  simp only
  rw [show (Real.sin a * f) ^ 2 + (Real.cos a * f) ^ 2 = f ^ 2 * (Real.sin a ^ 2 + Real.cos a ^ 2) by ring, Real.sin_sq_add_cos_sq, mul_one,
    Real.sqrt_sq hf]

end Panorama

/-- **C169** The ray of a pixel of a level panorama has the bearing and the height that belong to its column and row. -/
theorem C169_ray (k : Kind) (hk : k ≠ .rectilinear) (I : Intr) (hfx : I.fx ≠ 0) (hfy : I.fy ≠ 0) (o : Orient) (ho : Level o) (p : V2 ℝ) :
    ∃ d : V3 ℝ, (Camera.getRay ⟨k, I, o, noDistortion⟩ p.num).2.Is d ∧ ground d = 1 ∧
      Bearing d (heading o * Real.pi / 180 + (p.x - I.cx) / I.fx) ∧
      ((k = .equirectangular → |p.y - I.cy| < Real.pi / 2 * |I.fy|) → Height k d ((I.cy - p.y) / I.fy)) := by
  have hg : ground ⟨Real.sin (heading o * Real.pi / 180 + (p.x - I.cx) / I.fx), Real.cos (heading o * Real.pi / 180 + (p.x - I.cx) / I.fx), rise k I p⟩ = 1 := by
    have := ground_mul (heading o * Real.pi / 180 + (p.x - I.cx) / I.fx) (rise k I p) 1 zero_le_one
    simpa using this
  refine ⟨_, ray_level k hk I hfx hfy o ho p, hg, ?_, fun hy => ?_⟩
  · unfold Bearing
    rw [hg, one_mul, one_mul]
    exact ⟨rfl, rfl⟩
  · cases k with
    | rectilinear => exact absurd rfl hk
    | cylindrical =>
      simp only [Height]
      rw [hg, one_mul]
      rfl
    | equirectangular =>
      simp only [Height, Elevation]
      rw [hg, one_mul]
      refine ⟨?_, rfl⟩
      rw [abs_div, abs_sub_comm, div_lt_iff₀ (abs_pos.2 hfy)]
      exact hy rfl

/-- **C169** The ground seen at a pixel: its direction is the one of the column and its distance the height of the camera over the rise of the row. -/
theorem C169_ground (k : Kind) (hk : k ≠ .rectilinear) (I : Intr) (hfx : I.fx ≠ 0) (hfy : I.fy ≠ 0) (o : Orient) (ho : Level o) (p : V2 ℝ) (v : ℝ)
    (s : ℝ) (hs : s = match k with | .equirectangular => Real.tan ((I.cy - p.y) / I.fy) | _ => (I.cy - p.y) / I.fy) (hs0 : s ≠ 0)
    (hv : 0 ≤ (v - o.pos.z) / s) :
    ∃ (w : V3 Num) (q : V3 ℝ), spaceFromImage ⟨k, I, o, noDistortion⟩ p.num (coord 2 (.fin v)) = .ok w ∧ w.Is q ∧ q.z = v ∧
      ground (q - o.pos) = (v - o.pos.z) / s ∧ Bearing (q - o.pos) (heading o * Real.pi / 180 + (p.x - I.cx) / I.fx) := by
  have hd := ray_level k hk I hfx hfy o ho p
  have hr : rise k I p = s := by
    rw [hs]
    cases k <;> rfl
  rw [hr] at hd
  have hw := spaceFromImage_coord ⟨k, I, o, noDistortion⟩ p.num 2 (.fin v)
  have hoff := getRay_offset ⟨k, I, o, noDistortion⟩ p.num false
  have hpt := pointAt_is hd hoff (Num.Is.div (Num.Is.sub (Num.is_fin v) (hoff.get 2)) (hd.get 2) hs0) hv
  obtain ⟨f, hf⟩ : ∃ f, f = (v - o.pos.z) / s := ⟨_, rfl⟩
  obtain ⟨a, ha⟩ : ∃ a, a = heading o * Real.pi / 180 + (p.x - I.cx) / I.fx := ⟨_, rfl⟩
  have hq : (V3.mulS ⟨Real.sin a, Real.cos a, s⟩ f + o.pos) - o.pos = ⟨Real.sin a * f, Real.cos a * f, s * f⟩ := by
    ext <;> simp
  have hz : s * f = v - o.pos.z := by rw [hf]; field_simp
  rw [← hf] at hv
  refine ⟨_, _, hw, hpt, ?_, ?_, ?_⟩
  · show s * ((v - o.pos.z) / s) + o.pos.z = v
    rw [← hf, hz]
    ring
  · rw [← hf, ← ha]
    show ground ((V3.mulS ⟨Real.sin a, Real.cos a, s⟩ ((v - o.pos.z) / s) + o.pos) - o.pos) = f
    rw [← hf, hq, ground_mul _ _ _ hv]
  · rw [← ha]
    show Bearing ((V3.mulS ⟨Real.sin a, Real.cos a, s⟩ ((v - o.pos.z) / s) + o.pos) - o.pos) a
    rw [← hf, hq]
    unfold Bearing
    rw [ground_mul _ _ _ hv]
    exact ⟨mul_comm _ _, mul_comm _ _⟩

namespace Panorama

theorem bearing_exists (D : V3 ℝ) : ∃ b, Bearing D b := by
  refine ⟨Complex.arg ⟨D.y, D.x⟩, ?_⟩
  have hn : ground D = ‖(⟨D.y, D.x⟩ : ℂ)‖ := by
    unfold ground
    rw [Complex.norm_def, Complex.normSq_apply]
    congr 1
    ring
  unfold Bearing
  rw [hn]
  exact ⟨(Complex.norm_mul_sin_arg ⟨D.y, D.x⟩).symm, (Complex.norm_mul_cos_arg ⟨D.y, D.x⟩).symm⟩

/-- The height as a number. -/
noncomputable def heightOf (k : Kind) (t : ℝ) : ℝ :=
  match k with
  | .equirectangular => Real.arctan t
  | _ => t

theorem heightOf_lt (k : Kind) (s t : ℝ) : heightOf k s < heightOf k t ↔ s < t := by
  cases k with
  | equirectangular => exact Real.arctan_lt_arctan_iff
  | _ => exact Iff.rfl

theorem height_exists (k : Kind) (D : V3 ℝ) (hg : 0 < ground D) : Height k D (heightOf k (D.z / ground D)) := by
  cases k with
  | equirectangular =>
    refine ⟨abs_lt.2 ⟨Real.neg_pi_div_two_lt_arctan _, Real.arctan_lt_pi_div_two _⟩, ?_⟩
    simp only [heightOf]
    rw [Real.tan_arctan, mul_div_cancel₀ _ hg.ne']
  | _ =>
    simp only [heightOf, Height]
    rw [mul_div_cancel₀ _ hg.ne']

theorem ground_pos (k : Kind) (I : Intr) (o : Orient) (ho : Level o) (P : V3 ℝ) (hP : Deep ⟨k, I, o, noDistortion⟩ P) : 0 < ground (P - o.pos) := by
  obtain ⟨C, hC, hz⟩ := hP
  have e : C = camR ⟨k, I, o, noDistortion⟩ P := hC.unique (cameraFromSpace_is ⟨k, I, o, noDistortion⟩ (V3.is_num P))
  rw [camR_level k I o ho] at e
  have hz0 : C.z ≠ 0 := by
    intro h0; rw [h0] at hz; norm_num [minDepth] at hz
  refine Real.sqrt_pos.2 ?_
  by_contra hn
  have h1 : (P - o.pos).x = 0 := by nlinarith [sq_nonneg (P - o.pos).x, sq_nonneg (P - o.pos).y]
  have h2 : (P - o.pos).y = 0 := by nlinarith [sq_nonneg (P - o.pos).x, sq_nonneg (P - o.pos).y]
  apply hz0
  rw [e]
  simp only
  rw [h1, h2]
  ring

end Panorama

/-- **C169** Of two points in a level panorama: they are in the same row if and only if they have the same height over the horizontal distance, so
everything as high as the camera is in the row of the principal point; and points above each other are in the same column, up to a full circle. -/
theorem C169_order (k : Kind) (hk : k ≠ .rectilinear) (I : Intr) (hfy : 0 < I.fy) (o : Orient) (ho : Level o) (P Q : V3 ℝ) (hide : Bool)
    (hP : Deep ⟨k, I, o, noDistortion⟩ P) (hQ : Deep ⟨k, I, o, noDistortion⟩ Q) :
    ∃ p q : V2 ℝ, (imageFromSpace ⟨k, I, o, noDistortion⟩ P.num hide).Is p ∧ (imageFromSpace ⟨k, I, o, noDistortion⟩ Q.num hide).Is q ∧
      (p.y < q.y ↔ (Q - o.pos).z * ground (P - o.pos) < (P - o.pos).z * ground (Q - o.pos)) ∧
      (p.y = I.cy ↔ P.z = o.pos.z) ∧
      ((Q - o.pos).x = (P - o.pos).x → (Q - o.pos).y = (P - o.pos).y → ∃ n : ℤ, q.x = p.x + n * (2 * Real.pi * I.fx)) := by
  have gP := ground_pos k I o ho P hP
  have gQ := ground_pos k I o ho Q hQ
  obtain ⟨b, hb⟩ := bearing_exists (P - o.pos)
  obtain ⟨b', hb'⟩ := bearing_exists (Q - o.pos)
  obtain ⟨p, n, hp, p1, -, p2⟩ := C169_picture k hk I o ho P hide hP b _ hb (height_exists k _ gP)
  obtain ⟨q, m, hq, -, -, q2⟩ := C169_picture k hk I o ho Q hide hQ b' _ hb' (height_exists k _ gQ)
  refine ⟨p, q, hp, hq, ?_, ?_, fun hx hy => ?_⟩
  · rw [p2, q2, sub_lt_sub_iff_left, mul_lt_mul_iff_right₀ hfy, heightOf_lt, div_lt_div_iff₀ gQ gP]
  · have hz : heightOf k 0 = 0 := by cases k <;> simp [heightOf]
    have hi : heightOf k ((P - o.pos).z / ground (P - o.pos)) = 0 ↔ P.z = o.pos.z := by
      constructor
      · intro h0
        have h1 := (heightOf_lt k ((P - o.pos).z / ground (P - o.pos)) 0).not
        have h2 := (heightOf_lt k 0 ((P - o.pos).z / ground (P - o.pos))).not
        rw [h0, hz] at h1 h2
        have h3 : (P - o.pos).z / ground (P - o.pos) = 0 := le_antisymm (not_lt.1 (h2.1 (lt_irrefl _))) (not_lt.1 (h1.1 (lt_irrefl _)))
        rcases div_eq_zero_iff.1 h3 with h | h
        · exact sub_eq_zero.1 h
        · exact absurd h gP.ne'
      · intro h0
        have : (P - o.pos).z = 0 := sub_eq_zero.2 h0
        rw [this, zero_div, hz]
    rw [← hi, p2]
    constructor
    · intro h0
      have : I.fy * heightOf k ((P - o.pos).z / ground (P - o.pos)) = 0 := by linarith
      exact (mul_eq_zero.1 this).resolve_left hfy.ne'
    · intro h0
      rw [h0]
      ring
  · have hg : ground (Q - o.pos) = ground (P - o.pos) := by unfold ground; rw [hx, hy]
    have hbQ : Bearing (Q - o.pos) b := by
      unfold Bearing
      rw [hx, hy, hg]
      exact hb
    obtain ⟨q', m', hq', q1, -, -⟩ := C169_picture k hk I o ho Q hide hQ b _ hbQ (height_exists k _ gQ)
    rw [hq.unique hq', p1, q1]
    exact ⟨m' - n, by push_cast; ring⟩

/-- A panorama that is level, and a point in front of it. -/
example : ∃ (k : Kind) (I : Intr) (o : Orient) (P : V3 ℝ) (b y : ℝ), k ≠ .rectilinear ∧ 0 < I.fx ∧ 0 < I.fy ∧ Level o ∧
    Deep ⟨k, I, o, noDistortion⟩ P ∧ Bearing (P - o.pos) b ∧ Height k (P - o.pos) y := by
  have hL : Level (.thr ⟨0, 90, 0, 0, 0, 0⟩) := ⟨rfl, rfl⟩
  have hD : Deep ⟨.cylindrical, ⟨500, 400, 300, 200, 600, 400⟩, .thr ⟨0, 90, 0, 0, 0, 0⟩, noDistortion⟩ ⟨0, 1, 0⟩ := by
    refine ⟨_, cameraFromSpace_is _ (V3.is_num _), ?_⟩
    rw [camR_level _ _ _ hL]
    simp [heading, Orient.pos, minDepth]
    norm_num
  obtain ⟨b, hb⟩ := bearing_exists ((⟨0, 1, 0⟩ : V3 ℝ) - (Orient.thr ⟨0, 90, 0, 0, 0, 0⟩).pos)
  exact ⟨.cylindrical, ⟨500, 400, 300, 200, 600, 400⟩, .thr ⟨0, 90, 0, 0, 0, 0⟩, ⟨0, 1, 0⟩, b, _, by decide, by norm_num, by norm_num, hL, hD, hb,
    height_exists _ _ (ground_pos _ _ _ hL _ hD)⟩

/-- A row below the horizon shows the ground. -/
example : ∃ (I : Intr) (o : Orient) (p : V2 ℝ) (v s : ℝ), I.fx ≠ 0 ∧ I.fy ≠ 0 ∧ Level o ∧ s = (I.cy - p.y) / I.fy ∧ s ≠ 0 ∧ 0 ≤ (v - o.pos.z) / s :=
  ⟨⟨500, 400, 300, 200, 600, 400⟩, .thr ⟨10, 90, 0, 0, 0, 0⟩, ⟨0, 600⟩, 0, -1, by norm_num, by norm_num, ⟨rfl, rfl⟩, by norm_num, by norm_num,
    by norm_num [Orient.pos]⟩
