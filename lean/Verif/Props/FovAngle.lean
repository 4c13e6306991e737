import Verif.Spec.Fov
import Verif.Proofs.Camera
import Verif.Props.Fov

/-! # The field of view is the angle between the rays of the image edges (C114) -/

open Classical Num Projection

namespace Fov

theorem dot_applyR {A : M3} (c : M3.mul A.T A = M3.one) (p q : V3 ℝ) : (A.applyR p).dot (A.applyR q) = p.dot q := by
  have h1 := M3.normSq_applyR c (p + q)
  have h2 := M3.normSq_applyR c p
  have h3 := M3.normSq_applyR c q
  rw [M3.applyR_add] at h1
  simp only [V3.normSq, V3.add_x, V3.add_y, V3.add_z] at h1 h2 h3
  unfold V3.dot
  linarith

theorem angle_dirR (c : Camera.Cam) (p q : V2 ℝ) :
    Geo.angle (Camera.dirR c p) (Camera.dirR c q) = Geo.angle (rayR c.kind c.intr p) (rayR c.kind c.intr q) := by
  have hR : M3.mul c.orient.mat.R.T.T c.orient.mat.R.T = M3.one := (Camera.rigid_mat c.orient).RT
  unfold Geo.angle Camera.dirR V3.norm
  rw [dot_applyR hR, M3.normSq_applyR hR, M3.normSq_applyR hR]

theorem angle_comm (u v : V3 ℝ) : Geo.angle u v = Geo.angle v u := by
  unfold Geo.angle V3.dot
  rw [mul_comm u.norm]
  congr 2
  ring

/-- The ray of the centre. -/
theorem ray_centre (k : Kind) (I : Intr) : rayR k I ⟨I.cx, I.cy⟩ = ⟨0, 0, -1⟩ := by
  cases k <;> simp [rayR]

theorem angle_axis_tan (b x : ℝ) (x0 : x = 0 ∨ b = 0) : Geo.angle ⟨x, b, -1⟩ ⟨0, 0, -1⟩ = Real.arctan (|x| + |b|) := by
  have h0 : 0 ≤ |x| + |b| := by positivity
  have hn : (V3.normSq ⟨x, b, -1⟩ : ℝ) = 1 + (|x| + |b|) ^ 2 := by
    rcases x0 with h | h <;> simp [h, V3.normSq] <;> ring
  have h1 : (V3.dot ⟨x, b, -1⟩ ⟨0, 0, -1⟩ : ℝ) / (V3.norm ⟨x, b, -1⟩ * V3.norm ⟨0, 0, -1⟩) = Real.cos (Real.arctan (|x| + |b|)) := by
    rw [Real.cos_arctan, V3.norm, V3.norm, hn]
    simp [V3.dot, V3.normSq]
  rw [Geo.angle, h1, Real.arccos_cos (Real.arctan_nonneg.2 h0)]
  have := Real.arctan_lt_pi_div_two (|x| + |b|)
  linarith [Real.pi_pos]

theorem angle_axis_turn (a : ℝ) (h : |a| ≤ Real.pi) : Geo.angle ⟨Real.sin a, 0, -Real.cos a⟩ ⟨0, 0, -1⟩ = |a| := by
  have h1 : (V3.dot ⟨Real.sin a, 0, -Real.cos a⟩ ⟨0, 0, -1⟩ : ℝ) /
      (V3.norm ⟨Real.sin a, 0, -Real.cos a⟩ * V3.norm ⟨0, 0, -1⟩) = Real.cos |a| := by
    rw [Real.cos_abs]
    have : (V3.normSq ⟨Real.sin a, 0, -Real.cos a⟩ : ℝ) = 1 := by
      simp [V3.normSq]
    rw [V3.norm, V3.norm, this]
    simp [V3.dot, V3.normSq]
  rw [Geo.angle, h1, Real.arccos_cos (abs_nonneg a) h]

/-- The angle between the ray of a point in the middle row and the axis. -/
noncomputable def angleX (k : Kind) (t : ℝ) : ℝ := if k = .rectilinear then Real.arctan |t| else |t|

/-- The angle between the ray of a point in the middle column and the axis. -/
noncomputable def angleY (k : Kind) (t : ℝ) : ℝ := if k = .equirectangular then |t| else Real.arctan |t|

theorem angle_x (k : Kind) (I : Intr) (x : ℝ) (h : k ≠ .rectilinear → |(x - I.cx) / I.fx| ≤ Real.pi) :
    Geo.angle (rayR k I ⟨x, I.cy⟩) (rayR k I ⟨I.cx, I.cy⟩) = angleX k ((x - I.cx) / I.fx) := by
  rw [ray_centre]
  cases k with
  | rectilinear =>
    have := angle_axis_tan 0 ((x - I.cx) / I.fx) (.inr rfl)
    simpa [rayR, angleX] using this
  | cylindrical =>
    have := angle_axis_turn _ (h (by simp))
    simpa [rayR, angleX] using this
  | equirectangular =>
    have := angle_axis_turn _ (h (by simp))
    simpa [rayR, angleX] using this

theorem angle_y (k : Kind) (I : Intr) (y : ℝ) (h : k = .equirectangular → |(y - I.cy) / I.fy| < Real.pi / 2) :
    Geo.angle (rayR k I ⟨I.cx, y⟩) (rayR k I ⟨I.cx, I.cy⟩) = angleY k ((y - I.cy) / I.fy) := by
  rw [ray_centre]
  cases k with
  | rectilinear =>
    have := angle_axis_tan (-((y - I.cy) / I.fy)) 0 (.inl rfl)
    simpa [rayR, angleY] using this
  | cylindrical =>
    have := angle_axis_tan (-((y - I.cy) / I.fy)) 0 (.inl rfl)
    simpa [rayR, angleY] using this
  | equirectangular =>
    have h1 := h rfl
    have h2 := angle_axis_tan (-Real.tan ((y - I.cy) / I.fy)) 0 (.inl rfl)
    have h3 : |Real.tan ((y - I.cy) / I.fy)| = Real.tan |(y - I.cy) / I.fy| := by
      rcases le_total 0 ((y - I.cy) / I.fy) with h0 | h0
      · rw [abs_of_nonneg h0]
        rw [abs_of_nonneg h0] at h1
        exact abs_of_nonneg (Real.tan_nonneg_of_nonneg_of_le_pi_div_two h0 h1.le)
      · rw [abs_of_nonpos h0]
        rw [abs_of_nonpos h0] at h1
        rw [Real.tan_neg]
        exact abs_of_nonpos (Real.tan_nonpos_of_nonpos_of_neg_pi_div_two_le h0 (by linarith))
    have h4 : Real.arctan (Real.tan |(y - I.cy) / I.fy|) = |(y - I.cy) / I.fy| :=
      Real.arctan_tan (by linarith [abs_nonneg ((y - I.cy) / I.fy), Real.pi_pos]) h1
    simp only [rayR, sub_self, zero_div, Real.sin_zero, Real.cos_zero, angleY, if_true]
    rw [h2, abs_zero, zero_add, abs_neg, h3, h4]

/-- The arctangent is strictly concave for positive numbers. -/
theorem arctan_concave {a b : ℝ} (ha : 0 ≤ a) (hb : 0 ≤ b) (h : a ≠ b) :
    Real.arctan a + Real.arctan b < 2 * Real.arctan ((a + b) / 2) := by
  set A := Real.arctan a with hA
  set B := Real.arctan b with hB
  have hA0 : 0 ≤ A := Real.arctan_nonneg.2 ha
  have hB0 : 0 ≤ B := Real.arctan_nonneg.2 hb
  have hA1 : A < Real.pi / 2 := Real.arctan_lt_pi_div_two a
  have hB1 : B < Real.pi / 2 := Real.arctan_lt_pi_div_two b
  have hne : A ≠ B := fun e => h (Real.arctan_injective e)
  have cA : 0 < Real.cos A := Real.cos_pos_of_mem_Ioo ⟨by linarith, hA1⟩
  have cB : 0 < Real.cos B := Real.cos_pos_of_mem_Ioo ⟨by linarith, hB1⟩
  have hs : 0 < A + B := by
    rcases hA0.lt_or_eq with h1 | h1
    · linarith
    · rcases hB0.lt_or_eq with h2 | h2
      · linarith
      · exact absurd (h1.symm.trans h2) hne
  have hsin : 0 < Real.sin (A + B) := Real.sin_pos_of_pos_of_lt_pi hs (by linarith)
  have hcos : Real.cos (A - B) < 1 := by
    refine lt_of_le_of_ne (Real.cos_le_one _) fun e => hne ?_
    have := (Real.cos_eq_one_iff_of_lt_of_lt (x := A - B) (by linarith) (by linarith)).1 e
    linarith
  have e1 : (a + b) / 2 = Real.sin (A + B) / (Real.cos (A + B) + Real.cos (A - B)) := by
    have ta : a = Real.sin A / Real.cos A := by rw [← Real.tan_eq_sin_div_cos, hA, Real.tan_arctan]
    have tb : b = Real.sin B / Real.cos B := by rw [← Real.tan_eq_sin_div_cos, hB, Real.tan_arctan]
    have : Real.cos (A + B) + Real.cos (A - B) = 2 * (Real.cos A * Real.cos B) := by
      rw [Real.cos_add, Real.cos_sub]; ring
    rw [this, Real.sin_add]
    conv_lhs => rw [ta, tb]
    field_simp
  have hden : 0 < Real.cos (A + B) + Real.cos (A - B) := by
    rw [Real.cos_add, Real.cos_sub]
    have := mul_pos cA cB
    linarith
  have e2 : Real.tan ((A + B) / 2) = Real.sin (A + B) / (1 + Real.cos (A + B)) := by
    have c2 : 0 < Real.cos ((A + B) / 2) := Real.cos_pos_of_mem_Ioo ⟨by linarith, by linarith⟩
    have s := Real.sin_two_mul ((A + B) / 2)
    have c := Real.cos_two_mul ((A + B) / 2)
    rw [show 2 * ((A + B) / 2) = A + B by ring] at s c
    rw [s, c, Real.tan_eq_sin_div_cos]
    have : (1 : ℝ) + (2 * Real.cos ((A + B) / 2) ^ 2 - 1) = 2 * Real.cos ((A + B) / 2) ^ 2 := by ring
    rw [this]
    field_simp
  have h5 : Real.tan ((A + B) / 2) < (a + b) / 2 := by
    rw [e1, e2]
    apply div_lt_div_of_pos_left hsin hden
    linarith
  have h6 := Real.arctan_strictMono h5
  rw [Real.arctan_tan (by linarith) (by linarith)] at h6
  linarith

theorem angle_edges {s c f : ℝ} (hf : 0 < f) (h0 : 0 ≤ c) (h1 : c ≤ s) : |(0 - c) / f| = c / f ∧ |(s - c) / f| = (s - c) / f := by
  refine ⟨?_, abs_of_nonneg (by have : 0 ≤ s - c := by linarith
                                positivity)⟩
  rw [zero_sub, neg_div, abs_neg, abs_of_nonneg (by positivity)]

/-- The rays of three pixels of a camera without distortion. -/
theorem rays (c : Camera.Cam) (hl : c.lens = Camera.noDistortion) (hfx : 0 < c.intr.fx) (hfy : 0 < c.intr.fy) (p : V2 ℝ) :
    (Camera.getRay c p.num).2.Is (Camera.dirR c p) := by
  obtain ⟨s, -, h1, -, h2⟩ := Camera.getRay_dir c hfx.ne' hfy.ne' (n := p.num) (p := p) (by rw [hl]; exact V2.is_num p) false
  rw [h1 rfl] at h2
  exact h2.congr (by ext <;> simp)

end Fov

open Fov

/-- **C114** (partial: the centre in the middle of the image for rectilinear projections, see `C114_violated`) For a camera
without distortion the reported horizontal field of view is the angle swept by the rays from the left edge of the image over
the centre to the right edge; panoramas up to the full circle. -/
theorem C114_horizontal_partial (c : Camera.Cam) (hl : c.lens = Camera.noDistortion) (hfx : 0 < c.intr.fx) (hfy : 0 < c.intr.fy)
    (h0 : 0 ≤ c.intr.cx) (h1 : c.intr.cx ≤ c.intr.w)
    (hr : c.kind = .rectilinear → c.intr.cx = c.intr.w / 2)
    (hp : c.kind ≠ .rectilinear → c.intr.cx / c.intr.fx ≤ Real.pi ∧ (c.intr.w - c.intr.cx) / c.intr.fx ≤ Real.pi) :
    ∃ u a v : V3 ℝ, (Camera.getRay c (V2.num ⟨0, c.intr.cy⟩)).2.Is u ∧ (Camera.getRay c (V2.num ⟨c.intr.cx, c.intr.cy⟩)).2.Is a ∧
      (Camera.getRay c (V2.num ⟨c.intr.w, c.intr.cy⟩)).2.Is v ∧ Num.Is (getFieldOfView c.kind c.intr).1 (Geo.sweep u a v) := by
  refine ⟨_, _, _, rays c hl hfx hfy _, rays c hl hfx hfy _, rays c hl hfx hfy _, ?_⟩
  obtain ⟨e1, e2⟩ := angle_edges hfx h0 h1
  have := Real.pi_pos
  rw [Geo.sweep, angle_comm (Camera.dirR c ⟨c.intr.cx, c.intr.cy⟩), angle_dirR, angle_dirR,
    angle_x _ _ _ (fun h => by rw [e1]; exact (hp h).1), angle_x _ _ _ (fun h => by rw [e2]; exact (hp h).2)]
  unfold angleX
  rw [e1, e2]
  cases hk : c.kind with
  | rectilinear =>
    rw [if_pos rfl, if_pos rfl]
    refine (arctan_is c.intr.w c.intr.fx hfx.ne').congr ?_
    rw [hr hk]
    have e3 : (c.intr.w - c.intr.w / 2) / c.intr.fx = c.intr.w / (2 * c.intr.fx) := by field_simp; ring
    have e4 : c.intr.w / 2 / c.intr.fx = c.intr.w / (2 * c.intr.fx) := by field_simp
    rw [e3, e4]; ring
  | cylindrical =>
    rw [if_neg (by simp), if_neg (by simp)]
    exact (linView_is c.intr.w c.intr.fx hfx.ne').congr (by field_simp; ring)
  | equirectangular =>
    rw [if_neg (by simp), if_neg (by simp)]
    exact (linView_is c.intr.w c.intr.fx hfx.ne').congr (by field_simp; ring)

/-- **C114** (partial: as above) The same for the vertical field of view. -/
theorem C114_vertical_partial (c : Camera.Cam) (hl : c.lens = Camera.noDistortion) (hfx : 0 < c.intr.fx) (hfy : 0 < c.intr.fy)
    (h0 : 0 ≤ c.intr.cy) (h1 : c.intr.cy ≤ c.intr.h)
    (hr : c.kind ≠ .equirectangular → c.intr.cy = c.intr.h / 2)
    (hp : c.kind = .equirectangular → c.intr.cy / c.intr.fy < Real.pi / 2 ∧ (c.intr.h - c.intr.cy) / c.intr.fy < Real.pi / 2) :
    ∃ u a v : V3 ℝ, (Camera.getRay c (V2.num ⟨c.intr.cx, 0⟩)).2.Is u ∧ (Camera.getRay c (V2.num ⟨c.intr.cx, c.intr.cy⟩)).2.Is a ∧
      (Camera.getRay c (V2.num ⟨c.intr.cx, c.intr.h⟩)).2.Is v ∧ Num.Is (getFieldOfView c.kind c.intr).2 (Geo.sweep u a v) := by
  refine ⟨_, _, _, rays c hl hfx hfy _, rays c hl hfx hfy _, rays c hl hfx hfy _, ?_⟩
  obtain ⟨e1, e2⟩ := angle_edges hfy h0 h1
  have := Real.pi_pos
  rw [Geo.sweep, angle_comm (Camera.dirR c ⟨c.intr.cx, c.intr.cy⟩), angle_dirR, angle_dirR,
    angle_y _ _ _ (fun h => by rw [e1]; exact (hp h).1), angle_y _ _ _ (fun h => by rw [e2]; exact (hp h).2)]
  unfold angleY
  rw [e1, e2]
  have T : c.intr.cy = c.intr.h / 2 → Num.Is (Num.rad2deg (.fin 2 * Num.arctan (.fin c.intr.h / (.fin 2 * .fin c.intr.fy))))
      ((Real.arctan (c.intr.cy / c.intr.fy) + Real.arctan ((c.intr.h - c.intr.cy) / c.intr.fy)) * (180 / Real.pi)) := by
    intro hc
    refine (arctan_is c.intr.h c.intr.fy hfy.ne').congr ?_
    rw [hc]
    have e3 : (c.intr.h - c.intr.h / 2) / c.intr.fy = c.intr.h / (2 * c.intr.fy) := by field_simp; ring
    have e4 : c.intr.h / 2 / c.intr.fy = c.intr.h / (2 * c.intr.fy) := by field_simp
    rw [e3, e4]; ring
  cases hk : c.kind with
  | rectilinear =>
    rw [if_neg (by simp), if_neg (by simp)]
    exact T (hr (by simp [hk]))
  | cylindrical =>
    rw [if_neg (by simp), if_neg (by simp)]
    exact T (hr (by simp [hk]))
  | equirectangular =>
    rw [if_pos rfl, if_pos rfl]
    exact (linView_is c.intr.h c.intr.fy hfy.ne').congr (by field_simp; ring)

/-- **C114 violated** For every rectilinear camera whose centre is not in the middle of the image the reported field of view
is larger than the angle between the edges. -/
theorem C114_violated (c : Camera.Cam) (hl : c.lens = Camera.noDistortion) (hk : c.kind = .rectilinear) (hfx : 0 < c.intr.fx)
    (hfy : 0 < c.intr.fy) (h0 : 0 ≤ c.intr.cx) (h1 : c.intr.cx ≤ c.intr.w) (hc : c.intr.cx ≠ c.intr.w / 2) :
    ∃ (u a v : V3 ℝ) (r : ℝ), (Camera.getRay c (V2.num ⟨0, c.intr.cy⟩)).2.Is u ∧
      (Camera.getRay c (V2.num ⟨c.intr.cx, c.intr.cy⟩)).2.Is a ∧
      (Camera.getRay c (V2.num ⟨c.intr.w, c.intr.cy⟩)).2.Is v ∧ Num.Is (getFieldOfView c.kind c.intr).1 r ∧ Geo.sweep u a v < r := by
  have hpi := Real.pi_pos
  refine ⟨_, _, _, 2 * Real.arctan (c.intr.w / (2 * c.intr.fx)) * (180 / Real.pi), rays c hl hfx hfy _, rays c hl hfx hfy _,
    rays c hl hfx hfy _, ?_, ?_⟩
  · rw [hk]; exact arctan_is c.intr.w c.intr.fx hfx.ne'
  · obtain ⟨e1, e2⟩ := angle_edges hfx h0 h1
    rw [Geo.sweep, angle_comm (Camera.dirR c ⟨c.intr.cx, c.intr.cy⟩), angle_dirR, angle_dirR,
      angle_x _ _ _ (fun h => absurd hk h), angle_x _ _ _ (fun h => absurd hk h)]
    unfold angleX
    rw [if_pos hk, if_pos hk, e1, e2]
    have := arctan_concave (a := c.intr.cx / c.intr.fx) (b := (c.intr.w - c.intr.cx) / c.intr.fx) (by positivity)
      (by have : 0 ≤ c.intr.w - c.intr.cx := by linarith
          positivity) (fun e => hc (by field_simp at e; linarith))
    have e3 : (c.intr.cx / c.intr.fx + (c.intr.w - c.intr.cx) / c.intr.fx) / 2 = c.intr.w / (2 * c.intr.fx) := by field_simp; ring
    rw [e3] at this
    gcongr

/-- A panorama over the full circle and a rectilinear camera. -/
example : ∃ c : Camera.Cam, c.lens = Camera.noDistortion ∧ 0 < c.intr.fx ∧ 0 < c.intr.fy ∧ 0 ≤ c.intr.cx ∧ c.intr.cx ≤ c.intr.w ∧
    c.kind = .cylindrical ∧ c.intr.cx / c.intr.fx ≤ Real.pi ∧ (c.intr.w - c.intr.cx) / c.intr.fx ≤ Real.pi ∧
    0 ≤ c.intr.cy ∧ c.intr.cy ≤ c.intr.h ∧ c.intr.cy = c.intr.h / 2 := by
  have := Real.pi_pos
  refine ⟨⟨.cylindrical, ⟨1, 1, Real.pi, 1, 2 * Real.pi, 2⟩, .thr ⟨1, 0, 0, 0, 0, 0⟩, Camera.noDistortion⟩, rfl, ?_⟩
  refine ⟨by norm_num, by norm_num, by simpa using this.le, ?_, rfl, ?_, ?_, by norm_num, by norm_num, by norm_num⟩ <;> simp <;> linarith

example : ∃ c : Camera.Cam, c.lens = Camera.noDistortion ∧ c.kind = .rectilinear ∧ 0 < c.intr.fx ∧ 0 < c.intr.fy ∧ 0 ≤ c.intr.cx ∧
    c.intr.cx ≤ c.intr.w ∧ c.intr.cx ≠ c.intr.w / 2 :=
  ⟨⟨.rectilinear, ⟨1, 1, 1, 1, 5, 2⟩, .thr ⟨1, 0, 0, 0, 0, 0⟩, Camera.noDistortion⟩, rfl, rfl, by norm_num, by norm_num, by norm_num,
    by norm_num, by norm_num⟩
