import Verif.Props.GraphicsView

/-! # C133: positions computed by the image view -/

open Classical

namespace GView

/-- A view after an image was set, with any history before: what `centerOn` and the maps rely on. -/
structure Ready (v : View) : Prop where
  scale : v.scale ≠ 0
  placed : Placed v
  angle : AngleOk v
  rot : 0 ≤ v.rotation ∧ v.rotation < 360

theorem ready_of_inv (v : View) (h : Inv v) (hr : v.rect ≠ ⟨1, 1⟩) : Ready v := ⟨h.scale.ne', h.placed hr, h.angle, h.rot⟩

/-- A turn leaves only the centre in place, unless it is no turn. -/
theorem turn_fix {c s x y : ℝ} (h1 : c * x - s * y = x) (h2 : s * x + c * y = y) : c = 1 ∨ (x = 0 ∧ y = 0) := by
  by_cases hc : c = 1
  · exact Or.inl hc
  · right
    have e1 : (c - 1) * x - s * y = 0 := by linarith
    have e2 : s * x + (c - 1) * y = 0 := by linarith
    have d : 0 < (c - 1) ^ 2 + s ^ 2 := by
      have : 0 < (c - 1) ^ 2 := by
        have : c - 1 ≠ 0 := sub_ne_zero.2 hc
        positivity
      positivity
    have x0 : ((c - 1) ^ 2 + s ^ 2) * x = 0 := by
      have : ((c - 1) ^ 2 + s ^ 2) * x = (c - 1) * ((c - 1) * x - s * y) + s * (s * x + (c - 1) * y) := by ring
      rw [this, e1, e2]; ring
    have y0 : ((c - 1) ^ 2 + s ^ 2) * y = 0 := by
      have : ((c - 1) ^ 2 + s ^ 2) * y = -s * ((c - 1) * x - s * y) + (c - 1) * (s * x + (c - 1) * y) := by ring
      rw [this, e1, e2]; ring
    exact ⟨(mul_eq_zero.1 x0).resolve_left d.ne', (mul_eq_zero.1 y0).resolve_left d.ne'⟩

/-- No turn by less than 360 degrees but zero has cosine one. -/
theorem cos_one {r : ℝ} (h : 0 ≤ r ∧ r < 360) (hc : Real.cos (r * Real.pi / 180) = 1) : r = 0 := by
  have hp := Real.pi_pos
  rw [Real.cos_eq_one_iff_of_lt_of_lt] at hc
  · have : r * Real.pi = 0 := by linarith
    rcases mul_eq_zero.1 this with h0 | h0
    · exact h0
    · exact absurd h0 hp.ne'
  · have : 0 ≤ r * Real.pi := mul_nonneg h.1 hp.le
    linarith
  · have : r * Real.pi < 360 * Real.pi := mul_lt_mul_of_pos_right h.2 hp
    linarith

theorem centerOn_eq (v : View) (hs : v.scale ≠ 0) (p : V2 ℝ) :
    centerOn v p = some { v with trans :=
      ⟨(v.rect.x / 2 - (if v.rotation = 180 then v.rect.x - p.x else p.x)) + (v.size.x / v.scale - v.rect.x) / 2,
       (v.rect.y / 2 - (if v.rotation = 180 then v.rect.y - p.y else p.y)) + (v.size.y / v.scale - v.rect.y) / 2⟩ } := by
  by_cases h : v.rotation = 180 <;> simp [centerOn, pdiv_ne hs, h]

end GView

open GView

/-- **C133.**  After `centerOn(x, y)` the point `(x, y)` of the image is in the centre of the window exactly if the image is not turned,
turned by 180 degrees, or the point is the centre of the image. -/
theorem C133_center_partial (v : View) (h : Ready v) (p : V2 ℝ) : ∃ w, centerOn v p = some w ∧
    (shown w p = ⟨v.size.x / 2, v.size.y / 2⟩ ↔
      v.rotation = 0 ∨ v.rotation = 180 ∨ p = ⟨v.rect.x / 2, v.rect.y / 2⟩) := by
  have e := centerOn_eq v h.scale p
  refine ⟨_, e, ?_⟩
  have hs := h.scale
  have cs := angle_cs v h.angle
  rw [shown_placed _ (by exact h.placed)]
  simp only [cs.1, cs.2, V2.mk.injEq]
  by_cases h180 : v.rotation = 180
  · simp only [h180, if_true, cs180.1, cs180.2, true_or, or_true, iff_true]
    constructor <;> (field_simp; ring)
  · simp only [h180, if_false, false_or]
    set C := Real.cos (v.rotation * Real.pi / 180) with hC
    set S := Real.sin (v.rotation * Real.pi / 180) with hS
    have u : C ^ 2 + S ^ 2 = 1 := Real.cos_sq_add_sin_sq _
    constructor
    · rintro ⟨h1, h2⟩
      have k1 : C * (p.x - v.rect.x / 2) - S * (p.y - v.rect.y / 2) = p.x - v.rect.x / 2 := by
        have hd : v.scale * (v.size.x / v.scale) = v.size.x := mul_div_cancel₀ _ hs
        generalize v.size.x / v.scale = D at h1 hd
        apply mul_left_cancel₀ hs
        linarith
      have k2 : S * (p.x - v.rect.x / 2) + C * (p.y - v.rect.y / 2) = p.y - v.rect.y / 2 := by
        have hd : v.scale * (v.size.y / v.scale) = v.size.y := mul_div_cancel₀ _ hs
        generalize v.size.y / v.scale = D at h2 hd
        apply mul_left_cancel₀ hs
        linarith
      rcases turn_fix k1 k2 with hc | ⟨hx, hy⟩
      · exact Or.inl (cos_one h.rot hc)
      · exact Or.inr (V2.ext (by simpa using sub_eq_zero.1 hx) (by simpa using sub_eq_zero.1 hy))
    · rintro (h0 | hp)
      · have c1 : C = 1 := by rw [hC, h0]; simp
        have s0 : S = 0 := by rw [hS, h0]; simp
        rw [c1, s0]
        constructor <;> (field_simp; ring)
      · rw [hp]
        constructor <;> (field_simp; ring)

/-- **C133 violated.**  Turned by 90 or 270 degrees, `centerOn` shows every other point of the image than its centre away from the
centre of the window. -/
theorem C133_center_violated (v : View) (h : Ready v) (hq : v.rotation = 90 ∨ v.rotation = 270) (p : V2 ℝ)
    (hp : p ≠ ⟨v.rect.x / 2, v.rect.y / 2⟩) : ∃ w, centerOn v p = some w ∧ shown w p ≠ ⟨v.size.x / 2, v.size.y / 2⟩ := by
  obtain ⟨w, e, hw⟩ := C133_center_partial v h p
  refine ⟨w, e, fun hc => ?_⟩
  rcases hw.1 hc with h0 | h0 | h0
  · rcases hq with hq | hq <;> rw [hq] at h0 <;> norm_num at h0
  · rcases hq with hq | hq <;> rw [hq] at h0 <;> norm_num at h0
  · exact hp h0

/-- **C133.**  `mapToOrigin` of the pixel where a point of the image is shown is that point exactly if the image is not turned or the
point is its centre. -/
theorem C133_map_partial (v : View) (h : Ready v) (p : V2 ℝ) : ∃ q, mapToOrigin v (shown v p) = some q ∧
    (q = p ↔ v.rotation = 0 ∨ p = ⟨v.rect.x / 2, v.rect.y / 2⟩) := by
  have hs := h.scale
  have cs := angle_cs v h.angle
  have e : mapToOrigin v (shown v p) = some ⟨(shown v p).x / v.scale - v.trans.x, (shown v p).y / v.scale - v.trans.y⟩ := by
    simp [mapToOrigin, pdiv_ne hs]
  refine ⟨_, e, ?_⟩
  rw [shown_placed v h.placed]
  simp only [cs.1, cs.2]
  set C := Real.cos (v.rotation * Real.pi / 180) with hC
  set S := Real.sin (v.rotation * Real.pi / 180) with hS
  have u : C ^ 2 + S ^ 2 = 1 := Real.cos_sq_add_sin_sq _
  rw [mul_div_cancel_left₀ _ hs, mul_div_cancel_left₀ _ hs]
  constructor
  · intro hq
    have h1 : C * (p.x - v.rect.x / 2) - S * (p.y - v.rect.y / 2) = p.x - v.rect.x / 2 := by
      have := congrArg V2.x hq
      simp only at this
      linarith
    have h2 : S * (p.x - v.rect.x / 2) + C * (p.y - v.rect.y / 2) = p.y - v.rect.y / 2 := by
      have := congrArg V2.y hq
      simp only at this
      linarith
    rcases turn_fix h1 h2 with hc | ⟨hx, hy⟩
    · exact Or.inl (cos_one h.rot hc)
    · exact Or.inr (V2.ext (by simpa using sub_eq_zero.1 hx) (by simpa using sub_eq_zero.1 hy))
  · rintro (h0 | hp)
    · have c1 : C = 1 := by rw [hC, h0]; simp
      have s0 : S = 0 := by rw [hS, h0]; simp
      rw [c1, s0]
      refine V2.ext ?_ ?_ <;> simp
    · rw [hp]
      refine V2.ext ?_ ?_ <;> simp

/-- `mapFromOrigin` of two numbers undoes `mapToOrigin`. -/
theorem C133_inverse_partial (v : View) (hs : v.scale ≠ 0) (pos : V2 ℝ) : ∃ q, mapToOrigin v pos = some q ∧
    mapFromOrigin v (.coords q.x q.y) = some pos := by
  refine ⟨⟨pos.x / v.scale - v.trans.x, pos.y / v.scale - v.trans.y⟩, by simp [mapToOrigin, pdiv_ne hs], ?_⟩
  simp only [mapFromOrigin, sub_add_cancel, div_mul_cancel₀ _ hs]

/-- **C133 violated.**  `mapFromOrigin` of the point that `mapToOrigin` returns raises an exception, for every view and pixel. -/
theorem C133_point_violated (v : View) (q : V2 ℝ) : mapFromOrigin v (.point q) = none := rfl

/-- **C133.**  `fitSmallDimensionInView` of an image that is not turned, where the window is higher than the image at full width: the
image is as high as the window and shown around the column in the middle of the columns seen before; the window is covered by the
image exactly if that column is at least half a window away from both edges of the image.  `rnd` is the rounding of Qt. -/
theorem C133_cover_partial (rnd : ℝ → ℤ) (v : View) (h : Ready v) (h0 : v.rotation = 0) (hs : 0 < v.size.x ∧ 0 < v.size.y)
    (hr : 0 < v.rect.x ∧ 0 < v.rect.y) (hlt : v.size.x / v.rect.x < v.size.y / v.rect.y) : ∃ w, fitSmall rnd v = some w ∧
    let m := (((getExtend rnd v).1 : ℝ) + (getExtend rnd v).2.2.1) / 2
    let half := v.size.x / v.size.y * v.rect.y / 2
    (∀ p, shown w p = ⟨v.size.x / 2 + v.size.y / v.rect.y * (p.x - m), v.size.y / v.rect.y * p.y⟩) ∧
    (Covered w ↔ half ≤ m ∧ m ≤ v.rect.x - half) := by
  have nq : ¬ quarter v.rotation := by rw [h0]; norm_num [quarter]
  have hsc : fitScale max v = v.size.y / v.rect.y := by rw [fitScale, if_neg nq, max_eq_right hlt.le]
  have hpos : 0 < v.size.y / v.rect.y := div_pos hs.2 hr.2
  have e := fitWith_eq max v hr.1.ne' hr.2.ne' (by rw [hsc]; exact hpos.ne')
  rw [hsc] at e
  have cs := angle_cs v h.angle
  have e2 : ∀ (t : V2 ℝ) (q : V2 ℝ), centerOn { v with scale := v.size.y / v.rect.y, trans := t } q = some { v with
      scale := v.size.y / v.rect.y
      trans := ⟨(v.rect.x / 2 - q.x) + (v.size.x / (v.size.y / v.rect.y) - v.rect.x) / 2,
        (v.rect.y / 2 - q.y) + (v.size.y / (v.size.y / v.rect.y) - v.rect.y) / 2⟩ } := by
    intro t q
    rw [centerOn_eq _ hpos.ne']
    have : ¬ v.rotation = 180 := by rw [h0]; norm_num
    simp [this]
  have e3 : fitSmall rnd v = some { v with
      scale := v.size.y / v.rect.y
      trans := ⟨(v.rect.x / 2 - (((getExtend rnd v).1 : ℝ) + (getExtend rnd v).2.2.1) / 2)
          + (v.size.x / (v.size.y / v.rect.y) - v.rect.x) / 2,
        (v.rect.y / 2 - v.rect.y / 2) + (v.size.y / (v.size.y / v.rect.y) - v.rect.y) / 2⟩ } := by
    simp only [fitSmall, e, pdiv_ne hr.1.ne', pdiv_ne hr.2.ne', Option.bind_eq_bind, Option.bind_some, if_pos hlt]
    exact e2 _ _
  refine ⟨_, e3, ?_⟩
  simp only
  set m := (((getExtend rnd v).1 : ℝ) + (getExtend rnd v).2.2.1) / 2 with hm
  clear_value m
  have hx := hr.1.ne'
  have hy := hr.2.ne'
  have hsy := hs.2.ne'
  set w : View := { v with
      scale := v.size.y / v.rect.y
      trans := ⟨(v.rect.x / 2 - m) + (v.size.x / (v.size.y / v.rect.y) - v.rect.x) / 2,
        (v.rect.y / 2 - v.rect.y / 2) + (v.size.y / (v.size.y / v.rect.y) - v.rect.y) / 2⟩ } with hw
  have sh : ∀ p, shown w p = ⟨v.size.x / 2 + v.size.y / v.rect.y * (p.x - m), v.size.y / v.rect.y * p.y⟩ := by
    intro p
    rw [shown_placed w h.placed]
    have c1 : Real.cos (w.angle * Real.pi / 180) = 1 := by
      show Real.cos (v.angle * Real.pi / 180) = 1
      rw [cs.1, h0]; simp
    have s1 : Real.sin (w.angle * Real.pi / 180) = 0 := by
      show Real.sin (v.angle * Real.pi / 180) = 0
      rw [cs.2, h0]; simp
    rw [c1, s1]
    simp only [hw]
    congr 1 <;> (field_simp; ring)
  refine ⟨sh, ?_, ?_⟩
  · intro hc
    have key : ∀ q : ℝ, 0 ≤ q → q ≤ v.size.x → ∃ x, 0 ≤ x ∧ x ≤ v.rect.x ∧ v.size.x / 2 + v.size.y / v.rect.y * (x - m) = q := by
      intro q q1 q2
      obtain ⟨p, hp, e⟩ := hc ⟨q, 0⟩ ⟨q1, q2, le_refl _, hs.2.le⟩
      rw [sh p] at e
      exact ⟨p.x, hp.1, hp.2.1, congrArg V2.x e⟩
    obtain ⟨x1, a1, a2, a3⟩ := key 0 (le_refl _) hs.1.le
    obtain ⟨x2, b1, b2, b3⟩ := key v.size.x hs.1.le (le_refl _)
    have k1 : m - x1 = v.size.x / v.size.y * v.rect.y / 2 := by
      field_simp at a3 ⊢
      linarith
    have k2 : x2 - m = v.size.x / v.size.y * v.rect.y / 2 := by
      field_simp at b3 ⊢
      linarith
    constructor <;> linarith
  · rintro ⟨m1, m2⟩ q ⟨q1, q2, q3, q4⟩
    refine ⟨⟨m + (q.x - v.size.x / 2) * (v.rect.y / v.size.y), q.y * (v.rect.y / v.size.y)⟩, ⟨?_, ?_, ?_, ?_⟩, ?_⟩
    · have : v.size.x / 2 * (v.rect.y / v.size.y) = v.size.x / v.size.y * v.rect.y / 2 := by field_simp
      have : 0 ≤ q.x * (v.rect.y / v.size.y) := mul_nonneg q1 (div_pos hr.2 hs.2).le
      show 0 ≤ m + (q.x - v.size.x / 2) * (v.rect.y / v.size.y)
      linarith
    · have k1 : v.size.x / 2 * (v.rect.y / v.size.y) = v.size.x / v.size.y * v.rect.y / 2 := by field_simp
      have k2 : q.x * (v.rect.y / v.size.y) ≤ v.size.x * (v.rect.y / v.size.y) :=
        mul_le_mul_of_nonneg_right q2 (div_pos hr.2 hs.2).le
      show m + (q.x - v.size.x / 2) * (v.rect.y / v.size.y) ≤ v.rect.x
      linarith
    · exact mul_nonneg q3 (div_pos hr.2 hs.2).le
    · show q.y * (v.rect.y / v.size.y) ≤ v.rect.y
      have k2 : q.y * (v.rect.y / v.size.y) ≤ v.size.y * (v.rect.y / v.size.y) :=
        mul_le_mul_of_nonneg_right q4 (div_pos hr.2 hs.2).le
      have : v.size.y * (v.rect.y / v.size.y) = v.rect.y := by field_simp
      linarith
    · rw [sh]
      refine V2.ext ?_ ?_
      · show v.size.x / 2 + v.size.y / v.rect.y * (m + (q.x - v.size.x / 2) * (v.rect.y / v.size.y) - m) = q.x
        field_simp
        ring
      · show v.size.y / v.rect.y * (q.y * (v.rect.y / v.size.y)) = q.y
        field_simp

/-- **C133.**  The same for a window that is wider than the image at full height: the image is as wide as the window and shown around the
row in the middle of the rows seen before. -/
theorem C133_cover_wide_partial (rnd : ℝ → ℤ) (v : View) (h : Ready v) (h0 : v.rotation = 0) (hs : 0 < v.size.x ∧ 0 < v.size.y)
    (hr : 0 < v.rect.x ∧ 0 < v.rect.y) (hlt : v.size.y / v.rect.y ≤ v.size.x / v.rect.x) : ∃ w, fitSmall rnd v = some w ∧
    let m := (((getExtend rnd v).2.1 : ℝ) + (getExtend rnd v).2.2.2) / 2
    let half := v.size.y / v.size.x * v.rect.x / 2
    (∀ p, shown w p = ⟨v.size.x / v.rect.x * p.x, v.size.y / 2 + v.size.x / v.rect.x * (p.y - m)⟩) ∧
    (Covered w ↔ half ≤ m ∧ m ≤ v.rect.y - half) := by
  have nq : ¬ quarter v.rotation := by rw [h0]; norm_num [quarter]
  have hsc : fitScale max v = v.size.x / v.rect.x := by rw [fitScale, if_neg nq, max_eq_left hlt]
  have hpos : 0 < v.size.x / v.rect.x := div_pos hs.1 hr.1
  have e := fitWith_eq max v hr.1.ne' hr.2.ne' (by rw [hsc]; exact hpos.ne')
  rw [hsc] at e
  have cs := angle_cs v h.angle
  have e2 : ∀ (t : V2 ℝ) (q : V2 ℝ), centerOn { v with scale := v.size.x / v.rect.x, trans := t } q = some { v with
      scale := v.size.x / v.rect.x
      trans := ⟨(v.rect.x / 2 - q.x) + (v.size.x / (v.size.x / v.rect.x) - v.rect.x) / 2,
        (v.rect.y / 2 - q.y) + (v.size.y / (v.size.x / v.rect.x) - v.rect.y) / 2⟩ } := by
    intro t q
    rw [centerOn_eq _ hpos.ne']
    have : ¬ v.rotation = 180 := by rw [h0]; norm_num
    simp [this]
  have e3 : fitSmall rnd v = some { v with
      scale := v.size.x / v.rect.x
      trans := ⟨(v.rect.x / 2 - v.rect.x / 2) + (v.size.x / (v.size.x / v.rect.x) - v.rect.x) / 2,
        (v.rect.y / 2 - (((getExtend rnd v).2.1 : ℝ) + (getExtend rnd v).2.2.2) / 2)
          + (v.size.y / (v.size.x / v.rect.x) - v.rect.y) / 2⟩ } := by
    simp only [fitSmall, e, pdiv_ne hr.1.ne', pdiv_ne hr.2.ne', Option.bind_eq_bind, Option.bind_some, if_neg (not_lt.2 hlt)]
    exact e2 _ _
  refine ⟨_, e3, ?_⟩
  simp only
  set m := (((getExtend rnd v).2.1 : ℝ) + (getExtend rnd v).2.2.2) / 2 with hm
  clear_value m
  have hx := hr.2.ne'
  have hy := hr.1.ne'
  have hsy := hs.1.ne'
  set w : View := { v with
      scale := v.size.x / v.rect.x
      trans := ⟨(v.rect.x / 2 - v.rect.x / 2) + (v.size.x / (v.size.x / v.rect.x) - v.rect.x) / 2,
        (v.rect.y / 2 - m) + (v.size.y / (v.size.x / v.rect.x) - v.rect.y) / 2⟩ } with hw
  have sh : ∀ p, shown w p = ⟨v.size.x / v.rect.x * p.x, v.size.y / 2 + v.size.x / v.rect.x * (p.y - m)⟩ := by
    intro p
    rw [shown_placed w h.placed]
    have c1 : Real.cos (w.angle * Real.pi / 180) = 1 := by
      show Real.cos (v.angle * Real.pi / 180) = 1
      rw [cs.1, h0]; simp
    have s1 : Real.sin (w.angle * Real.pi / 180) = 0 := by
      show Real.sin (v.angle * Real.pi / 180) = 0
      rw [cs.2, h0]; simp
    rw [c1, s1]
    simp only [hw]
    congr 1 <;> (field_simp; ring)
  refine ⟨sh, ?_, ?_⟩
  · intro hc
    have key : ∀ q : ℝ, 0 ≤ q → q ≤ v.size.y → ∃ x, 0 ≤ x ∧ x ≤ v.rect.y ∧ v.size.y / 2 + v.size.x / v.rect.x * (x - m) = q := by
      intro q q1 q2
      obtain ⟨p, hp, e⟩ := hc ⟨0, q⟩ ⟨le_refl _, hs.1.le, q1, q2⟩
      rw [sh p] at e
      exact ⟨p.y, hp.2.2.1, hp.2.2.2, congrArg V2.y e⟩
    obtain ⟨x1, a1, a2, a3⟩ := key 0 (le_refl _) hs.2.le
    obtain ⟨x2, b1, b2, b3⟩ := key v.size.y hs.2.le (le_refl _)
    have k1 : m - x1 = v.size.y / v.size.x * v.rect.x / 2 := by
      field_simp at a3 ⊢
      linarith
    have k2 : x2 - m = v.size.y / v.size.x * v.rect.x / 2 := by
      field_simp at b3 ⊢
      linarith
    constructor <;> linarith
  · rintro ⟨m1, m2⟩ q ⟨q1, q2, q3, q4⟩
    have hd : 0 ≤ v.rect.x / v.size.x := (div_pos hr.1 hs.1).le
    have k1 : v.size.y / 2 * (v.rect.x / v.size.x) = v.size.y / v.size.x * v.rect.x / 2 := by field_simp
    refine ⟨⟨q.x * (v.rect.x / v.size.x), m + (q.y - v.size.y / 2) * (v.rect.x / v.size.x)⟩, ⟨mul_nonneg q1 hd, ?_, ?_, ?_⟩, ?_⟩
    · show q.x * (v.rect.x / v.size.x) ≤ v.rect.x
      have k2 : q.x * (v.rect.x / v.size.x) ≤ v.size.x * (v.rect.x / v.size.x) := mul_le_mul_of_nonneg_right q2 hd
      have : v.size.x * (v.rect.x / v.size.x) = v.rect.x := by field_simp
      linarith
    · have : 0 ≤ q.y * (v.rect.x / v.size.x) := mul_nonneg q3 hd
      show 0 ≤ m + (q.y - v.size.y / 2) * (v.rect.x / v.size.x)
      linarith
    · have k2 : q.y * (v.rect.x / v.size.x) ≤ v.size.y * (v.rect.x / v.size.x) := mul_le_mul_of_nonneg_right q4 hd
      show m + (q.y - v.size.y / 2) * (v.rect.x / v.size.x) ≤ v.rect.y
      linarith
    · rw [sh]
      refine V2.ext ?_ ?_
      · show v.size.x / v.rect.x * (q.x * (v.rect.x / v.size.x)) = q.x
        field_simp
      · show v.size.y / 2 + v.size.x / v.rect.x * (m + (q.y - v.size.y / 2) * (v.rect.x / v.size.x) - m) = q.y
        field_simp
        ring

/-- **C133 violated.**  If the middle of the columns seen before is outside of the image, part of the window shows no image after
`fitSmallDimensionInView`, though its documentation promises to cover the whole view. -/
theorem C133_cover_violated (rnd : ℝ → ℤ) (v : View) (h : Ready v) (h0 : v.rotation = 0) (hs : 0 < v.size.x ∧ 0 < v.size.y)
    (hr : 0 < v.rect.x ∧ 0 < v.rect.y) (hlt : v.size.x / v.rect.x < v.size.y / v.rect.y)
    (hm : (getExtend rnd v).1 + (getExtend rnd v).2.2.1 ≤ 0) : ∃ w, fitSmall rnd v = some w ∧ ¬ Covered w := by
  obtain ⟨w, e, _, hw⟩ := C133_cover_partial rnd v h h0 hs hr hlt
  refine ⟨w, e, fun hc => ?_⟩
  have := (hw.1 hc).1
  have hm' : ((getExtend rnd v).1 : ℝ) + (getExtend rnd v).2.2.1 ≤ 0 := by exact_mod_cast hm
  have hpos : 0 < v.size.x / v.size.y * v.rect.y / 2 := by
    have := hs.1; have := hs.2; have := hr.2
    positivity
  linarith

/-- The view of the examples: an image of 800 by 200 pixels in a window of 400 by 400 pixels, moved by `d` pixels. -/
noncomputable def GView.exampleView (d rot : ℝ) : View :=
  { init ⟨400, 400⟩ with rect := ⟨800, 200⟩, r1 := ⟨400, 100⟩, org := ⟨-400, -100⟩, trans := ⟨d, 0⟩, angle := rot, rotation := rot }

theorem GView.exampleView_ready (d rot : ℝ) (h : 0 ≤ rot ∧ rot < 360) : Ready (exampleView d rot) := by
  refine ⟨by simp [exampleView, init], ⟨?_, ?_, rfl⟩, ⟨0, by simp [exampleView]⟩, h⟩ <;> simp [exampleView] <;> norm_num

/-- The hypotheses of the theorems on the maps and on `centerOn` can be met, for a turned image too. -/
example : Ready (exampleView 0 90) ∧ (exampleView 0 90).rotation = 90 ∧
    (⟨0, 0⟩ : V2 ℝ) ≠ ⟨(exampleView 0 90).rect.x / 2, (exampleView 0 90).rect.y / 2⟩ :=
  ⟨exampleView_ready 0 90 (by norm_num), rfl, by norm_num [exampleView]⟩

/-- The hypotheses of the theorems on `fitSmallDimensionInView` can be met: with rounding down and the image moved to the right by
1000 pixels. -/
example : Ready (exampleView 1000 0) ∧ (exampleView 1000 0).rotation = 0 ∧
    (exampleView 1000 0).size.x / (exampleView 1000 0).rect.x < (exampleView 1000 0).size.y / (exampleView 1000 0).rect.y ∧
    (getExtend Int.floor (exampleView 1000 0)).1 + (getExtend Int.floor (exampleView 1000 0)).2.2.1 ≤ 0 := by
  refine ⟨exampleView_ready 1000 0 (by norm_num), rfl, by norm_num [exampleView, init], ?_⟩
  norm_num [getExtend, exampleView, init]

/-- The hypotheses of the theorem on wide windows can be met: an image of 800 by 200 pixels in a window of 2000 by 400 pixels. -/
example : Ready { exampleView 0 0 with size := ⟨2000, 400⟩ } ∧ (400 : ℝ) / 200 ≤ 2000 / 800 :=
  ⟨⟨(exampleView_ready 0 0 (by norm_num)).scale, (exampleView_ready 0 0 (by norm_num)).placed, (exampleView_ready 0 0 (by norm_num)).angle,
    (exampleView_ready 0 0 (by norm_num)).rot⟩, by norm_num⟩

open GView in
/-- **C133.**  `GetExtend` of an image that is not turned and not moved by `DoTranslateOrigin` gives the points of the image that the upper
left and the lower right corner of the window show, rounded and sorted. -/
theorem C133_extend_partial (rnd : ℝ → ℤ) (v : View) (h : Ready v) (h0 : v.rotation = 0) : ∃ p q,
    shown v p = ⟨0, 0⟩ ∧ shown v q = v.size ∧ ∃ x0 y0 x1 y1, getExtend rnd v = (x0, y0, x1, y1) ∧ x0 ≤ x1 ∧ y0 ≤ y1 ∧
      (x0 = rnd p.x ∧ x1 = rnd q.x ∨ x0 = rnd q.x ∧ x1 = rnd p.x) ∧ (y0 = rnd p.y ∧ y1 = rnd q.y ∨ y0 = rnd q.y ∧ y1 = rnd p.y) := by
  have hs := h.scale
  have cs := angle_cs v h.angle
  refine ⟨⟨0 / v.scale - (v.org.x + v.r1.x + v.trans.x), 0 / v.scale - (v.org.y + v.r1.y + v.trans.y)⟩,
    ⟨v.size.x / v.scale - (v.org.x + v.r1.x + v.trans.x), v.size.y / v.scale - (v.org.y + v.r1.y + v.trans.y)⟩, ?_, ?_,
    _, _, _, _, rfl, min_le_max, min_le_max, ?_, ?_⟩
  · rw [shown_placed v h.placed]
    simp only [cs.1, cs.2, h0, h.placed.1, h.placed.2.1, zero_mul, zero_div, Real.cos_zero, Real.sin_zero, V2.mk.injEq]
    constructor <;> ring
  · rw [shown_placed v h.placed]
    simp only [cs.1, cs.2, h0, h.placed.1, h.placed.2.1, zero_mul, zero_div, Real.cos_zero, Real.sin_zero]
    have e : ∀ a r t : ℝ, v.scale * (a / v.scale - (-r / 2 + r / 2 + t) + t) = a := by intro a r t; field_simp; ring
    rcases hz : v.size with ⟨a, b⟩
    congr 1 <;> field_simp <;> ring
  · rcases le_total (rnd (0 / v.scale - (v.org.x + v.r1.x + v.trans.x))) (rnd (v.size.x / v.scale - (v.org.x + v.r1.x + v.trans.x))) with e | e
    · left; exact ⟨min_eq_left e, max_eq_right e⟩
    · right; exact ⟨min_eq_right e, max_eq_left e⟩
  · rcases le_total (rnd (0 / v.scale - (v.org.y + v.r1.y + v.trans.y))) (rnd (v.size.y / v.scale - (v.org.y + v.r1.y + v.trans.y))) with e | e
    · left; exact ⟨min_eq_left e, max_eq_right e⟩
    · right; exact ⟨min_eq_right e, max_eq_left e⟩

example : ∃ v : GView.View, GView.Ready v ∧ v.rotation = 0 :=
  ⟨⟨⟨800, 600⟩, ⟨400, 300⟩, 2, ⟨0, 0⟩, ⟨400 / 2, 300 / 2⟩, ⟨-400 / 2, -300 / 2⟩, ⟨0, 0⟩, 0, 0, true, false, ⟨0, 0⟩, true⟩,
    ⟨by norm_num, ⟨rfl, rfl, rfl⟩, ⟨0, by norm_num⟩, by norm_num⟩, rfl⟩

/-- **C132** The first repaint of a view makes it fit, whatever the user did before; every further one changes nothing. -/
theorem C132_paint (v : View) :
    (v.initialized = false → (∀ w, paint v = some w ↔ fitInView { v with initialized := true } = some w) ∧
      ∀ w, paint v = some w → w.fitted = true ∧ paint w = some w) ∧
    (v.initialized = true → paint v = some v) := by
  refine ⟨fun h => ?_, fun h => by simp [paint, h]⟩
  have e : paint v = fitInView { v with initialized := true } := by simp [paint, h]
  refine ⟨fun w => by rw [e], fun w hw => ?_⟩
  rw [e] at hw
  unfold fitInView at hw
  rw [Option.map_eq_some_iff] at hw
  obtain ⟨u, hu, rfl⟩ := hw
  refine ⟨rfl, ?_⟩
  have : u.initialized = true := by
    unfold fitWith at hu
    by_cases hq : quarter v.rotation
    · simp only [hq, if_true, bind, Option.bind_eq_some_iff, pure, Option.some.injEq] at hu
      obtain ⟨_, _, _, _, _, _, _, _, _, _, _, _, _, _, rfl⟩ := hu
      rfl
    · simp only [hq, if_false, bind, Option.bind_eq_some_iff, pure, Option.some.injEq] at hu
      obtain ⟨_, _, _, _, _, _, _, _, _, _, rfl⟩ := hu
      rfl
  simp [paint, this]

/-- **C133** `translateOrigin(x, y)` moves every point of the picture by the same number of pixels, from where the last translation had put it to
where the new one puts it; the last call counts. -/
theorem C133_translate (v : View) (t t' p : V2 ℝ) :
    shown (translateOrigin v t) p =
      ⟨(shown v p).x + v.scale * (t.x - v.trans.x), (shown v p).y + v.scale * (t.y - v.trans.y)⟩ ∧
    translateOrigin (translateOrigin v t) t' = translateOrigin v t' ∧ translateOrigin v v.trans = v := by
  refine ⟨?_, rfl, rfl⟩
  simp only [shown, translateOrigin, V2.mk.injEq]
  constructor <;> ring

example : (init ⟨4, 3⟩).initialized = false := rfl
