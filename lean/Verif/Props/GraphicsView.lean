import Verif.Spec.GraphicsView
import Mathlib.Analysis.SpecialFunctions.Trigonometric.Basic

/-! # C131, C132, C133: the image view of the calibration window -/

open Classical

namespace GView

theorem pdiv_some {a b c : ℝ} (h : pdiv a b = some c) : b ≠ 0 ∧ c = a / b := by
  unfold pdiv at h
  split at h <;> simp_all

theorem pdiv_ne {a b : ℝ} (h : b ≠ 0) : pdiv a b = some (a / b) := by simp [pdiv, h]

theorem scaleOrigin_eq (v : View) (k : ℝ) (pos : V2 ℝ) (hs : v.scale ≠ 0) (hk : k ≠ 0) :
    scaleOrigin v k pos = some { v with
      trans := ⟨v.trans.x + -pos.x / v.scale + pos.x / (k * v.scale), v.trans.y + -pos.y / v.scale + pos.y / (k * v.scale)⟩
      scale := k * v.scale
      fitted := false } := by
  have : k * v.scale ≠ 0 := mul_ne_zero hk hs
  simp [scaleOrigin, pdiv_ne hs, pdiv_ne this]

/-- The homothety of the picture about the cursor. -/
theorem scaleOrigin_shown {v w : View} {k : ℝ} {pos : V2 ℝ} (h : scaleOrigin v k pos = some w) (p : V2 ℝ) :
    shown w p = ⟨pos.x + k * ((shown v p).x - pos.x), pos.y + k * ((shown v p).y - pos.y)⟩ := by
  have hs : v.scale ≠ 0 := by
    intro h0
    simp [scaleOrigin, pdiv, h0] at h
  have hk : k ≠ 0 := by
    rintro rfl
    simp [scaleOrigin, pdiv, hs] at h
  rw [scaleOrigin_eq v k pos hs hk] at h
  cases h
  simp only [shown]
  congr 1 <;> (field_simp; ring)

/-- The picture moved by a vector. -/
theorem move_shown (v : View) (hp : v.panning = true) (hs : v.scale ≠ 0) (q p : V2 ℝ) :
    shown (move v q) p = ⟨(shown v p).x + (q.x - v.last.x), (shown v p).y + (q.y - v.last.y)⟩ := by
  simp only [move, hp, if_true, shown]
  congr 1 <;> (field_simp; ring)

theorem moves_shown (l : List (V2 ℝ)) : ∀ (v : View), v.panning = true → v.scale ≠ 0 →
    (l.foldl move v).panning = true ∧ (l.foldl move v).scale = v.scale ∧ (l.foldl move v).last = l.getLastD v.last ∧
    ∀ p, shown (l.foldl move v) p =
      ⟨(shown v p).x + ((l.getLastD v.last).x - v.last.x), (shown v p).y + ((l.getLastD v.last).y - v.last.y)⟩ := by
  induction l with
  | nil => intro v hp hs; simp [hp]
  | cons q l ih =>
    intro v hp hs
    have e1 : (move v q).panning = true := by simp [move, hp]
    have e2 : (move v q).scale = v.scale := by simp [move, hp]
    have e3 : (move v q).last = q := by simp [move, hp]
    obtain ⟨h1, h2, h3, h4⟩ := ih (move v q) e1 (by rw [e2]; exact hs)
    rw [e3] at h3 h4
    have e4 : (q :: l).getLastD v.last = l.getLastD q := List.getLastD_cons ..
    refine ⟨h1, by rw [List.foldl_cons, h2, e2], by rw [List.foldl_cons, h3, e4], fun p => ?_⟩
    rw [List.foldl_cons, h4 p, move_shown v hp hs, e4]
    congr 1 <;> ring

end GView

open GView

/-- **C131.**  Turning the wheel enlarges the picture by a tenth, or makes it smaller by a tenth, about the pixel under the cursor: the
point of the image there stays where it is, however the image was moved, scaled and rotated before.  (For a turn of zero see
`C131_sideways_violated`.) -/
theorem C131_wheel_partial (v : View) (hs : v.scale ≠ 0) (turn : ℤ) (pos : V2 ℝ) :
    ∃ w, wheel v turn pos = some w ∧
      (∀ p, shown w p = ⟨pos.x + (if 0 < turn then 1.1 else 0.9) * ((shown v p).x - pos.x),
        pos.y + (if 0 < turn then 1.1 else 0.9) * ((shown v p).y - pos.y)⟩) ∧
      (∀ p, shown v p = pos → shown w p = pos) ∧ w.size = v.size ∧ w.rect = v.rect ∧ w.scale ≠ 0 ∧ w.fitted = false := by
  have key : ∀ k : ℝ, k ≠ 0 → ∃ w, scaleOrigin v k pos = some w ∧
      (∀ p, shown w p = ⟨pos.x + k * ((shown v p).x - pos.x), pos.y + k * ((shown v p).y - pos.y)⟩) ∧
      (∀ p, shown v p = pos → shown w p = pos) ∧ w.size = v.size ∧ w.rect = v.rect ∧ w.scale ≠ 0 ∧ w.fitted = false := by
    intro k hk
    have e := scaleOrigin_eq v k pos hs hk
    refine ⟨_, e, fun p => scaleOrigin_shown e p, fun p hp => ?_, rfl, rfl, mul_ne_zero hk hs, rfl⟩
    rw [scaleOrigin_shown e p, hp]
    simp
  by_cases h : 0 < turn
  · simp only [wheel, gt_iff_lt, h, if_true]
    exact key 1.1 (by norm_num)
  · simp only [wheel, gt_iff_lt, h, if_false]
    exact key 0.9 (by norm_num)

/-- **C131 violated.**  A wheel event without a vertical turn (a wheel turned sideways, the end of a gesture on a touch pad) makes the
picture smaller. -/
theorem C131_sideways_violated (v : View) (hs : v.scale ≠ 0) (pos : V2 ℝ) :
    ∃ w, wheel v 0 pos = some w ∧ ∀ p, shown w p =
      ⟨pos.x + 0.9 * ((shown v p).x - pos.x), pos.y + 0.9 * ((shown v p).y - pos.y)⟩ := by
  have e := scaleOrigin_eq v 0.9 pos hs (by norm_num)
  exact ⟨_, by simp only [wheel, gt_iff_lt, lt_irrefl, if_false]; exact e, fun p => scaleOrigin_shown e p⟩

/-- **C131.**  Dragging with the right button pressed at `a` over any pixels moves every point of the picture by the way of the cursor;
after the button is released, moves of the cursor change nothing. -/
theorem C131_drag_partial (v : View) (hs : v.scale ≠ 0) (a : V2 ℝ) (over after : List (V2 ℝ)) :
    ∃ w, runAll v (.press true a :: over.map .move ++ .release true :: after.map .move) = some w ∧
      (∀ p, shown w p = ⟨(shown v p).x + ((over.getLastD a).x - a.x), (shown v p).y + ((over.getLastD a).y - a.y)⟩) ∧
      w.scale = v.scale ∧ w.size = v.size ∧ w.rect = v.rect ∧ w.panning = false := by
  have run : ∀ (l : List (V2 ℝ)) (u : View), runAll u (l.map .move) = some (l.foldl move u) := by
    intro l
    induction l with
    | nil => intro u; rfl
    | cons q l ih =>
      intro u
      rw [List.map_cons, runAll, List.foldlM_cons]
      exact ih (move u q)
  have still : ∀ (l : List (V2 ℝ)) (u : View), u.panning = false → l.foldl move u = u := by
    intro l
    induction l with
    | nil => intro u _; rfl
    | cons q l ih =>
      intro u hu
      have : move u q = u := by simp [move, hu]
      rw [List.foldl_cons, this]
      exact ih u hu
  have same : ∀ (l : List (V2 ℝ)) (u : View), (l.foldl move u).size = u.size ∧ (l.foldl move u).rect = u.rect := by
    intro l
    induction l with
    | nil => intro u; exact ⟨rfl, rfl⟩
    | cons q l ih =>
      intro u
      have h := ih (move u q)
      rw [List.foldl_cons, h.1, h.2]
      unfold move
      split <;> exact ⟨rfl, rfl⟩
  let u : View := { v with last := a, panning := true }
  obtain ⟨_, h2, _, h4⟩ := moves_shown over u rfl hs
  refine ⟨{ over.foldl move u with panning := false }, ?_, fun p => h4 p, h2, (same over u).1, (same over u).2, rfl⟩
  rw [runAll, List.cons_append, List.foldlM_cons]
  have e1 : Event.run v (.press true a) = some u := rfl
  have e2 : List.foldlM Event.run u (over.map Event.move) = some (over.foldl move u) := run over u
  have e3 : List.foldlM Event.run { over.foldl move u with panning := false } (after.map Event.move)
      = some { over.foldl move u with panning := false } := by
    have := run after { over.foldl move u with panning := false }
    rw [still after _ rfl] at this
    exact this
  rw [e1]
  show List.foldlM Event.run u (over.map Event.move ++ .release true :: after.map .move) = _
  rw [List.foldlM_append, e2]
  exact e3

/-- Without the right button pressed, moves of the cursor change nothing. -/
theorem C131_hover (v : View) (hp : v.panning = false) (pos : V2 ℝ) :
    Event.run v (.move pos) = some v ∧ ∀ q, Event.run v (.press false q) = some v := by
  simp [Event.run, move, press, hp]

/-- **C131.**  `DoTranslateOrigin` moves the image against its own coordinates: where a point was shown, the point without the offset is
shown afterwards, however the image is turned and scaled; the offsets of several calls add up; nothing else changes.  A window that was just
opened shows every point at its own coordinates. -/
theorem C131_offset (v : View) (d e p : V2 ℝ) :
    shown (doTranslateOrigin v d) p = shown v ⟨p.x + d.x, p.y + d.y⟩ ∧
    shown (doTranslateOrigin (doTranslateOrigin v d) e) p = shown v ⟨p.x + d.x + e.x, p.y + d.y + e.y⟩ ∧
    { doTranslateOrigin v d with off := v.off } = v ∧ ∀ size, shown (init size) p = p := by
  refine ⟨?_, ?_, rfl, fun size => ?_⟩
  · simp only [shown, doTranslateOrigin]
    congr 1 <;> ring
  · simp only [shown, doTranslateOrigin]
    congr 1 <;> ring
  · simp [shown, init]

/-- A window that was just opened meets the hypotheses. -/
example : (init ⟨640, 480⟩).scale ≠ 0 ∧ (init ⟨640, 480⟩).panning = false := by simp [init]

namespace GView

/-- The scale of `fitInView`. -/
noncomputable def fitScale (m : ℝ → ℝ → ℝ) (v : View) : ℝ :=
  if quarter v.rotation then m (v.size.x / v.rect.y) (v.size.y / v.rect.x) else m (v.size.x / v.rect.x) (v.size.y / v.rect.y)

/-- The values set by `fitInView`. -/
def FitWith (m : ℝ → ℝ → ℝ) (v : View) : Prop :=
  v.scale = fitScale m v ∧ v.trans.x = (v.size.x - v.rect.x * v.scale) * 0.5 / v.scale ∧
    v.trans.y = (v.size.y - v.rect.y * v.scale) * 0.5 / v.scale

theorem fitWith_eq (m : ℝ → ℝ → ℝ) (v : View) (hw : v.rect.x ≠ 0) (hh : v.rect.y ≠ 0) (hs : fitScale m v ≠ 0) :
    fitWith m v = some { v with
      scale := fitScale m v
      trans := ⟨(v.size.x - v.rect.x * fitScale m v) * 0.5 / fitScale m v, (v.size.y - v.rect.y * fitScale m v) * 0.5 / fitScale m v⟩ } := by
  unfold fitWith fitScale at *
  by_cases q : quarter v.rotation
  · rw [if_pos q] at hs
    simp [pdiv_ne hw, pdiv_ne hh, q, pdiv_ne hs]
  · rw [if_neg q] at hs
    simp [pdiv_ne hw, pdiv_ne hh, q, pdiv_ne hs]

theorem fitScale_pos (m : ℝ → ℝ → ℝ) (hm : ∀ a b, 0 < a → 0 < b → 0 < m a b) (v : View) (hr : 0 < v.rect.x ∧ 0 < v.rect.y)
    (hs : 0 < v.size.x ∧ 0 < v.size.y) : 0 < fitScale m v := by
  unfold fitScale
  split
  · exact hm _ _ (div_pos hs.1 hr.2) (div_pos hs.2 hr.1)
  · exact hm _ _ (div_pos hs.1 hr.1) (div_pos hs.2 hr.2)

/-- Turned by a multiple of 360 degrees. -/
def AngleOk (v : View) : Prop := ∃ k : ℤ, v.angle = v.rotation + 360 * k

/-- The image is turned about its centre. -/
def Placed (v : View) : Prop :=
  v.r1 = ⟨v.rect.x / 2, v.rect.y / 2⟩ ∧ v.org = ⟨-v.rect.x / 2, -v.rect.y / 2⟩ ∧ v.off = ⟨0, 0⟩

/-- What all events keep. -/
structure Inv (v : View) : Prop where
  size : 0 < v.size.x ∧ 0 < v.size.y
  rect : 0 < v.rect.x ∧ 0 < v.rect.y
  scale : 0 < v.scale
  angle : AngleOk v
  rot : 0 ≤ v.rotation ∧ v.rotation < 360
  off : v.off = ⟨0, 0⟩
  placed : v.rect ≠ ⟨1, 1⟩ → Placed v
  fit : v.fitted = true → v.rect ≠ ⟨1, 1⟩ → FitWith min v

theorem min_pos : ∀ a b : ℝ, 0 < a → 0 < b → 0 < min a b := fun _ _ => lt_min

/-- `fitInView` establishes the fit. -/
theorem fitInView_inv (v : View) (hs : 0 < v.size.x ∧ 0 < v.size.y) (hr : 0 < v.rect.x ∧ 0 < v.rect.y) (ha : AngleOk v)
    (hrot : 0 ≤ v.rotation ∧ v.rotation < 360) (ho : v.off = ⟨0, 0⟩) (hp : v.rect ≠ ⟨1, 1⟩ → Placed v) :
    ∃ w, fitInView v = some w ∧ Inv w ∧ w.size = v.size ∧ w.rect = v.rect ∧ w.rotation = v.rotation ∧ w.fitted = true ∧ FitWith min w := by
  have h := fitScale_pos min min_pos v hr hs
  have e := fitWith_eq min v hr.1.ne' hr.2.ne' h.ne'
  have e' : fitInView v = some { v with
      scale := fitScale min v
      trans := ⟨(v.size.x - v.rect.x * fitScale min v) * 0.5 / fitScale min v,
        (v.size.y - v.rect.y * fitScale min v) * 0.5 / fitScale min v⟩
      fitted := true } := by rw [fitInView, e]; rfl
  refine ⟨_, e', ?_, rfl, rfl, rfl, rfl, ?_⟩
  · exact ⟨hs, hr, h, ha, hrot, ho, hp, fun _ _ => ⟨rfl, rfl, rfl⟩⟩
  · exact ⟨rfl, rfl, rfl⟩

theorem pmod_360 (a : ℝ) : (0 ≤ pmod a 360 ∧ pmod a 360 < 360) ∧ ∃ k : ℤ, a = pmod a 360 + 360 * k := by
  have h1 := Int.floor_le (a / 360)
  have h2 := Int.lt_floor_add_one (a / 360)
  rw [le_div_iff₀ (by norm_num)] at h1
  rw [div_lt_iff₀ (by norm_num)] at h2
  refine ⟨⟨?_, ?_⟩, ⌊a / 360⌋, ?_⟩ <;> unfold pmod <;> linarith

theorem init_inv (s : V2 ℝ) (hs : 0 < s.x ∧ 0 < s.y) : Inv (init s) :=
  ⟨hs, by simp [init], by simp [init], ⟨0, by simp [init]⟩, by simp [init], rfl, fun h => absurd rfl h, fun _ h => absurd rfl h⟩

/-- Every event succeeds and keeps the invariant. -/
theorem event_inv (v : View) (h : Inv v) (e : Event) (he : e.Sound) : ∃ w, e.run v = some w ∧ Inv w := by
  cases e with
  | setExtend w t =>
    simp only [Event.Sound] at he
    simp only [Event.run, setExtend]
    have hp : Placed { v with rect := ⟨w, t⟩, r1 := ⟨w / 2, t / 2⟩, org := ⟨-w / 2, -t / 2⟩ } := ⟨rfl, rfl, h.off⟩
    split
    · obtain ⟨u, e, hu, _⟩ := fitInView_inv { v with rect := ⟨w, t⟩, r1 := ⟨w / 2, t / 2⟩, org := ⟨-w / 2, -t / 2⟩ } h.size he h.angle
        h.rot h.off (fun _ => hp)
      exact ⟨u, e, hu⟩
    · rename_i hn
      refine ⟨_, rfl, h.size, he, h.scale, h.angle, h.rot, h.off, fun _ => hp, fun hf hr => ?_⟩
      have hx : v.rect.x = w ∧ v.rect.y = t := by
        by_contra hc
        exact hn ⟨hf, hc⟩
      have hx' : v.rect = ⟨w, t⟩ := V2.ext hx.1 hx.2
      have := h.fit hf (by rw [hx']; exact hr)
      simpa [FitWith, fitScale, hx.1, hx.2] using this
  | paint =>
    simp only [Event.run, paint]
    split
    · exact ⟨v, rfl, h⟩
    · obtain ⟨u, e, hu, _⟩ := fitInView_inv { v with initialized := true } h.size h.rect h.angle h.rot h.off h.placed
      exact ⟨u, e, hu⟩
  | resize s =>
    simp only [Event.run, resize]
    split
    · obtain ⟨u, e, hu, _⟩ := fitInView_inv { v with size := s } he h.rect h.angle h.rot h.off h.placed
      exact ⟨u, e, hu⟩
    · rename_i hn
      exact ⟨_, rfl, he, h.rect, h.scale, h.angle, h.rot, h.off, h.placed, fun hf => absurd hf hn⟩
  | rotate a =>
    simp only [Event.run, rotate]
    have hm := pmod_360 (v.rotation + a)
    have ha : AngleOk { v with rotation := pmod (v.rotation + a) 360, angle := v.angle + a } := by
      obtain ⟨k, hk⟩ := h.angle
      obtain ⟨j, hj⟩ := hm.2
      refine ⟨k + j, ?_⟩
      show v.angle + a = pmod (v.rotation + a) 360 + 360 * ((k + j : ℤ) : ℝ)
      push_cast
      linarith
    split
    · obtain ⟨u, e, hu, _⟩ := fitInView_inv { v with rotation := pmod (v.rotation + a) 360, angle := v.angle + a } h.size h.rect ha hm.1
        h.off h.placed
      exact ⟨u, e, hu⟩
    · rename_i hn
      exact ⟨_, rfl, h.size, h.rect, h.scale, ha, hm.1, h.off, h.placed, fun hf => absurd hf hn⟩
  | fitInView =>
    obtain ⟨u, e, hu, _⟩ := fitInView_inv v h.size h.rect h.angle h.rot h.off h.placed
    exact ⟨u, e, hu⟩
  | press r p =>
    refine ⟨_, rfl, ?_⟩
    unfold press
    split
    · exact ⟨h.size, h.rect, h.scale, h.angle, h.rot, h.off, h.placed, h.fit⟩
    · exact h
  | move p =>
    refine ⟨_, rfl, ?_⟩
    unfold move
    split
    · exact ⟨h.size, h.rect, h.scale, h.angle, h.rot, h.off, h.placed, fun hf => by simp at hf⟩
    · exact h
  | release r =>
    refine ⟨_, rfl, ?_⟩
    unfold release
    split
    · exact ⟨h.size, h.rect, h.scale, h.angle, h.rot, h.off, h.placed, h.fit⟩
    · exact h
  | wheel t p =>
    have key : ∀ k : ℝ, 0 < k → ∃ w, scaleOrigin v k p = some w ∧ Inv w := by
      intro k hk
      refine ⟨_, scaleOrigin_eq v k p h.scale.ne' hk.ne', ?_⟩
      exact ⟨h.size, h.rect, mul_pos hk h.scale, h.angle, h.rot, h.off, h.placed, fun hf => by simp at hf⟩
    simp only [Event.run, wheel]
    split
    · exact key 1.1 (by norm_num)
    · exact key 0.9 (by norm_num)

theorem runAll_inv (l : List Event) : ∀ (v : View), Inv v → (∀ e ∈ l, e.Sound) → ∃ w, runAll v l = some w ∧ Inv w := by
  induction l with
  | nil => intro v h _; exact ⟨v, rfl, h⟩
  | cons e l ih =>
    intro v h he
    obtain ⟨w, e1, hw⟩ := event_inv v h e (he e (by simp))
    obtain ⟨u, e2, hu⟩ := ih w hw fun x hx => he x (by simp [hx])
    refine ⟨u, ?_, hu⟩
    rw [runAll, List.foldlM_cons, e1]
    exact e2

/-- Cosine and sine of the rotation. -/
theorem angle_cs (v : View) (h : AngleOk v) :
    Real.cos (v.angle * Real.pi / 180) = Real.cos (v.rotation * Real.pi / 180) ∧
      Real.sin (v.angle * Real.pi / 180) = Real.sin (v.rotation * Real.pi / 180) := by
  obtain ⟨k, hk⟩ := h
  have e : v.angle * Real.pi / 180 = v.rotation * Real.pi / 180 + k * (2 * Real.pi) := by
    rw [hk]; ring
  rw [e, Real.cos_add_int_mul_two_pi, Real.sin_add_int_mul_two_pi]
  exact ⟨rfl, rfl⟩

/-- The picture of a placed image: turned about its centre. -/
theorem shown_placed (v : View) (h : Placed v) (p : V2 ℝ) :
    shown v p = ⟨v.scale * (Real.cos (v.angle * Real.pi / 180) * (p.x - v.rect.x / 2)
        - Real.sin (v.angle * Real.pi / 180) * (p.y - v.rect.y / 2) + v.rect.x / 2 + v.trans.x),
      v.scale * (Real.sin (v.angle * Real.pi / 180) * (p.x - v.rect.x / 2)
        + Real.cos (v.angle * Real.pi / 180) * (p.y - v.rect.y / 2) + v.rect.y / 2 + v.trans.y)⟩ := by
  obtain ⟨h1, h2, h3⟩ := h
  simp only [shown, h1, h2, h3]
  congr 1 <;> ring

/-- A fitted image: the centre in the centre. -/
theorem shown_fit (m : ℝ → ℝ → ℝ) (v : View) (h : Placed v) (hf : FitWith m v) (hs : v.scale ≠ 0) (p : V2 ℝ) :
    shown v p = ⟨v.size.x / 2 + v.scale * (Real.cos (v.angle * Real.pi / 180) * (p.x - v.rect.x / 2)
        - Real.sin (v.angle * Real.pi / 180) * (p.y - v.rect.y / 2)),
      v.size.y / 2 + v.scale * (Real.sin (v.angle * Real.pi / 180) * (p.x - v.rect.x / 2)
        + Real.cos (v.angle * Real.pi / 180) * (p.y - v.rect.y / 2))⟩ := by
  rw [shown_placed v h p, hf.2.1, hf.2.2]
  congr 1 <;> (field_simp; ring)

theorem cs90 : Real.cos (90 * Real.pi / 180) = 0 ∧ Real.sin (90 * Real.pi / 180) = 1 := by
  rw [show 90 * Real.pi / 180 = Real.pi / 2 by ring]
  exact ⟨Real.cos_pi_div_two, Real.sin_pi_div_two⟩
theorem cs180 : Real.cos (180 * Real.pi / 180) = -1 ∧ Real.sin (180 * Real.pi / 180) = 0 := by
  rw [show 180 * Real.pi / 180 = Real.pi by ring]
  exact ⟨Real.cos_pi, Real.sin_pi⟩
theorem cs270 : Real.cos (270 * Real.pi / 180) = 0 ∧ Real.sin (270 * Real.pi / 180) = -1 := by
  rw [show 270 * Real.pi / 180 = Real.pi + Real.pi / 2 by ring, Real.cos_add, Real.sin_add]
  simp

/-- The four positions of the image. -/
theorem straight_cs {r : ℝ} (h : r = 0 ∨ r = 90 ∨ r = 180 ∨ r = 270) :
    (¬ quarter r ∧ Real.sin (r * Real.pi / 180) = 0 ∧ (Real.cos (r * Real.pi / 180) = 1 ∨ Real.cos (r * Real.pi / 180) = -1)) ∨
    (quarter r ∧ Real.cos (r * Real.pi / 180) = 0 ∧ (Real.sin (r * Real.pi / 180) = 1 ∨ Real.sin (r * Real.pi / 180) = -1)) := by
  rcases h with rfl | rfl | rfl | rfl
  · left; norm_num [quarter]
  · right; rw [cs90.1, cs90.2]; norm_num [quarter]
  · left; rw [cs180.1, cs180.2]; norm_num [quarter]
  · right; rw [cs270.1, cs270.2]; norm_num [quarter]

theorem fit_spec (v : View) (h : Inv v) (hf : v.fitted = true) (hr : v.rect ≠ ⟨1, 1⟩)
    (hrot : v.rotation = 0 ∨ v.rotation = 90 ∨ v.rotation = 180 ∨ v.rotation = 270) : WholeShown v ∧ Centred v ∧ Largest v := by
  have hp := h.placed hr
  have hfit := h.fit hf hr
  have hs := h.scale
  have ha := angle_cs v h.angle
  have hw := h.rect.1
  have hh := h.rect.2
  have hsc := hfit.1
  refine ⟨fun p hp' => ?_, ?_, fun s t hst hW => ?_⟩
  · obtain ⟨p1, p2, p3, p4⟩ := hp'
    rw [shown_fit min v hp hfit hs.ne' p, ha.1, ha.2]
    rcases straight_cs hrot with ⟨q, hsin, hcos⟩ | ⟨q, hcos, hsin⟩
    · rw [fitScale, if_neg q] at hsc
      have a1 : v.scale * v.rect.x ≤ v.size.x := by
        rw [hsc, ← le_div_iff₀ hw]; exact min_le_left _ _
      have a2 : v.scale * v.rect.y ≤ v.size.y := by
        rw [hsc, ← le_div_iff₀ hh]; exact min_le_right _ _
      have b1 := mul_nonneg hs.le p1
      have b2 := mul_nonneg hs.le (sub_nonneg.2 p2)
      have b3 := mul_nonneg hs.le p3
      have b4 := mul_nonneg hs.le (sub_nonneg.2 p4)
      rw [hsin]
      rcases hcos with hc | hc <;> rw [hc] <;> refine ⟨?_, ?_, ?_, ?_⟩ <;> simp only <;> linarith
    · rw [fitScale, if_pos q] at hsc
      have a1 : v.scale * v.rect.y ≤ v.size.x := by
        rw [hsc, ← le_div_iff₀ hh]; exact min_le_left _ _
      have a2 : v.scale * v.rect.x ≤ v.size.y := by
        rw [hsc, ← le_div_iff₀ hw]; exact min_le_right _ _
      have b1 := mul_nonneg hs.le p1
      have b2 := mul_nonneg hs.le (sub_nonneg.2 p2)
      have b3 := mul_nonneg hs.le p3
      have b4 := mul_nonneg hs.le (sub_nonneg.2 p4)
      rw [hcos]
      rcases hsin with hc | hc <;> rw [hc] <;> refine ⟨?_, ?_, ?_, ?_⟩ <;> simp only <;> linarith
  · rw [Centred, shown_fit min v hp hfit hs.ne']
    simp
  · have c1 := hW ⟨0, 0⟩ ⟨le_refl _, hw.le, le_refl _, hh.le⟩
    have c2 := hW v.rect ⟨hw.le, le_refl _, hh.le, le_refl _⟩
    rw [shown_placed { v with scale := s, trans := t } hp] at c1 c2
    simp only [InRect, ha.1, ha.2] at c1 c2
    have hs0 : 0 < s := hs.trans hst
    rcases straight_cs hrot with ⟨q, hsin, hcos⟩ | ⟨q, hcos, hsin⟩
    · rw [fitScale, if_neg q] at hsc
      have key : s * v.rect.x ≤ v.size.x ∧ s * v.rect.y ≤ v.size.y := by
        rw [hsin] at c1 c2
        rcases hcos with hc | hc <;> rw [hc] at c1 c2 <;> constructor <;> linarith
      rw [← le_div_iff₀ hw, ← le_div_iff₀ hh] at key
      have := le_min key.1 key.2
      linarith
    · rw [fitScale, if_pos q] at hsc
      have key : s * v.rect.y ≤ v.size.x ∧ s * v.rect.x ≤ v.size.y := by
        rw [hcos] at c1 c2
        rcases hsin with hc | hc <;> rw [hc] at c1 c2 <;> constructor <;> linarith
      rw [← le_div_iff₀ hh, ← le_div_iff₀ hw] at key
      have := le_min key.1 key.2
      linarith

end GView

/-- **C132.**  Whatever images were set, however the window was resized, painted, the image rotated, dragged and zoomed: no event fails,
and as long as the picture counts as fitted, the whole image is shown, its centre in the centre of the window, as large as possible.
Partial: the image is turned by a multiple of 90 degrees (see `C132_askew_violated`), and the first image has not one pixel (the view
takes an image of one pixel for granted before the first one is set). -/
theorem C132_fitted_partial (size : V2 ℝ) (hs : 0 < size.x ∧ 0 < size.y) (l : List Event) (hl : ∀ e ∈ l, e.Sound) :
    ∃ v, runAll (init size) l = some v ∧
      (v.fitted = true → v.rect ≠ ⟨1, 1⟩ → (v.rotation = 0 ∨ v.rotation = 90 ∨ v.rotation = 180 ∨ v.rotation = 270) →
        WholeShown v ∧ Centred v ∧ Largest v) := by
  obtain ⟨v, e, h⟩ := runAll_inv l (init size) (init_inv size hs) hl
  exact ⟨v, e, fun hf hr hrot => fit_spec v h hf hr hrot⟩

/-- After a fit, the new size of a window, the new size of an image and a turn, the picture is fitted. -/
theorem C132_stays_partial (size : V2 ℝ) (hs : 0 < size.x ∧ 0 < size.y) (l : List Event) (hl : ∀ e ∈ l, e.Sound) (w h : ℝ) (hw : 0 < w)
    (hh : 0 < h) (m : List Event) (hm : ∀ e ∈ m, (∃ s, 0 < s.x ∧ 0 < s.y ∧ e = .resize s) ∨ (∃ a, e = .rotate (90 * (a : ℤ))) ∨ e = .paint ∨
      (∃ w h, 0 < w ∧ 0 < h ∧ e = .setExtend w h) ∨ (∃ r p, e = .press r p) ∨ (∃ r, e = .release r) ∨ e = .fitInView) :
    ∃ v, runAll (init size) (l ++ .setExtend w h :: .fitInView :: m) = some v ∧ v.fitted = true := by
  obtain ⟨v, e, hv⟩ := runAll_inv l (init size) (init_inv size hs) hl
  obtain ⟨v1, e1, hv1⟩ := event_inv v hv (.setExtend w h) ⟨hw, hh⟩
  obtain ⟨v2, e2, hv2, -, -, -, hfit, -⟩ := fitInView_inv v1 hv1.size hv1.rect hv1.angle hv1.rot hv1.off hv1.placed
  have keep : ∀ (m : List Event) (u : View), Inv u → u.fitted = true →
      (∀ e ∈ m, (∃ s, 0 < s.x ∧ 0 < s.y ∧ e = .resize s) ∨ (∃ a, e = .rotate (90 * (a : ℤ))) ∨ e = .paint ∨
      (∃ w h, 0 < w ∧ 0 < h ∧ e = .setExtend w h) ∨ (∃ r p, e = .press r p) ∨ (∃ r, e = .release r) ∨ e = .fitInView) →
      ∃ v, runAll u m = some v ∧ v.fitted = true := by
    intro m
    induction m with
    | nil => intro u _ hf _; exact ⟨u, rfl, hf⟩
    | cons x m ih =>
      intro u hu hf hx
      have hx0 := hx x (by simp)
      have hsd : x.Sound := by
        rcases hx0 with ⟨s, h1, h2, rfl⟩ | ⟨a, rfl⟩ | rfl | ⟨w, h, h1, h2, rfl⟩ | ⟨r, p, rfl⟩ | ⟨r, rfl⟩ | rfl <;>
          simp_all [Event.Sound]
      obtain ⟨u', eu, hu'⟩ := event_inv u hu x hsd
      have fitted_of : ∀ {a b : View}, fitInView a = some b → b.fitted = true := by
        intro a b hab
        unfold fitInView at hab
        cases hq : fitWith min a <;> rw [hq] at hab <;> simp at hab
        rw [← hab]
      have hf' : u'.fitted = true := by
        rcases hx0 with ⟨s, h1, h2, rfl⟩ | ⟨a, rfl⟩ | rfl | ⟨w, h, h1, h2, rfl⟩ | ⟨r, p, rfl⟩ | ⟨r, rfl⟩ | rfl
        · simp only [Event.run, resize, hf, if_true] at eu; exact fitted_of eu
        · simp only [Event.run, rotate, hf, if_true] at eu; exact fitted_of eu
        · simp only [Event.run, paint] at eu
          split at eu
          · cases eu; exact hf
          · exact fitted_of eu
        · simp only [Event.run, setExtend] at eu
          split at eu
          · exact fitted_of eu
          · cases eu; exact hf
        · cases eu; unfold press; split <;> exact hf
        · cases eu; unfold release; split <;> exact hf
        · exact fitted_of eu
      obtain ⟨z, ez, hz⟩ := ih u' hu' hf' fun e he => hx e (by simp [he])
      refine ⟨z, ?_, hz⟩
      rw [runAll, List.foldlM_cons, eu]
      exact ez
  obtain ⟨z, ez, hz⟩ := keep m v2 hv2 hfit hm
  refine ⟨z, ?_, hz⟩
  rw [runAll, List.foldlM_append]
  have e' : List.foldlM Event.run (init size) l = some v := e
  rw [e']
  show (List.foldlM Event.run v (.setExtend w h :: .fitInView :: m)) = some z
  rw [List.foldlM_cons, e1]
  show (List.foldlM Event.run v1 (.fitInView :: m)) = some z
  rw [List.foldlM_cons]
  have e2' : Event.run v1 .fitInView = some v2 := e2
  rw [e2']
  exact ez

/-- **C132 violated.**  A square image in a square window, turned by an angle that is no multiple of 90 degrees: the picture counts as
fitted, and a corner of the image is outside of the window. -/
theorem C132_askew_violated (size : V2 ℝ) (hs : 0 < size.x ∧ size.x = size.y) (a : ℝ) (ha : 0 ≤ a ∧ a < 360)
    (hc : Real.cos (a * Real.pi / 180) ≠ 0) (hsn : Real.sin (a * Real.pi / 180) ≠ 0) (w : ℝ) (hw : 0 < w) (hw1 : w ≠ 1) :
    ∃ v, runAll (init size) [.setExtend w w, .rotate a] = some v ∧ v.fitted = true ∧ ¬ WholeShown v := by
  have hs2 : 0 < size.x ∧ 0 < size.y := ⟨hs.1, hs.2 ▸ hs.1⟩
  obtain ⟨v, e, h⟩ := runAll_inv [.setExtend w w, .rotate a] (init size) (init_inv size hs2) (by
    intro e he
    simp at he
    rcases he with rfl | rfl <;> simp [Event.Sound, hw])
  have hn1 : ¬ (1 = w ∧ 1 = w) := fun h => hw1 h.1.symm
  have hrect : v.rect = ⟨w, w⟩ ∧ v.size = size ∧ v.rotation = a ∧ v.fitted = true := by
    obtain ⟨v1, e1, i1, s1, r1, o1, f1, -⟩ := fitInView_inv
      { init size with rect := ⟨w, w⟩, r1 := ⟨w / 2, w / 2⟩, org := ⟨-w / 2, -w / 2⟩ } hs2 ⟨hw, hw⟩ ⟨0, by simp [init]⟩ (by simp [init]) rfl
      (fun _ => ⟨rfl, rfl, rfl⟩)
    have e1' : Event.run (init size) (.setExtend w w) = some v1 := by
      simp only [Event.run, setExtend]
      rw [if_pos ⟨rfl, hn1⟩]
      exact e1
    have hm := pmod_360 (v1.rotation + a)
    have ho : v1.rotation = 0 := o1
    have hpm : pmod (v1.rotation + a) 360 = a := by
      have : ⌊a / 360⌋ = 0 := by
        rw [Int.floor_eq_zero_iff]
        exact ⟨by have := ha.1; positivity, by rw [div_lt_one (by norm_num)]; exact ha.2⟩
      rw [ho, pmod, zero_add, this]
      simp
    have hang : AngleOk { v1 with rotation := pmod (v1.rotation + a) 360, angle := v1.angle + a } := by
      obtain ⟨k, hk⟩ := i1.angle
      refine ⟨k, ?_⟩
      show v1.angle + a = pmod (v1.rotation + a) 360 + 360 * (k : ℝ)
      rw [hpm, hk, ho]; ring
    obtain ⟨v2, e2, i2, s2, r2, o2, f2, -⟩ := fitInView_inv { v1 with rotation := pmod (v1.rotation + a) 360, angle := v1.angle + a } i1.size
      i1.rect hang hm.1 i1.off i1.placed
    have e2' : Event.run v1 (.rotate a) = some v2 := by
      simp only [Event.run, rotate]
      rw [if_pos f1]
      exact e2
    have : v = v2 := by
      have : runAll (init size) [.setExtend w w, .rotate a] = some v2 := by
        rw [runAll, List.foldlM_cons, e1']
        show List.foldlM Event.run v1 [.rotate a] = some v2
        rw [List.foldlM_cons, e2']
        rfl
      rw [this] at e
      exact (Option.some.inj e).symm
    rw [this]
    exact ⟨r2.trans r1, s2.trans s1, o2.trans hpm, f2⟩
  obtain ⟨hr, hsz, hrot, hf⟩ := hrect
  refine ⟨v, e, hf, fun hW => ?_⟩
  have hr1 : v.rect ≠ ⟨1, 1⟩ := by
    rw [hr]; intro h'; exact hw1 (congrArg V2.x h')
  have hp := h.placed hr1
  have hfit := h.fit hf hr1
  have hcs := angle_cs v h.angle
  rw [hrot] at hcs
  have nq : ¬ quarter v.rotation := by
    rw [hrot]
    rintro (rfl | rfl)
    · exact hc cs90.1
    · exact hc cs270.1
  have hsc : v.scale * w = size.x := by
    have := hfit.1
    rw [fitScale, if_neg nq, hr, hsz] at this
    simp only [← hs.2, min_self] at this
    rw [this, div_mul_cancel₀ _ hw.ne']
  have sx := hs.1
  have sy := hs.2
  have hsp := h.scale
  have t := fun p hp' => by
    have := hW p hp'
    rwa [shown_fit min v hp hfit h.scale.ne' p, hcs.1, hcs.2] at this
  have t1 := t ⟨0, 0⟩ (by rw [hr]; exact ⟨le_refl _, hw.le, le_refl _, hw.le⟩)
  have t2 := t ⟨w, 0⟩ (by rw [hr]; exact ⟨hw.le, le_refl _, le_refl _, hw.le⟩)
  have t3 := t ⟨0, w⟩ (by rw [hr]; exact ⟨le_refl _, hw.le, hw.le, le_refl _⟩)
  have t4 := t ⟨w, w⟩ (by rw [hr]; exact ⟨hw.le, le_refl _, hw.le, le_refl _⟩)
  simp only [InRect, hr, hsz] at t1 t2 t3 t4
  set C := Real.cos (a * Real.pi / 180) with hC
  set S := Real.sin (a * Real.pi / 180) with hS
  have u : C ^ 2 + S ^ 2 = 1 := Real.cos_sq_add_sin_sq _
  have q1 : v.scale * (C * (0 - w / 2) - S * (0 - w / 2)) = size.x * (S - C) / 2 := by rw [← hsc]; ring
  have q2 : v.scale * (C * (w - w / 2) - S * (0 - w / 2)) = size.x * (C + S) / 2 := by rw [← hsc]; ring
  have q3 : v.scale * (C * (0 - w / 2) - S * (w - w / 2)) = size.x * (-C - S) / 2 := by rw [← hsc]; ring
  have q4 : v.scale * (C * (w - w / 2) - S * (w - w / 2)) = size.x * (C - S) / 2 := by rw [← hsc]; ring
  rw [q1] at t1
  rw [q2] at t2
  rw [q3] at t3
  rw [q4] at t4
  have one : ∀ {x : ℝ}, size.x * x ≤ size.x * 1 → x ≤ 1 := fun h => le_of_mul_le_mul_left h sx
  have a1 : S - C ≤ 1 := one (by linarith [t1.2.1])
  have a2 : C + S ≤ 1 := one (by linarith [t2.2.1])
  have a3 : -C - S ≤ 1 := one (by linarith [t3.2.1])
  have a4 : C - S ≤ 1 := one (by linarith [t4.2.1])
  have hsq1 : (C + S) ^ 2 ≤ 1 := (sq_le_one_iff_abs_le_one _).2 (abs_le.2 ⟨by linarith, by linarith⟩)
  have hsq2 : (C - S) ^ 2 ≤ 1 := (sq_le_one_iff_abs_le_one _).2 (abs_le.2 ⟨by linarith, by linarith⟩)
  have r1 : (C + S) ^ 2 = C ^ 2 + S ^ 2 + 2 * (C * S) := by ring
  have r2 : (C - S) ^ 2 = C ^ 2 + S ^ 2 - 2 * (C * S) := by ring
  have hz : C * S = 0 := by linarith
  rcases mul_eq_zero.1 hz with h0 | h0
  · exact hc h0
  · exact hsn h0

/-- The hypotheses can be met: half a right angle. -/
example : (0:ℝ) ≤ 45 ∧ (45:ℝ) < 360 ∧ Real.cos (45 * Real.pi / 180) ≠ 0 ∧ Real.sin (45 * Real.pi / 180) ≠ 0 := by
  have e : 45 * Real.pi / 180 = Real.pi / 4 := by ring
  rw [e, Real.cos_pi_div_four, Real.sin_pi_div_four]
  have : (0:ℝ) < Real.sqrt 2 := by positivity
  refine ⟨by norm_num, by norm_num, by positivity, by positivity⟩

/-- A history with all kinds of events that ends fitted. -/
example : ∀ e ∈ ([.paint, .setExtend 800 600, .resize ⟨300, 200⟩, .wheel 120 ⟨4, 5⟩, .press true ⟨1, 1⟩, .move ⟨2, 2⟩, .release true,
    .rotate 90, .fitInView] : List Event), e.Sound := by
  intro e he
  simp at he
  rcases he with rfl | rfl | rfl | rfl | rfl | rfl | rfl | rfl | rfl <;> simp [Event.Sound]
