import Verif.Spec.DemoQt
import Verif.Props.QInput

/-! # C142: the Qt demonstration shows the camera of its inputs -/

namespace DemoQt

open Camera

/-- The value of a number input. -/
def St.val (s : St) (x : Slider) : ℝ := (s.num x).value

/-- The inputs that `updatePlot` sets. -/
def Dependent (x : Slider) : Prop := x = .focallength_y_px ∨ x = .center_x_px ∨ x = .center_y_px

/-- The value that an action gives to a dependent input is not the one that the input sent last, unless it has it. -/
def Fresh (s : St) : Act → Prop
  | .change x v => Dependent x → (s.num x).sent.head? = some ((cfg x).stored v) → (s.num x).value = (cfg x).stored v
  | .drag x path => Dependent x → (s.num x).sent.head? = some ((path.map (cfg x).stored).getLast?.getD (s.num x).value) →
      (s.num x).value = (path.map (cfg x).stored).getLast?.getD (s.num x).value
  | _ => True

/-- All actions of a history were such. -/
def AllFresh : St → List Act → Prop
  | _, [] => True
  | s, a :: as => Fresh s a ∧ AllFresh (s.act a) as

/-- What holds of the inputs whatever is sent. -/
structure Ok (s : St) : Prop where
  fixed : ∀ x, (cfg x).stored (s.val x) = s.val x
  kept : ∀ x, QInput.Kept (s.num x)
  keptL : QInput.Kept s.focalloc
  keptC : QInput.Kept s.center_image
  keptK : QInput.Kept s.select_transformation

/-- The inputs, the locks and the picture fit together. -/
structure Shown (s : St) : Prop where
  ok : Ok s
  lock : s.focalloc.value = true → s.val .focallength_y_px = s.val .focallength_x_px
  centreX : s.center_image.value = true → s.val .center_x_px = s.val .image_width_px / 2
  centreY : s.center_image.value = true → s.val .center_y_px = s.val .image_height_px / 2
  offL : s.disabled .focallength_y_px = s.focalloc.value
  offX : s.disabled .center_x_px = s.center_image.value
  offY : s.disabled .center_y_px = s.center_image.value
  drawn : s.drawn = some s.camera
  told : ∀ x, ¬ Dependent x → QInput.Told (init x) (s.num x)
  toldL : QInput.Told true s.focalloc
  toldC : QInput.Told true s.center_image
  toldK : QInput.Told .rectilinear s.select_transformation

theorem cfg_bounds (x : Slider) : ∃ lo hi : ℤ, (cfg x).min = lo ∧ (cfg x).max = hi ∧ lo ≤ hi := by
  cases x
  case focallength_x_px | focallength_y_px | image_width_px | image_height_px | center_x_px | center_y_px =>
    exact ⟨0, 5000, by simp [cfg], by simp [cfg], by norm_num⟩
  case heading_deg | tilt_deg | roll_deg => exact ⟨-180, 180, by simp [cfg], by simp [cfg], by norm_num⟩
  case pos_x_m | pos_y_m | elevation_m => exact ⟨-10, 10, by simp [cfg], by simp [cfg], by norm_num⟩

theorem stored_stored (x : Slider) (v : ℝ) : (cfg x).stored ((cfg x).stored v) = (cfg x).stored v := by
  obtain ⟨lo, hi, h1, h2, h3⟩ := cfg_bounds x
  exact (C141_number (cfg x) lo hi h1 h2 h3 v).2.2.2.2.1

/-- A whole number of the range, halved, has one decimal. -/
theorem half_stored {v : ℝ} (h : (⟨0, 5000, 0⟩ : QNumber.Cfg).stored v = v) : (⟨0, 5000, 2⟩ : QNumber.Cfg).stored (v / 2) = v / 2 := by
  obtain ⟨h1, h2, ⟨k, hk⟩, -⟩ := C141_number ⟨0, 5000, 0⟩ 0 5000 (by simp) (by simp) (by norm_num) v
  rw [h] at h1 h2 hk
  refine QNumber.stored_fix _ ?_ ?_ ⟨50 * k, ?_⟩
  · simp only at h1 ⊢; linarith
  · simp only at h2 ⊢; linarith
  · rw [hk]; push_cast; norm_num; ring

theorem val_update (s : St) (x : Slider) (i : QInput.St ℝ) (y : Slider) :
    ({ s with num := Function.update s.num x i } : St).val y = if y = x then i.value else s.val y := by
  unfold St.val
  simp only [Function.update_apply]
  split_ifs <;> rfl

theorem setValue_val (s : St) (x : Slider) (v : ℝ) (y : Slider) :
    (s.setValue x v).val y = if y = x then (cfg x).stored v else s.val y := by
  unfold St.setValue
  rw [val_update]; rfl

theorem setValue_sent (s : St) (x : Slider) (v : ℝ) (y : Slider) :
    ((s.setValue x v).num y).sent = (s.num y).sent ∧ ((s.setValue x v).num y).last = (s.num y).last := by
  unfold St.setValue
  simp only [Function.update_apply]
  split_ifs with h
  · subst h; exact ⟨rfl, rfl⟩
  · exact ⟨rfl, rfl⟩

/-- The parts of `updatePlot` that do not depend on the locks. -/
theorem updatePlot_frame (s : St) :
    s.updatePlot.focalloc = s.focalloc ∧ s.updatePlot.center_image = s.center_image ∧
    s.updatePlot.select_transformation = s.select_transformation ∧
    (∀ x, ¬ Dependent x → s.updatePlot.num x = s.num x) ∧
    (∀ x, (s.updatePlot.num x).sent = (s.num x).sent ∧ (s.updatePlot.num x).last = (s.num x).last) ∧
    (s.updatePlot.val .focallength_y_px = if s.focalloc.value = true then (cfg .focallength_y_px).stored (s.val .focallength_x_px)
      else s.val .focallength_y_px) ∧
    (s.updatePlot.val .center_x_px = if s.center_image.value = true then (cfg .center_x_px).stored (s.val .image_width_px / 2)
      else s.val .center_x_px) ∧
    (s.updatePlot.val .center_y_px = if s.center_image.value = true then (cfg .center_y_px).stored (s.val .image_height_px / 2)
      else s.val .center_y_px) ∧
    s.updatePlot.disabled .focallength_y_px = s.focalloc.value ∧ s.updatePlot.disabled .center_x_px = s.center_image.value ∧
    s.updatePlot.disabled .center_y_px = s.center_image.value ∧ s.updatePlot.drawn = some s.updatePlot.camera := by
  obtain ⟨n, l, c, k, d, w⟩ := s
  have hd : ∀ x, ¬ Dependent x → x ≠ .focallength_y_px ∧ x ≠ .center_x_px ∧ x ≠ .center_y_px := by
    intro x hx
    exact ⟨fun h => hx (Or.inl h), fun h => hx (Or.inr (Or.inl h)), fun h => hx (Or.inr (Or.inr h))⟩
  obtain ⟨lv, ll, ls⟩ := l
  obtain ⟨cv, cl, cs⟩ := c
  cases lv <;> cases cv <;>
  · refine ⟨rfl, rfl, rfl, fun x hx => ?_, fun x => ?_, ?_, ?_, ?_, ?_, ?_, ?_, rfl⟩
    · obtain ⟨h1, h2, h3⟩ := hd x hx
      simp [St.updatePlot, St.setValue, h1, h2, h3]
    · constructor <;> simp only [St.updatePlot, St.setValue, Function.update_apply] <;> cases x <;> simp [QInput.St.setValue]
    all_goals simp [St.updatePlot, St.setValue, St.val, QInput.St.setValue]

theorem kept_same {V : Type} {i j : QInput.St V} (h : QInput.Kept i) (h1 : j.sent = i.sent) (h2 : j.last = i.last) : QInput.Kept j := by
  unfold QInput.Kept; rw [h1, h2]; exact h

theorem shown_update {s : St} (h : Ok s) (ht : ∀ x, ¬ Dependent x → QInput.Told (init x) (s.num x)) (hl : QInput.Told true s.focalloc)
    (hc : QInput.Told true s.center_image) (hk : QInput.Told .rectilinear s.select_transformation) : Shown s.updatePlot := by
  obtain ⟨f1, f2, f3, f4, f5, f6, f7, f8, f9, f10, f11, f12⟩ := updatePlot_frame s
  have vx : ∀ x, ¬ Dependent x → s.updatePlot.val x = s.val x := fun x hx => congrArg QInput.St.value (f4 x hx)
  have nfx : ¬ Dependent .focallength_x_px := by simp [Dependent]
  have nw : ¬ Dependent .image_width_px := by simp [Dependent]
  have nh : ¬ Dependent .image_height_px := by simp [Dependent]
  have sfx : (cfg .focallength_y_px).stored (s.val .focallength_x_px) = s.val .focallength_x_px := h.fixed .focallength_x_px
  have sw : (cfg .center_x_px).stored (s.val .image_width_px / 2) = s.val .image_width_px / 2 := half_stored (h.fixed .image_width_px)
  have sh : (cfg .center_y_px).stored (s.val .image_height_px / 2) = s.val .image_height_px / 2 := half_stored (h.fixed .image_height_px)
  refine ⟨⟨fun x => ?_, fun x => kept_same (h.kept x) (f5 x).1 (f5 x).2, by rw [f1]; exact h.keptL, by rw [f2]; exact h.keptC,
    by rw [f3]; exact h.keptK⟩, fun e => ?_, fun e => ?_, fun e => ?_, by rw [f9, f1], by rw [f10, f2], by rw [f11, f2], f12,
    fun x hx => by rw [f4 x hx]; exact ht x hx, by rw [f1]; exact hl, by rw [f2]; exact hc, by rw [f3]; exact hk⟩
  · by_cases hx : Dependent x
    · rcases hx with rfl | rfl | rfl
      · rw [f6]; split_ifs
        · exact stored_stored _ _
        · exact h.fixed _
      · rw [f7]; split_ifs
        · exact stored_stored _ _
        · exact h.fixed _
      · rw [f8]; split_ifs
        · exact stored_stored _ _
        · exact h.fixed _
    · rw [vx x hx]; exact h.fixed x
  · rw [f1] at e; rw [f6, if_pos e, vx _ nfx, sfx]
  · rw [f2] at e; rw [f7, if_pos e, vx _ nw, sw]
  · rw [f2] at e; rw [f8, if_pos e, vx _ nh, sh]

theorem shown_camera {s : St} (h : Shown s) :
    s.camera = Spec.camera s.val s.focalloc.value s.center_image.value s.select_transformation.value := by
  unfold St.camera Spec.camera
  have h1 := h.lock
  have h2 := h.centreX
  have h3 := h.centreY
  unfold St.val at *
  cases e : s.focalloc.value <;> cases e' : s.center_image.value <;> simp_all

theorem shown_start : Shown start := by
  refine shown_update ⟨fun x => ?_, fun _ => rfl, rfl, rfl, rfl⟩ (fun x _ => Or.inr ⟨rfl, rfl⟩) (Or.inr ⟨rfl, rfl⟩) (Or.inr ⟨rfl, rfl⟩)
    (Or.inr ⟨rfl, rfl⟩)
  refine QNumber.stored_fix _ ?_ ?_ ?_
  · cases x <;> simp [cfg, init, St.val, QInput.St.new]
    norm_num
  · cases x <;> simp [cfg, init, St.val, QInput.St.new] <;> norm_num
  · cases x
    case focallength_x_px | focallength_y_px => exact ⟨3860, by simp [cfg, init, St.val, QInput.St.new]⟩
    case image_width_px => exact ⟨4608, by simp [cfg, init, St.val, QInput.St.new]⟩
    case image_height_px => exact ⟨2592, by simp [cfg, init, St.val, QInput.St.new]⟩
    case center_x_px => exact ⟨230400, by simp [cfg, init, St.val, QInput.St.new]; norm_num⟩
    case center_y_px => exact ⟨129600, by simp [cfg, init, St.val, QInput.St.new]; norm_num⟩
    case elevation_m => exact ⟨500, by simp [cfg, init, St.val, QInput.St.new]; norm_num⟩
    all_goals exact ⟨0, by simp [cfg, init, St.val, QInput.St.new]⟩

/-- An action of the user on one input either sends the value, or the value was sent before. -/
theorem act_cases {V : Type} {i : QInput.St V} (hk : QInput.Kept i) (a : QInput.Act V) (ha : QInput.ofUser a) :
    ((i.act a).sent.length ≠ i.sent.length) ∨ (i.act a = i) ∨
      (i.act a).sent = i.sent ∧ (i.act a).last = i.last ∧ i.sent.head? = some (i.act a).value := by
  have e : ∀ t : QInput.St V, t.last = i.last → t.sent = i.sent → (t.emitSignal.sent.length ≠ i.sent.length) ∨
      t.emitSignal.sent = i.sent ∧ t.emitSignal.last = i.last ∧ i.sent.head? = some t.emitSignal.value := by
    intro t h1 h2
    unfold QInput.St.emitSignal
    split_ifs with h
    · right; exact ⟨h2, h1, by rw [← hk, ← h1, ← h]⟩
    · left; simp [h2]
  cases a with
  | change v =>
    simp only [QInput.St.act]
    split_ifs
    · exact Or.inr (Or.inl rfl)
    · exact (e (i.setValue v) rfl rfl).imp id Or.inr
  | enter v => exact (e (i.setValue v) rfl rfl).imp id Or.inr
  | drag p => exact (e _ (QInput.foldl_setValue i p).1 (QInput.foldl_setValue i p).2.1).imp id Or.inr
  | program v => exact absurd ha id

/-- Replacing an input by one with the same value. -/
theorem shown_num {s : St} (h : Shown s) (x : Slider) (i : QInput.St ℝ) (hv : i.value = s.val x) (hk : QInput.Kept i)
    (ht : ¬ Dependent x → QInput.Told (init x) i) : Shown { s with num := Function.update s.num x i } := by
  have vv : ({ s with num := Function.update s.num x i } : St).val = s.val := by
    funext y; rw [val_update]; split_ifs with e
    · rw [hv, e]
    · rfl
  have cc : ({ s with num := Function.update s.num x i } : St).camera = s.camera := by
    have : ∀ y, (Function.update s.num x i y).value = (s.num y).value := fun y => congrFun vv y
    unfold St.camera; simp only [this]
  refine ⟨⟨fun y => by rw [vv]; exact h.ok.fixed y, fun y => ?_, h.ok.keptL, h.ok.keptC, h.ok.keptK⟩, by rw [vv]; exact h.lock,
    by rw [vv]; exact h.centreX, by rw [vv]; exact h.centreY, h.offL, h.offX, h.offY, by rw [cc]; exact h.drawn, fun y hy => ?_, h.toldL,
    h.toldC, h.toldK⟩
  · simp only [Function.update_apply]; split_ifs
    · exact hk
    · exact h.ok.kept y
  · simp only [Function.update_apply]; split_ifs with e
    · subst e; exact ht hy
    · exact h.told y hy

/-- One number input acts. -/
theorem shown_act_num {s : St} (h : Shown s) (x : Slider) (a : QInput.Act ℝ) (ha : QInput.ofUser a)
    (hs : (cfg x).stored ((s.num x).act a).value = ((s.num x).act a).value)
    (hf : Dependent x → (s.num x).sent.head? = some ((s.num x).act a).value → (s.num x).value = ((s.num x).act a).value) :
    Shown ({ s with num := Function.update s.num x ((s.num x).act a) }.told (s.num x) ((s.num x).act a)) := by
  have hk := QInput.kept_act (h.ok.kept x) a
  have ht : ¬ Dependent x → QInput.Told (init x) ((s.num x).act a) := fun hx => QInput.told_act _ (h.told x hx) ha
  unfold St.told
  split_ifs with e
  · -- nothing was sent
    refine shown_num h x _ ?_ hk ht
    rcases act_cases (h.ok.kept x) a ha with h1 | h1 | ⟨h1, h2, h3⟩
    · exact absurd e h1
    · rw [h1]; rfl
    · by_cases hx : Dependent x
      · exact (hf hx h3).symm
      · rcases h.told x hx with h4 | ⟨h4, _⟩
        · have := (h.ok.kept x).symm.trans h4
          rw [h3] at this
          exact Option.some.inj this
        · have := (h.ok.kept x).symm.trans h4
          rw [h3] at this; cases this
  · refine shown_update ⟨fun y => ?_, fun y => ?_, h.ok.keptL, h.ok.keptC, h.ok.keptK⟩ (fun y hy => ?_) h.toldL h.toldC h.toldK
    · rw [val_update]; split_ifs with e'
      · subst e'; exact hs
      · exact h.ok.fixed y
    · simp only [Function.update_apply]; split_ifs
      · exact hk
      · exact h.ok.kept y
    · simp only [Function.update_apply]; split_ifs with e'
      · subst e'; exact ht hy
      · exact h.told y hy

/-- A box or a list: an action of the user on an input that the program does not set. -/
theorem act_same {V : Type} {v0 : V} {i : QInput.St V} (hk : QInput.Kept i) (ht : QInput.Told v0 i) (v : V)
    (e : (i.act (.change v)).sent.length = i.sent.length) : i.act (.change v) = i := by
  rcases act_cases hk (.change v) trivial with h1 | h1 | ⟨h1, h2, h3⟩
  · exact absurd e h1
  · exact h1
  · have hv : i.value = (i.act (.change v)).value := by
      rcases ht with h4 | ⟨h4, _⟩
      · have := hk.symm.trans h4
        rw [h3] at this
        exact (Option.some.inj this).symm
      · have := hk.symm.trans h4
        rw [h3] at this; cases this
    rw [QInput.act_value i (.change v) v rfl] at hv
    simp only [QInput.St.act, hv, if_true]

theorem shown_act {s : St} (h : Shown s) (a : Act) (hf : Fresh s a) : Shown (s.act a) := by
  cases a with
  | change x v =>
    simp only [St.act]
    split_ifs with hd
    · exact h
    · have e : ((s.num x).act (.change ((cfg x).stored v))).value = (cfg x).stored v := QInput.act_value _ _ _ rfl
      refine shown_act_num h x _ trivial ?_ ?_
      · rw [e]; exact stored_stored x v
      · rw [e]; exact hf
  | drag x path =>
    simp only [St.act]
    split_ifs with hd
    · exact h
    · have e : ((s.num x).act (.drag (path.map (cfg x).stored))).value = (path.map (cfg x).stored).getLast?.getD (s.num x).value := by
        have e1 : ∀ t : QInput.St ℝ, t.emitSignal.value = t.value := by
          intro t; unfold QInput.St.emitSignal; split_ifs <;> rfl
        exact (e1 _).trans (QInput.foldl_setValue _ _).2.2
      refine shown_act_num h x _ trivial ?_ ?_
      · rw [e]
        rw [List.getLast?_map]
        cases path.getLast? with
        | none => exact h.ok.fixed x
        | some v => exact stored_stored x v
      · rw [e]; exact hf
  | focalloc b =>
    simp only [St.act, St.told]
    split_ifs with e
    · rw [act_same h.ok.keptL h.toldL b e]; exact h
    · exact shown_update ⟨h.ok.fixed, h.ok.kept, QInput.kept_act h.ok.keptL _, h.ok.keptC, h.ok.keptK⟩ h.told
        (QInput.told_act _ h.toldL trivial) h.toldC h.toldK
  | center_image b =>
    simp only [St.act, St.told]
    split_ifs with e
    · rw [act_same h.ok.keptC h.toldC b e]; exact h
    · exact shown_update ⟨h.ok.fixed, h.ok.kept, h.ok.keptL, QInput.kept_act h.ok.keptC _, h.ok.keptK⟩ h.told h.toldL
        (QInput.told_act _ h.toldC trivial) h.toldK
  | select_transformation k =>
    simp only [St.act, St.told]
    split_ifs with e
    · rw [act_same h.ok.keptK h.toldK k e]; exact h
    · exact shown_update ⟨h.ok.fixed, h.ok.kept, h.ok.keptL, h.ok.keptC, QInput.kept_act h.ok.keptK _⟩ h.told h.toldL h.toldC
        (QInput.told_act _ h.toldK trivial)

theorem shown_foldl {s : St} (h : Shown s) (as : List Act) (hf : AllFresh s as) : Shown (as.foldl St.act s) := by
  induction as generalizing s with
  | nil => exact h
  | cons a as ih => exact ih (shown_act h a hf.1) hf.2

/-- A click on the check box of the aspect ratio that changes it. -/
theorem act_focalloc {s : St} (h : Shown s) {b : Bool} (hb : s.focalloc.value ≠ b) :
    s.act (.focalloc b) = { s with focalloc := s.focalloc.act (.change b) }.updatePlot ∧ (s.act (.focalloc b)).focalloc.value = b := by
  have e : (s.focalloc.act (.change b)).value = b := QInput.act_value _ _ _ rfl
  have h1 : s.act (.focalloc b) = { s with focalloc := s.focalloc.act (.change b) }.updatePlot := by
    simp only [St.act, St.told]
    rw [if_neg]
    intro hl
    rw [act_same h.ok.keptL h.toldL b hl] at e
    exact hb e
  refine ⟨h1, ?_⟩
  rw [h1, (updatePlot_frame _).1]; exact e

/-- A change of the second focal length that is lost. -/
theorem lost_fy {s : St} (h : Shown s) (hu : s.focalloc.value = false) {a : ℝ}
    (hs : (s.num .focallength_y_px).sent.head? = some a) (ha : (cfg .focallength_y_px).stored a = a) :
    let t := ((s.act (.focalloc true)).act (.focalloc false)).act (.change .focallength_y_px a)
    t.focalloc.value = false ∧ t.val .focallength_y_px = a ∧ ∃ c, t.drawn = some c ∧ c.intr.fy = s.val .focallength_x_px := by
  have h1 := act_focalloc h (b := true) (by rw [hu]; decide)
  have s1 : Shown (s.act (.focalloc true)) := shown_act h _ trivial
  have h2 := act_focalloc s1 (b := false) (by rw [h1.2]; decide)
  have s2 : Shown ((s.act (.focalloc true)).act (.focalloc false)) := shown_act s1 _ trivial
  generalize hr : s.act (.focalloc true) = r at *
  have nfx : ¬ Dependent .focallength_x_px := by simp [Dependent]
  have rx : r.val .focallength_x_px = s.val .focallength_x_px := by
    unfold St.val; rw [h1.1, (updatePlot_frame _).2.2.2.1 _ nfx]
  have ry : r.val .focallength_y_px = s.val .focallength_x_px := (s1.lock h1.2).trans rx
  have rs : (r.num .focallength_y_px).sent.head? = some a := by
    rw [h1.1, ((updatePlot_frame _).2.2.2.2.1 _).1]; exact hs
  generalize hq : r.act (.focalloc false) = q at *
  have qy : q.val .focallength_y_px = s.val .focallength_x_px := by
    rw [h2.1, (updatePlot_frame _).2.2.2.2.2.1, if_neg]
    · exact ry
    · show ¬ (r.focalloc.act (.change false)).value = true
      rw [QInput.act_value _ _ false rfl]; decide
  have qs : (q.num .focallength_y_px).sent.head? = some a := by
    rw [h2.1, ((updatePlot_frame _).2.2.2.2.1 _).1]; exact rs
  have ql := h2.2
  intro t
  have hlen : ((q.num .focallength_y_px).act (.change a)).sent = (q.num .focallength_y_px).sent := by
    have hk := s2.ok.kept .focallength_y_px
    have hl : (q.num .focallength_y_px).last = some a := hk.trans qs
    simp only [QInput.St.act]
    split_ifs
    · rfl
    · show ((q.num .focallength_y_px).setValue a).emitSignal.sent = _
      rw [QInput.emitSignal_same (s := (q.num .focallength_y_px).setValue a) hl]; rfl
  have ht : t = { q with num := Function.update q.num .focallength_y_px ((q.num .focallength_y_px).act (.change a)) } := by
    show q.act (.change .focallength_y_px a) = _
    have hd : q.disabled .focallength_y_px = false := by rw [s2.offL, ql]
    simp only [St.act, hd, ha, St.told, hlen, Bool.false_eq_true, if_false, if_true]
  refine ⟨?_, ?_, q.camera, ?_, qy⟩
  · rw [ht]; exact ql
  · rw [ht, val_update, if_pos rfl]; exact QInput.act_value _ _ a rfl
  · rw [ht]; exact s2.drawn

/-- The value of an input that is not disabled after an update. -/
theorem update_enabled {s : St} {x : Slider} (h1 : x = .focallength_y_px → s.focalloc.value = false)
    (h2 : x = .center_x_px ∨ x = .center_y_px → s.center_image.value = false) : s.updatePlot.val x = s.val x := by
  obtain ⟨-, -, -, f4, -, f6, f7, f8, -⟩ := updatePlot_frame s
  by_cases hx : Dependent x
  · rcases hx with rfl | rfl | rfl
    · rw [f6, if_neg (by rw [h1 rfl]; decide)]
    · rw [f7, if_neg (by rw [h2 (Or.inl rfl)]; decide)]
    · rw [f8, if_neg (by rw [h2 (Or.inr rfl)]; decide)]
  · exact congrArg QInput.St.value (f4 x hx)

theorem told_num {s : St} (h : Shown s) {x : Slider} (hd : s.disabled x = false) (a : QInput.Act ℝ) :
    let t := { s with num := Function.update s.num x ((s.num x).act a) }.told (s.num x) ((s.num x).act a)
    t.val x = ((s.num x).act a).value ∧ ∀ y, y ≠ x → ¬ Dependent y → t.val y = s.val y := by
  unfold St.told
  split_ifs
  · exact ⟨by rw [val_update, if_pos rfl], fun y hy _ => by rw [val_update, if_neg hy]⟩
  · refine ⟨?_, fun y hy hn => ?_⟩
    · rw [update_enabled, val_update, if_pos rfl]
      · rintro rfl; rw [← hd]; exact h.offL.symm
      · rintro (rfl | rfl) <;> rw [← hd]
        · exact h.offX.symm
        · exact h.offY.symm
    · have e := congrArg QInput.St.value
        ((updatePlot_frame { s with num := Function.update s.num x ((s.num x).act a) }).2.2.2.1 y hn)
      refine Eq.trans e ?_
      simp only [Function.update_of_ne hy]; rfl

end DemoQt

open DemoQt

/-- **C142** What the user does to an input: an enabled number input gets the value (as far as it can store it), by typing as well as by
dragging, and the inputs that do not follow from others keep theirs; a disabled one does not change; check boxes and the list of
projections get what was chosen. -/
theorem C142_inputs_partial (as : List Act) (hf : AllFresh start as) :
    let s := DemoQt.after as
    (∀ x v path, s.disabled x = true → s.act (.change x v) = s ∧ s.act (.drag x path) = s) ∧
    (∀ x v, s.disabled x = false → (s.act (.change x v)).val x = (cfg x).stored v ∧
      ∀ y, y ≠ x → ¬ Dependent y → (s.act (.change x v)).val y = s.val y) ∧
    (∀ x path v, s.disabled x = false → (s.act (.drag x (path ++ [v]))).val x = (cfg x).stored v ∧
      ∀ y, y ≠ x → ¬ Dependent y → (s.act (.drag x (path ++ [v]))).val y = s.val y) ∧
    (∀ b, (s.act (.focalloc b)).focalloc.value = b ∧ (s.act (.center_image b)).center_image.value = b) ∧
    (∀ k, (s.act (.select_transformation k)).select_transformation.value = k) ∧
    (∀ y, ¬ Dependent y → ∀ b k, (s.act (.focalloc b)).val y = s.val y ∧ (s.act (.center_image b)).val y = s.val y ∧
      (s.act (.select_transformation k)).val y = s.val y) := by
  intro s
  have h : Shown s := shown_foldl shown_start as hf
  refine ⟨fun x v path hd => ?_, fun x v hd => ?_, fun x path v hd => ?_, fun b => ?_, fun k => ?_, fun y hy b k => ?_⟩
  · simp only [St.act, hd, if_true, and_self]
  · have e : ((s.num x).act (.change ((cfg x).stored v))).value = (cfg x).stored v := QInput.act_value _ _ _ rfl
    simp only [St.act, hd, Bool.false_eq_true, if_false]
    rw [← e]
    have := told_num h hd (.change ((cfg x).stored v))
    rw [e] at this ⊢
    exact this
  · have e : ((s.num x).act (.drag ((path ++ [v]).map (cfg x).stored))).value = (cfg x).stored v :=
      QInput.act_value _ _ _ (by simp [QInput.byUser])
    have := told_num h hd (.drag ((path ++ [v]).map (cfg x).stored))
    simp only [St.act, hd, Bool.false_eq_true, if_false]
    rw [e] at this
    exact this
  · constructor
    · simp only [St.act, St.told]
      split_ifs
      · exact QInput.act_value _ _ _ rfl
      · rw [(updatePlot_frame _).1]; exact QInput.act_value _ _ _ rfl
    · simp only [St.act, St.told]
      split_ifs
      · exact QInput.act_value _ _ _ rfl
      · rw [(updatePlot_frame _).2.1]; exact QInput.act_value _ _ _ rfl
  · simp only [St.act, St.told]
    split_ifs
    · exact QInput.act_value _ _ _ rfl
    · rw [(updatePlot_frame _).2.2.1]; exact QInput.act_value _ _ _ rfl
  · refine ⟨?_, ?_, ?_⟩ <;> simp only [St.act, St.told] <;> split_ifs <;> first | rfl | skip
    all_goals exact congrArg QInput.St.value ((updatePlot_frame _).2.2.2.1 y hy)

/-- **C142** After every history in which the second focal length and the coordinates of the centre are not set by the user to the value
they sent last while they have another one: the scene is drawn with the camera of the inputs, of the chosen projection; while the aspect
ratio is locked the second focal length shows the first one; while the image is centred the centre shows the middle of the image; and the
inputs are disabled exactly then. -/
theorem C142_shown_partial (as : List Act) (hf : AllFresh start as) :
    let s := DemoQt.after as
    s.drawn = some (Spec.camera s.val s.focalloc.value s.center_image.value s.select_transformation.value) ∧
    (s.focalloc.value = true → s.val .focallength_y_px = s.val .focallength_x_px) ∧
    (s.center_image.value = true → s.val .center_x_px = s.val .image_width_px / 2 ∧ s.val .center_y_px = s.val .image_height_px / 2) ∧
    s.disabled .focallength_y_px = s.focalloc.value ∧ s.disabled .center_x_px = s.center_image.value ∧
    s.disabled .center_y_px = s.center_image.value := by
  intro s
  have h : Shown s := shown_foldl shown_start as hf
  exact ⟨h.drawn.trans (congrArg some (shown_camera h)), h.lock, fun e => ⟨h.centreX e, h.centreY e⟩, h.offL, h.offX, h.offY⟩

/-- The picture can miss a change: when the user gave the second focal length the value `a` (and it was sent), locks the aspect ratio,
unlocks it and enters `a` again, the input shows `a` while the scene is drawn with the first focal length, whatever happened before; and
there are such histories for every whole number `a` of the range but the first focal length. -/
theorem C142_lost_violated :
    (∀ as, AllFresh start as → ∀ a, (DemoQt.after as).focalloc.value = false →
      ((DemoQt.after as).num .focallength_y_px).sent.head? = some a → (cfg .focallength_y_px).stored a = a →
      (DemoQt.after as).val .focallength_x_px ≠ a →
      let t := DemoQt.after (as ++ [.focalloc true, .focalloc false, .change .focallength_y_px a])
      t.focalloc.value = false ∧ t.val .focallength_y_px = a ∧
      (∃ c, t.drawn = some c ∧ c.intr.fy = (DemoQt.after as).val .focallength_x_px) ∧
      t.drawn ≠ some (Spec.camera t.val t.focalloc.value t.center_image.value t.select_transformation.value)) ∧
    ∀ k : ℤ, 0 ≤ k → k ≤ 5000 → k ≠ 3860 →
      let as : List DemoQt.Act := [.focalloc false, .change .focallength_y_px k]
      AllFresh start as ∧ (DemoQt.after as).focalloc.value = false ∧
      ((DemoQt.after as).num .focallength_y_px).sent.head? = some (k : ℝ) ∧ (cfg .focallength_y_px).stored k = k ∧
      (DemoQt.after as).val .focallength_x_px ≠ k := by
  refine ⟨fun as hf a hu hs ha hne => ?_, fun k hk0 hk1 hk => ?_⟩
  · have h : Shown (DemoQt.after as) := shown_foldl shown_start as hf
    have e : DemoQt.after (as ++ [.focalloc true, .focalloc false, .change .focallength_y_px a]) =
        (((DemoQt.after as).act (.focalloc true)).act (.focalloc false)).act (.change .focallength_y_px a) := by
      unfold DemoQt.after; rw [List.foldl_append]; rfl
    have := lost_fy h hu hs ha
    rw [← e] at this
    obtain ⟨t1, t2, c, t3, t4⟩ := this
    refine ⟨t1, t2, ⟨c, t3, t4⟩, ?_⟩
    rw [t3]
    intro hc
    have hc := congrArg (fun c : Camera.Cam => c.intr.fy) (Option.some.inj hc)
    simp only [Spec.camera, t1, t2, Bool.false_eq_true, if_false] at hc
    exact hne (t4.symm.trans hc)
  · have hst : (cfg .focallength_y_px).stored (k : ℝ) = k := by
      refine QNumber.stored_fix _ ?_ ?_ (QNumber.int_onGrid _ _)
      · simp only [cfg]; exact_mod_cast hk0
      · simp only [cfg]; exact_mod_cast hk1
    have lk : start.focalloc = QInput.St.new true := (updatePlot_frame _).1
    have h1 := act_focalloc shown_start (b := false) (by rw [lk]; decide)
    have s1 : Shown (start.act (.focalloc false)) := shown_act shown_start _ trivial
    have nfx : ¬ Dependent .focallength_x_px := by simp [Dependent]
    have x0 : start.val .focallength_x_px = 3860 := by
      unfold St.val start; rw [(updatePlot_frame _).2.2.2.1 _ nfx]; rfl
    have x1 : (start.act (.focalloc false)).val .focallength_x_px = 3860 := by
      unfold St.val; rw [h1.1, (updatePlot_frame _).2.2.2.1 _ nfx]; exact x0
    have y0 : start.val .focallength_y_px = 3860 := by
      rw [shown_start.lock (by rw [lk]; rfl), x0]
    have y1 : (start.act (.focalloc false)).val .focallength_y_px = 3860 := by
      rw [h1.1, (updatePlot_frame _).2.2.2.2.2.1, if_neg]
      · exact y0
      · show ¬ (start.focalloc.act (.change false)).value = true
        rw [QInput.act_value _ _ false rfl]; decide
    have sent0 : (start.num .focallength_y_px).sent = [] := ((updatePlot_frame _).2.2.2.2.1 _).1
    have sent1 : ((start.act (.focalloc false)).num .focallength_y_px).sent = [] := by
      rw [h1.1, ((updatePlot_frame _).2.2.2.2.1 _).1]; exact sent0
    have hf1 : Fresh (start.act (.focalloc false)) (.change .focallength_y_px k) := by
      intro _ hh; rw [sent1] at hh; cases hh
    have s2 : Shown ((start.act (.focalloc false)).act (.change .focallength_y_px k)) := shown_act s1 _ hf1
    have hd : (start.act (.focalloc false)).disabled .focallength_y_px = false := by rw [s1.offL, h1.2]
    have hkR : (k : ℝ) ≠ 3860 := by exact_mod_cast hk
    have hi : ((start.act (.focalloc false)).num .focallength_y_px).act (.change (k : ℝ)) = ⟨k, some k, [(k : ℝ)]⟩ := by
      have hl : ((start.act (.focalloc false)).num .focallength_y_px).last = none := by
        rw [s1.ok.kept .focallength_y_px, sent1]; rfl
      have hv : ¬ (k : ℝ) = ((start.act (.focalloc false)).num .focallength_y_px).value := fun hh => hkR (hh.trans y1)
      simp only [QInput.St.act, if_neg hv, QInput.St.valueChangedEvent]
      rw [QInput.emitSignal_new]
      · simp [QInput.St.setValue, sent1]
      · show ((start.act (.focalloc false)).num .focallength_y_px).last ≠ _
        rw [hl]; simp
    have h2 : (start.act (.focalloc false)).act (.change .focallength_y_px k) =
        ({ start.act (.focalloc false) with
            num := Function.update (start.act (.focalloc false)).num .focallength_y_px (⟨k, some k, [(k : ℝ)]⟩ : QInput.St ℝ) } : DemoQt.St).updatePlot := by
      rw [← hi]
      generalize start.act (.focalloc false) = q at *
      simp only [DemoQt.St.act, hd, hst, St.told, Bool.false_eq_true, if_false, hi, sent1, List.length_cons, List.length_nil]
      simp
    refine ⟨⟨trivial, hf1, trivial⟩, ?_, ?_, hst, ?_⟩
    · show ((start.act (.focalloc false)).act (.change .focallength_y_px k)).focalloc.value = false
      rw [h2, (updatePlot_frame _).1]; exact h1.2
    · show (((start.act (.focalloc false)).act (.change .focallength_y_px k)).num .focallength_y_px).sent.head? = some (k : ℝ)
      rw [h2, ((updatePlot_frame _).2.2.2.2.1 _).1]; simp
    · show ((start.act (.focalloc false)).act (.change .focallength_y_px k)).val .focallength_x_px ≠ k
      unfold St.val
      rw [h2, (updatePlot_frame _).2.2.2.1 _ nfx]
      simp only [ne_eq, reduceCtorEq, not_false_eq_true, Function.update_of_ne]
      rw [show ((start.act (.focalloc false)).num .focallength_x_px).value = 3860 from x1]
      exact Ne.symm hkR

/-- The hypothesis of the first theorem can be met by a history that uses all the inputs. -/
example : AllFresh start [.focalloc false, .center_image false, .change .image_width_px 100, .select_transformation .cylindrical,
    .drag .heading_deg [1, 2, 3]] := by
  simp [AllFresh, Fresh, Dependent]

namespace DemoQt

theorem update_disabled (s : St) (x : Slider) (hx : ¬ Dependent x) : s.updatePlot.disabled x = s.disabled x := by
  have h1 : x ≠ .focallength_y_px := fun e => hx (Or.inl e)
  have h2 : x ≠ .center_x_px := fun e => hx (Or.inr (Or.inl e))
  have h3 : x ≠ .center_y_px := fun e => hx (Or.inr (Or.inr e))
  unfold St.updatePlot
  cases hf : s.focalloc.value <;> cases hc : s.center_image.value <;> simp [St.setValue, Function.update, h1, h2, h3, hc]

theorem told_disabled {V : Type} (s : St) (a b : QInput.St V) (x : Slider) (hx : ¬ Dependent x) : (s.told a b).disabled x = s.disabled x := by
  unfold St.told
  split_ifs
  · rfl
  · exact update_disabled s x hx

theorem act_disabled (s : St) (a : Act) (x : Slider) (hx : ¬ Dependent x) : (s.act a).disabled x = s.disabled x := by
  cases a <;> simp only [St.act] <;> (try split_ifs) <;> first | rfl | exact told_disabled _ _ _ x hx

end DemoQt

open DemoQt in
/-- **C142** The inputs that do not follow from others are never disabled, whatever the user did. -/
theorem C142_enabled (as : List DemoQt.Act) (x : DemoQt.Slider) (hx : x ≠ .focallength_y_px ∧ x ≠ .center_x_px ∧ x ≠ .center_y_px) :
    (DemoQt.after as).disabled x = false := by
  have hd : ¬ Dependent x := by rintro (e | e | e); exacts [hx.1 e, hx.2.1 e, hx.2.2 e]
  have key : ∀ (as : List DemoQt.Act) (s : DemoQt.St), s.disabled x = false → (as.foldl St.act s).disabled x = false := by
    intro as
    induction as with
    | nil => exact fun s h => h
    | cons a as ih => exact fun s h => ih _ ((act_disabled s a x hd).trans h)
  exact key as _ (update_disabled _ x hd)
