import Verif.Spec.Demo
import Verif.Props.Spatial
import Mathlib.Tactic.Linarith

/-! # C140: the demonstration shows the camera of its sliders -/

namespace Demo

open Camera

/-- The cameras keep their classes. -/
structure Good (s : St) : Prop where
  k1 : s.cam1.kind = .rectilinear
  l1 : s.cam1.lens = noDistortion
  o1 : ∃ p, s.cam1.orient = .thr p
  k2 : s.cam2.kind = .rectilinear
  l2 : s.cam2.lens = noDistortion
  o2 : ∃ p, s.cam2.orient = .ypr p

/-- The sliders of exactly the current convention are visible, and what is drawn is their camera. -/
structure Shown (s : St) : Prop where
  good : Good s
  vis : s.visible = show_ s.cam (fun _ => true)
  drawn : s.drawn = Spec.camera s.val s.cam

theorem show_show (l k : Label) : show_ l (show_ k (fun _ => true)) = show_ l (fun _ => true) := by
  funext x; cases x <;> rfl

theorem setattr_kind (c : Cam) (x : Slider) (v : ℝ) :
    (setattr c x v).kind = c.kind ∧ (setattr c x v).lens = c.lens ∧
    ((∃ p, c.orient = .thr p) → ∃ p, (setattr c x v).orient = .thr p) ∧
    ((∃ p, c.orient = .ypr p) → ∃ p, (setattr c x v).orient = .ypr p) := by
  obtain ⟨k, i, o, l⟩ := c
  cases x <;> cases o <;> simp [setattr]

theorem foldl_kind (v : Slider → ℝ) (xs : List Slider) (c : Cam) :
    let d := xs.foldl (fun c x => setattr c x (v x)) c
    d.kind = c.kind ∧ d.lens = c.lens ∧
    ((∃ p, c.orient = .thr p) → ∃ p, d.orient = .thr p) ∧ ((∃ p, c.orient = .ypr p) → ∃ p, d.orient = .ypr p) := by
  induction xs generalizing c with
  | nil => exact ⟨rfl, rfl, id, id⟩
  | cons x xs ih =>
    obtain ⟨a1, a2, a3, a4⟩ := setattr_kind c x (v x)
    obtain ⟨b1, b2, b3, b4⟩ := ih (setattr c x (v x))
    exact ⟨b1.trans a1, b2.trans a2, b3 ∘ a3, b4 ∘ a4⟩

theorem update_frame (s : St) : s.update.val = s.val ∧ s.update.visible = s.visible ∧ s.update.cam = s.cam := by
  unfold St.update St.write
  cases s.cam <;> exact ⟨rfl, rfl, rfl⟩

theorem good_update {s : St} (h : Good s) : Good s.update := by
  obtain ⟨v, vis, c1, c2, l, d⟩ := s
  obtain ⟨a1, a2, a3, a4, a5, a6⟩ := h
  cases l
  · obtain ⟨b1, b2, b3, b4⟩ := foldl_kind v (sliders.filter vis) c1
    exact ⟨b1.trans a1, b2.trans a2, b3 a3, a4, a5, a6⟩
  · obtain ⟨b1, b2, b3, b4⟩ := foldl_kind v (sliders.filter vis) c2
    exact ⟨a1, a2, a3, b1.trans a4, b2.trans a5, b4 a6⟩

theorem shown_update {s : St} (h : Good s) (hv : s.visible = show_ s.cam (fun _ => true)) : Shown s.update := by
  refine ⟨good_update h, ?_, ?_⟩
  · rw [(update_frame s).2.1, (update_frame s).2.2, hv]
  · obtain ⟨v, vis, c1, c2, l, d⟩ := s
    have hv : vis = show_ l (fun _ => true) := hv
    subst hv
    obtain ⟨a1, a2, ⟨p, a3⟩, a4, a5, ⟨q, a6⟩⟩ := h
    obtain ⟨k1, i1, o1, n1⟩ := c1
    obtain ⟨k2, i2, o2, n2⟩ := c2
    simp only at a1 a2 a3 a4 a5 a6
    subst a1 a2 a3 a4 a5 a6
    cases l <;> rfl

theorem shown_set_val {s : St} (h : Shown s) (x : Slider) (v : ℝ) : Shown (s.set_val x v) :=
  shown_update (s := { s with val := Function.update s.val x v }) ⟨h.good.1, h.good.2, h.good.3, h.good.4, h.good.5, h.good.6⟩ h.vis

theorem set_val_frame (s : St) (x : Slider) (v : ℝ) :
    (s.set_val x v).val = Function.update s.val x v ∧ (s.set_val x v).visible = s.visible ∧ (s.set_val x v).cam = s.cam :=
  update_frame { s with val := Function.update s.val x v }

theorem good_set_val {s : St} (h : Good s) (x : Slider) (v : ℝ) : Good (s.set_val x v) :=
  good_update (s := { s with val := Function.update s.val x v }) ⟨h.1, h.2, h.3, h.4, h.5, h.6⟩

/-- The values after a radio button. -/
noncomputable def converted (v : Slider → ℝ) : Label → Slider → ℝ
  | .tiltHeadingRoll, .heading_deg => v .yaw_deg
  | .tiltHeadingRoll, .tilt_deg => v .pitch_deg + 90
  | .tiltHeadingRoll, .roll_deg => -v .roll_deg_ypr
  | .yawPitchRoll, .yaw_deg => v .heading_deg
  | .yawPitchRoll, .pitch_deg => v .tilt_deg - 90
  | .yawPitchRoll, .roll_deg_ypr => -v .roll_deg
  | _, x => v x

theorem change_frame (s : St) (l : Label) :
    (s.change_spatial l).val = converted s.val l ∧ (s.change_spatial l).visible = show_ l s.visible ∧ (s.change_spatial l).cam = l := by
  cases l <;>
  · simp only [St.change_spatial, update_frame, set_val_frame]
    refine ⟨?_, trivial, trivial⟩
    funext x
    cases x <;> simp [converted, Function.update]

theorem good_change {s : St} (h : Good s) (l : Label) : Good (s.change_spatial l) := by
  cases l
  · have h1 := good_set_val (good_set_val (good_set_val (s := { s with visible := show_ .tiltHeadingRoll s.visible })
      ⟨h.1, h.2, h.3, h.4, h.5, h.6⟩ .heading_deg (s.val .yaw_deg)) .tilt_deg
        (({ s with visible := show_ .tiltHeadingRoll s.visible }.set_val .heading_deg (s.val .yaw_deg)).val .pitch_deg + 90)) .roll_deg
        (-(({ s with visible := show_ .tiltHeadingRoll s.visible }.set_val .heading_deg (s.val .yaw_deg)).set_val .tilt_deg
          (({ s with visible := show_ .tiltHeadingRoll s.visible }.set_val .heading_deg (s.val .yaw_deg)).val .pitch_deg + 90)).val .roll_deg_ypr)
    exact good_update ⟨h1.1, h1.2, h1.3, h1.4, h1.5, h1.6⟩
  · have h1 := good_set_val (good_set_val (good_set_val (s := { s with visible := show_ .yawPitchRoll s.visible })
      ⟨h.1, h.2, h.3, h.4, h.5, h.6⟩ .yaw_deg (s.val .heading_deg)) .pitch_deg
        (({ s with visible := show_ .yawPitchRoll s.visible }.set_val .yaw_deg (s.val .heading_deg)).val .tilt_deg - 90)) .roll_deg_ypr
        (-(({ s with visible := show_ .yawPitchRoll s.visible }.set_val .yaw_deg (s.val .heading_deg)).set_val .pitch_deg
          (({ s with visible := show_ .yawPitchRoll s.visible }.set_val .yaw_deg (s.val .heading_deg)).val .tilt_deg - 90)).val .roll_deg)
    exact good_update ⟨h1.1, h1.2, h1.3, h1.4, h1.5, h1.6⟩

theorem shown_change {s : St} (h : Good s) (hv : show_ (l : Label) s.visible = show_ l (fun _ => true)) : Shown (s.change_spatial l) := by
  have hg := good_change h l
  have hf := change_frame s l
  refine ⟨hg, by rw [hf.2.1, hf.2.2, hv], ?_⟩
  -- the last step of `change_spatial` is an `update` of a state in which the buttons and the camera agree
  cases l
  · let s1 : St := { s with visible := show_ .tiltHeadingRoll s.visible }
    let s2 := s1.set_val .heading_deg (s1.val .yaw_deg)
    let s3 := s2.set_val .tilt_deg (s2.val .pitch_deg + 90)
    let s4 := s3.set_val .roll_deg (-s3.val .roll_deg_ypr)
    have g4 : Good s4 := good_set_val (good_set_val (good_set_val (s := s1) ⟨h.1, h.2, h.3, h.4, h.5, h.6⟩ _ _) _ _) _ _
    have v4 : s4.visible = show_ .tiltHeadingRoll (fun _ => true) := by
      rw [(set_val_frame s3 _ _).2.1, (set_val_frame s2 _ _).2.1, (set_val_frame s1 _ _).2.1, ← hv]
    exact (shown_update (s := { s4 with cam := .tiltHeadingRoll }) ⟨g4.1, g4.2, g4.3, g4.4, g4.5, g4.6⟩ v4).drawn.trans
      (congrArg₂ Spec.camera rfl hf.2.2)
  · let s1 : St := { s with visible := show_ .yawPitchRoll s.visible }
    let s2 := s1.set_val .yaw_deg (s1.val .heading_deg)
    let s3 := s2.set_val .pitch_deg (s2.val .tilt_deg - 90)
    let s4 := s3.set_val .roll_deg_ypr (-s3.val .roll_deg)
    have g4 : Good s4 := good_set_val (good_set_val (good_set_val (s := s1) ⟨h.1, h.2, h.3, h.4, h.5, h.6⟩ _ _) _ _) _ _
    have v4 : s4.visible = show_ .yawPitchRoll (fun _ => true) := by
      rw [(set_val_frame s3 _ _).2.1, (set_val_frame s2 _ _).2.1, (set_val_frame s1 _ _).2.1, ← hv]
    exact (shown_update (s := { s4 with cam := .yawPitchRoll }) ⟨g4.1, g4.2, g4.3, g4.4, g4.5, g4.6⟩ v4).drawn.trans
      (congrArg₂ Spec.camera rfl hf.2.2)

open Classical in
theorem reset_fold (xs : List Slider) (s : St) :
    (Shown s → Shown (xs.foldl (fun s x => if s.val x = valinit x then s else s.set_val x (valinit x)) s)) ∧
    (xs.foldl (fun s x => if s.val x = valinit x then s else s.set_val x (valinit x)) s).cam = s.cam ∧
    ∀ y, (xs.foldl (fun s x => if s.val x = valinit x then s else s.set_val x (valinit x)) s).val y =
      if y ∈ xs then valinit y else s.val y := by
  induction xs generalizing s with
  | nil => exact ⟨id, rfl, fun y => by simp⟩
  | cons x xs ih =>
    simp only [List.foldl_cons]
    obtain ⟨i1, i2, i3⟩ := ih (if s.val x = valinit x then s else s.set_val x (valinit x))
    refine ⟨fun h => i1 ?_, i2.trans ?_, fun y => (i3 y).trans ?_⟩
    · split_ifs
      · exact h
      · exact shown_set_val h _ _
    · split_ifs
      · rfl
      · exact (set_val_frame s _ _).2.2
    · by_cases hy : y ∈ xs
      · simp [hy]
      · by_cases hx : y = x
        · subst hx
          simp only [hy, if_false, List.mem_cons, true_or, if_true]
          split_ifs with e
          · exact e
          · rw [(set_val_frame s _ _).1]; simp
        · simp only [hy, if_false, List.mem_cons, hx, false_or]
          split_ifs with e
          · rfl
          · rw [(set_val_frame s _ _).1, Function.update_of_ne hx]

theorem mem_sliders (x : Slider) : x ∈ sliders := by cases x <;> simp [sliders]

theorem reset_val (s : St) : s.reset.val = valinit ∧ s.reset.cam = s.cam := by
  refine ⟨?_, (reset_fold sliders s).2.1⟩
  funext y
  exact ((reset_fold sliders s).2.2 y).trans (if_pos (mem_sliders y))

theorem good_start (p : Spatial.Params) (q : Spatial.ParamsYPR) : Good (St.start p q) :=
  ⟨rfl, rfl, ⟨p, rfl⟩, rfl, rfl, ⟨q, rfl⟩⟩

theorem shown_act {s : St} (h : Shown s) (a : Act) : Shown (s.act a) := by
  cases a with
  | drag x v => exact shown_set_val h x v
  | radio l => exact shown_change h.good (by rw [h.vis, show_show])
  | reset => exact (reset_fold sliders s).1 h

theorem shown_foldl {s : St} (h : Shown s) (as : List Act) : Shown (as.foldl St.act s) := by
  induction as generalizing s with
  | nil => exact h
  | cons a as ih => exact ih (shown_act h a)

theorem shown_after (p : Spatial.Params) (q : Spatial.ParamsYPR) (as : List Act) : Shown (after p q as) :=
  shown_foldl (shown_change (good_start p q) rfl) as

theorem sameView_of {c d : Cam} (hk : c.kind = d.kind) (hi : c.intr = d.intr) (hl : c.lens = d.lens) (ho : c.orient.mat = d.orient.mat) :
    Spec.SameView c d := by
  refine ⟨fun p hide => ?_, fun p n => ?_, hi⟩
  · unfold imageFromSpace; rw [hk, hi, hl, ho]
  · unfold Camera.getRay; rw [hk, hi, hl, ho]

/-- The same angles in the other convention. -/
theorem camera_converted (v : Slider → ℝ) (l k : Label) (h : l ≠ k) :
    Spec.SameView (Spec.camera (converted v k) k) (Spec.camera v l) := by
  refine sameView_of rfl ?_ rfl ?_
  · cases k <;> rfl
  · cases k <;> cases l <;> first | exact absurd rfl h | skip
    · simp only [Spec.camera, converted, Orient.mat]
      rw [C13_yaw_pitch_roll]
      simp only [add_comm]
    · simp only [Spec.camera, converted, Orient.mat]
      rw [C13_yaw_pitch_roll]
      simp

/-- The ray of the middle of the image goes ahead. -/
theorem axis_ray (v : Slider → ℝ) (hf : v .focallength_px ≠ 0) :
    (Camera.getRay (Spec.camera v .tiltHeadingRoll) ⟨.fin (v .image_width_px / 2), .fin (v .image_height_px / 2)⟩ false).2.Is
      ⟨Real.sin (Spatial.rad (v .tilt_deg)) * Real.sin (Spatial.rad (v .heading_deg)),
        Real.sin (Spatial.rad (v .tilt_deg)) * Real.cos (Spatial.rad (v .heading_deg)), -Real.cos (Spatial.rad (v .tilt_deg))⟩ := by
  have hr := Projection.getRay_is .rectilinear (I := (Spec.camera v .tiltHeadingRoll).intr) hf hf
    (pn := ⟨.fin (v .image_width_px / 2), .fin (v .image_height_px / 2)⟩) (p := ⟨v .image_width_px / 2, v .image_height_px / 2⟩) ⟨rfl, rfl⟩
  have := C86_meaning_of_the_angles ⟨v .elevation_m, v .tilt_deg, v .roll_deg, v .heading_deg, v .pos_x_m, v .pos_y_m⟩ _ _ hr
  refine V3.Is.congr this ?_
  ext <;> simp [Projection.rayR, Spec.camera]

end Demo

open Demo

/-- **C140** Whatever the user did: the sliders of the angles of exactly one convention are visible, the one whose radio button was
clicked last, and the scene is drawn with the camera the visible sliders describe. -/
theorem C140_sliders (p : Spatial.Params) (q : Spatial.ParamsYPR) (as : List Act) :
    let s := after p q as
    s.drawn = Spec.camera s.val s.cam ∧
    (∀ x, s.visible x = true ↔ (x ∈ [.heading_deg, .tilt_deg, .roll_deg] → s.cam = .tiltHeadingRoll) ∧
      (x ∈ [.yaw_deg, .pitch_deg, .roll_deg_ypr] → s.cam = .yawPitchRoll)) ∧
    (∀ a, (s.act a).cam = match a with
      | .radio l => l
      | _ => s.cam) ∧
    (∀ x v, (s.act (.drag x v)).val x = v ∧ ∀ y, y ≠ x → (s.act (.drag x v)).val y = s.val y) := by
  intro s
  have h := shown_after p q as
  refine ⟨h.drawn, fun x => ?_, fun a => ?_, fun x v => ?_⟩
  · change (after p q as).visible x = true ↔ _
    rw [h.vis]
    cases x <;> simp [show_, s]
  · cases a with
    | drag x v => exact (set_val_frame s x v).2.2
    | radio l => exact (change_frame s l).2.2
    | reset => exact (reset_val s).2
  · have := (set_val_frame s x v).1
    refine ⟨?_, fun y hy => ?_⟩
    · show (s.set_val x v).val x = v
      rw [this]; simp
    · show (s.set_val x v).val y = s.val y
      rw [this, Function.update_of_ne hy]

/-- **C140** The radio button of the other convention does not change the picture; clicking there and back restores all visible
sliders. -/
theorem C140_switch_partial (p : Spatial.Params) (q : Spatial.ParamsYPR) (as : List Act) (l : Label) :
    let s := after p q as
    l ≠ s.cam → Spec.SameView (s.act (.radio l)).drawn s.drawn ∧
      ∀ x, s.visible x = true → ((s.act (.radio l)).act (.radio s.cam)).val x = s.val x := by
  intro s hl
  have h : Shown s := shown_after p q as
  have h2 : Shown (s.act (.radio l)) := shown_act h _
  constructor
  · rw [h2.drawn, h.drawn]
    show Spec.SameView (Spec.camera (s.change_spatial l).val (s.change_spatial l).cam) _
    rw [(change_frame s l).1, (change_frame s l).2.2]
    exact camera_converted s.val s.cam l (Ne.symm hl)
  · intro x hx
    show ((s.change_spatial l).change_spatial s.cam).val x = s.val x
    rw [(change_frame _ _).1, (change_frame _ _).1]
    rw [h.vis] at hx
    generalize s.cam = k at *
    cases k <;> cases l <;> first | exact absurd rfl hl | skip
    all_goals cases x <;> first | rfl | (simp [show_] at hx; done) | simp [converted]

/-- **C140** Reset shows the camera of the beginning, in either convention. -/
theorem C140_reset (p : Spatial.Params) (q : Spatial.ParamsYPR) (as : List Act) :
    Spec.SameView ((after p q as).act .reset).drawn (after p q []).drawn ∧
    ((after p q as).act .reset).val = (after p q []).val := by
  have h := shown_after p q as
  have h0 := shown_after p q []
  have e0 : (after p q []).val = valinit ∧ (after p q []).cam = .tiltHeadingRoll := by
    refine ⟨?_, (change_frame (St.start p q) .tiltHeadingRoll).2.2⟩
    refine (change_frame (St.start p q) .tiltHeadingRoll).1.trans ?_
    funext x
    cases x <;> simp [converted, St.start, valinit]
    norm_num
  have e1 := reset_val (after p q as)
  refine ⟨?_, e1.1.trans e0.1.symm⟩
  rw [(shown_act h .reset).drawn, h0.drawn, e0.1, e0.2]
  show Spec.SameView (Spec.camera (after p q as).reset.val (after p q as).reset.cam) _
  rw [e1.1, e1.2]
  cases (after p q as).cam
  · exact sameView_of rfl rfl rfl rfl
  · have := camera_converted valinit .tiltHeadingRoll .yawPitchRoll (by decide)
    have e : converted valinit .yawPitchRoll = valinit := by
      funext x
      cases x <;> simp [converted, valinit]
      norm_num
    rwa [e] at this

/-- The radio button of the convention that is already chosen is not without effect: it replaces the visible angles by those that the
hidden sliders had, in the other convention.  So after any history that ends with moving the heading slider by the user, a click on the
active button moves the camera back to where the hidden sliders have it, and some such click changes the picture. -/
theorem C140_again_violated :
    (∀ p q as, let s := after p q as
      (s.act (.radio s.cam)).drawn = Spec.camera (s.act (.radio s.cam)).val s.cam ∧
      (s.cam = .tiltHeadingRoll → (s.act (.radio s.cam)).val .heading_deg = s.val .yaw_deg ∧
        (s.act (.radio s.cam)).val .tilt_deg = s.val .pitch_deg + 90 ∧ (s.act (.radio s.cam)).val .roll_deg = -s.val .roll_deg_ypr) ∧
      (s.cam = .yawPitchRoll → (s.act (.radio s.cam)).val .yaw_deg = s.val .heading_deg ∧
        (s.act (.radio s.cam)).val .pitch_deg = s.val .tilt_deg - 90 ∧ (s.act (.radio s.cam)).val .roll_deg_ypr = -s.val .roll_deg)) ∧
    (∀ p q v, v ≠ 0 → -180 ≤ v → v ≤ 180 → let s := after p q [.drag .heading_deg v]
      s.val .heading_deg = v ∧ (s.act (.radio s.cam)).val .heading_deg = 0 ∧
      ¬ Spec.SameView (s.act (.radio s.cam)).drawn s.drawn) := by
  refine ⟨fun p q as => ?_, fun p q v h0 h1 h2 => ?_⟩
  · intro s
    have h : Shown s := shown_after p q as
    have h2 := (shown_act h (.radio s.cam)).drawn
    have e := change_frame s s.cam
    refine ⟨h2.trans (congrArg _ e.2.2), fun hc => ?_, fun hc => ?_⟩
    all_goals
      have e1 : (s.act (.radio s.cam)).val = converted s.val s.cam := e.1
      rw [e1, hc]
      exact ⟨rfl, rfl, rfl⟩
  · intro s
    have h : Shown s := shown_after p q _
    have e0 : s.cam = .tiltHeadingRoll ∧ s.val = Function.update (after p q []).val .heading_deg v :=
      ⟨(set_val_frame (after p q []) _ _).2.2.trans (change_frame (St.start p q) .tiltHeadingRoll).2.2, (set_val_frame (after p q []) _ _).1⟩
    have ea : (after p q []).val = converted valinit .tiltHeadingRoll := (change_frame (St.start p q) .tiltHeadingRoll).1
    have e1 : (s.act (.radio s.cam)).val = converted s.val s.cam := (change_frame s s.cam).1
    have eh : s.val .heading_deg = v := by rw [e0.2]; simp
    have eh' : (s.act (.radio s.cam)).val .heading_deg = 0 := by
      rw [e1, e0.1, e0.2, ea]; simp [converted, valinit, Function.update]
    refine ⟨eh, eh', fun hsame => ?_⟩
    have hd := (shown_act h (.radio s.cam)).drawn
    have hc : (s.act (.radio s.cam)).cam = .tiltHeadingRoll := (change_frame s s.cam).2.2.trans e0.1
    have f1 : s.val .focallength_px = 3860 ∧ s.val .image_width_px = 4608 ∧ s.val .image_height_px = 2592 ∧ s.val .tilt_deg = 30 := by
      rw [e0.2, ea]
      simp only [converted, valinit, Function.update]
      simp
      norm_num
    have f2 : (s.act (.radio s.cam)).val .focallength_px = 3860 ∧ (s.act (.radio s.cam)).val .image_width_px = 4608 ∧
        (s.act (.radio s.cam)).val .image_height_px = 2592 ∧ (s.act (.radio s.cam)).val .tilt_deg = 30 := by
      rw [e1, e0.1, e0.2, ea]
      simp only [converted, valinit, Function.update]
      simp
      norm_num
    have r1 := axis_ray s.val (by rw [f1.1]; norm_num)
    have r2 := axis_ray (s.act (.radio s.cam)).val (by rw [f2.1]; norm_num)
    rw [f1.2.1, f1.2.2.1, f1.2.2.2, eh, ← e0.1, ← h.drawn] at r1
    rw [f2.2.1, f2.2.2.1, f2.2.2.2, eh', ← hc, ← hd, hsame.2.1] at r2
    have hy := congrArg V3.y (V3.Is.unique r1 r2)
    simp only at hy
    have hs : Real.sin (Spatial.rad 30) ≠ 0 := by
      have : Spatial.rad 30 = Real.pi / 6 := by unfold Spatial.rad; ring
      rw [this, Real.sin_pi_div_six]; norm_num
    have hcos : Real.cos (Spatial.rad v) = 1 := by
      have e00 : Spatial.rad 0 = 0 := by unfold Spatial.rad; ring
      rw [e00, Real.cos_zero] at hy
      exact mul_left_cancel₀ hs hy
    have hpi := Real.pi_pos
    have hv : Spatial.rad v = 0 := by
      refine (Real.cos_eq_one_iff_of_lt_of_lt ?_ ?_).1 hcos <;> unfold Spatial.rad <;> nlinarith
    unfold Spatial.rad at hv
    rcases mul_eq_zero.1 hv with hv | hv
    · exact h0 (by linarith)
    · exact hpi.ne' (by linarith)

/-- The hypotheses can be met: the other convention is chosen after some moves. -/
example (p : Spatial.Params) (q : Spatial.ParamsYPR) :
    (after p q [.drag .heading_deg 20, .radio .yawPitchRoll]).val .yaw_deg = 20 ∧
    Label.tiltHeadingRoll ≠ (after p q [.drag .heading_deg 20, .radio .yawPitchRoll]).cam := by
  have e1 := (C140_sliders p q []).2.2.2 .heading_deg 20
  have e2 := (C140_sliders p q [.drag .heading_deg 20]).2.2.1 (.radio .yawPitchRoll)
  refine ⟨?_, ?_⟩
  · exact (congrFun (change_frame (after p q [.drag .heading_deg 20]) .yawPitchRoll).1 .yaw_deg).trans e1.1
  · exact fun h => by
      have := h.trans e2
      cases this


/-- **C140** At the beginning the scene is seen from 10 m above the ground and 5.5 m in front of the origin, 30 degrees off straight down. -/
theorem C140_start (p : Spatial.Params) (q : Spatial.ParamsYPR) :
    let r := Camera.getRay (after p q []).drawn ⟨.fin (4608 / 2), .fin (2592 / 2)⟩ false
    r.1.Is ⟨0, -5.5, 10⟩ ∧ r.2.Is ⟨0, 1 / 2, -(Real.sqrt 3 / 2)⟩ ∧
      ∀ x y, (Camera.getRay (after p q []).drawn ⟨.fin x, .fin y⟩ false).1.Is ⟨0, -5.5, 10⟩ := by
  have h0 := shown_after p q []
  have e0 : (after p q []).val = valinit ∧ (after p q []).cam = .tiltHeadingRoll := by
    refine ⟨?_, (change_frame (St.start p q) .tiltHeadingRoll).2.2⟩
    refine (change_frame (St.start p q) .tiltHeadingRoll).1.trans ?_
    funext x
    cases x <;> simp [converted, St.start, valinit]
    norm_num
  rw [h0.drawn, e0.1, e0.2]
  have ho : ∀ x y, (Camera.getRay (Demo.Spec.camera valinit .tiltHeadingRoll) ⟨.fin x, .fin y⟩ false).1.Is ⟨0, -5.5, 10⟩ :=
    fun x y => Camera.getRay_offset _ _ _
  refine ⟨ho _ _, ?_, ho⟩
  have := axis_ray valinit (by norm_num [valinit])
  refine V3.Is.congr this ?_
  have h30 : Spatial.rad 30 = Real.pi / 6 := by unfold Spatial.rad; ring
  have h00 : Spatial.rad 0 = 0 := by unfold Spatial.rad; ring
  ext <;> simp [valinit, h30, h00]
