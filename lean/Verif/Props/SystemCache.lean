import Verif.Props.System

/-! # Cached attributes: matrices, lens scale and offset, image size -/

set_option linter.constructorNameAsVariable false

open Classical Sys

/-! ### C51 -/

theorem Sys.wrap360_in {x : ℝ} (h1 : -360 ≤ x) (h2 : x ≤ 360) : Spatial.wrap360 x = x := by
  unfold Spatial.wrap360; rw [if_neg]; rintro (h | h) <;> linarith

theorem Sys.mat_now {s : St} {o : ℕ} {O : OObj} (hf : FreshO s o) (h : s.orients o = some O) :
    O.mat = (orientOf O.kind fun f => s.rd (.o o f)).mat := by
  obtain ⟨h1, h2, h3⟩ := hf O h
  rw [h1]
  unfold St.matOf orientOf
  cases O.kind with
  | thr => simp only [Camera.Orient.mat, Spatial.initCameraMatrix, wrap360_in h2 h3]
  | ypr => simp only [Camera.Orient.mat, Spatial.initCameraMatrixYPR, wrap360_in h2 h3]

/-- **C51** After any history the matrices and the translation of an orientation object are those for the values that
its attributes (and those of every camera that uses it) read as at that time. -/
theorem C51_matrices_up_to_date {s : St} (hr : Reach s) {o : ℕ} {O : OObj} (hO : s.orients o = some O) :
    ∃ v : OField → ℝ, (∀ f, s.getattr (.orient o) (f.name O.kind) = some (some (v f))) ∧
      (∀ c C, s.cams c = some C → C.orient = o → ∀ f, s.getattr (.cam c) (f.name O.kind) = some (some (v f))) ∧
      O.mat = (orientOf O.kind v).mat := by
  refine ⟨fun f => s.rd (.o o f), fun f => ?_, fun c C hC ho f => ?_, mat_now (hr.inv.fresh o) hO⟩
  · rw [getattr_eq (plain_orient _ _), orient_lookup hO, Option.map_some, read_rd hr]
  · subst ho
    rw [getattr_eq (plain_cam _ _), cam_lookup_o hr.dicts hC hO, Option.map_some, read_rd hr]

example : ∃ (s : St) (O : OObj), Reach s ∧ s.orients 0 = some O := by
  obtain ⟨O, hO, -⟩ := Ex.s4_orients
  exact ⟨_, O, Ex.run4.reach, hO⟩

/-! ### C52 -/

theorem Sys.projWidth_plain {s : St} {p : ℕ} {P : PObj} (h : s.projs p = some P) (ha : P.attr = none) : s.projWidth p = s.rd (.p p .iw) := by
  obtain ⟨k, a⟩ := P; simp only at ha; subst ha; simp only [St.projWidth, h]

theorem Sys.projHeight_plain {s : St} {p : ℕ} {P : PObj} (h : s.projs p = some P) (ha : P.attr = none) : s.projHeight p = s.rd (.p p .ih) := by
  obtain ⟨k, a⟩ := P; simp only at ha; subst ha; simp only [St.projHeight, h]

/-- **C52** If no projection is used with two lenses and no lens with two projections, and the projection was not built
from a field of view (C53), then after any history the camera projects and casts rays like a camera freshly computed
from the current parameter values: neither the matrices nor scale, offset, `d` and the inverse of the lens are out of date. -/
theorem C52_up_to_date_partial (spline : LensModel.Spline) {s : St} (hr : ReachX s) {c : ℕ} {C : CObj} (hC : s.cams c = some C)
    (hp : Plain s (.proj C.proj)) :
    ∃ cam, s.camNow spline c = some cam ∧
      (∀ pt hide, s.imageFromSpace spline c pt hide = some (Camera.imageFromSpace cam pt hide)) ∧
      ∀ pt normed, s.getRay spline c pt normed = some (Camera.getRay cam pt normed) := by
  obtain ⟨P, O, L, hP, hO, hL, -⟩ := hr.reach.dicts.cam c C hC
  have hw := projWidth_plain hP (hp _ P rfl hP)
  have hh := projHeight_plain hP (hp _ P rfl hP)
  have hm := mat_now (hr.reach.inv.fresh C.orient) hO
  have hI : s.intrOf C.proj = ⟨s.rd (.p C.proj .fx), s.rd (.p C.proj .fy), s.rd (.p C.proj .cx), s.rd (.p C.proj .cy), s.rd (.p C.proj .iw),
      s.rd (.p C.proj .ih)⟩ := by unfold St.intrOf; rw [hw, hh]
  have hlens : s.lensOf spline C.lens = match L.kind with
      | .none => Camera.noDistortion
      | .brown => (LensModel.brown spline (s.intrOf C.proj) (s.rd (.l C.lens .k1)) (s.rd (.l C.lens .k2)) (s.rd (.l C.lens .k3))).lens
      | .abc => (LensModel.abc spline (s.intrOf C.proj) (s.rd (.l C.lens .k1)) (s.rd (.l C.lens .k2)) (s.rd (.l C.lens .k3))).lens := by
    have hf := hr.invX.fresh C.lens L hL
    have hpr := hr.invX.cam c C L hC hL
    obtain ⟨k, pr, sn⟩ := L
    simp only at hf hpr
    cases k with
    | none => simp only [St.lensOf, hL]
    | brown =>
      have e := hf (by simp)
      rw [hpr (by simp)] at e
      simp only [St.snapOf] at e
      simp only [St.lensOf, hL, LensModel.brown]
      rw [e]
      simp only [St.intrOf]
    | abc =>
      have e := hf (by simp)
      rw [hpr (by simp)] at e
      simp only [St.snapOf] at e
      simp only [St.lensOf, hL, LensModel.abc]
      rw [e]
      simp only [St.intrOf]
      rfl
  refine ⟨_, by simp only [St.camNow, hC, hP, hO, hL]; rfl, ?_, ?_⟩
  · intro pt hide
    simp only [St.imageFromSpace, hC, hP, hO, Camera.imageFromSpace]
    rw [hm, hlens, hI]
    rfl
  · intro pt normed
    simp only [St.getRay, hC, hP, hO, Camera.getRay]
    rw [hm, hlens, hI]
    rfl

example : ∃ (s : St) (C : CObj), ReachX s ∧ s.cams 0 = some C ∧ Plain s (.proj C.proj) := by
  obtain ⟨C, hC, hp, -, -⟩ := Ex.s4_cams
  refine ⟨_, C, Ex.reachX4, hC, ?_⟩
  intro p P e hP
  cases e
  rw [hp, Ex.s4_projs] at hP
  cases hP; rfl

/-- **C52** is violated if two cameras with different lenses share a projection (as in a `CameraGroup` with one
projection): once the second camera exists, the lens of the first keeps its scale whatever focal length is assigned. -/
theorem C52_violated_shared_projection (spline : LensModel.Spline) {s : St} (hr : Reach s) {c : ℕ} {C : CObj} (hC : s.cams c = some C)
    {c' o l : ℕ} (hne : c' ≠ c) (hl : l ≠ C.lens) {L L' : LObj} (hL : s.lenses C.lens = some L) (_hk : L.kind = .brown)
    (hL' : s.lenses l = some L') (hk' : L'.kind ≠ .none) (hok : s.ok (.newCam c' C.proj o l)) {x : ℝ} (hx : x ≠ L.snap.scale.x) (b : Bool) :
    let s' := (s.step (.newCam c' C.proj o l)).step (.set (.cam c) "focallength_x_px" (some x) b)
    Reach s' ∧ s'.getattr (.cam c) "focallength_x_px" = some (some x) ∧ s'.lenses C.lens = some L ∧ L.snap.scale.x ≠ x ∧
      (s'.lensOf spline C.lens) = s.lensOf spline C.lens := by
  intro s'
  set s1 := s.step (.newCam c' C.proj o l) with hs1
  have hr1 : Reach s1 := .step hr hok
  have hok2 : s1.ok (.set (.cam c) "focallength_x_px" (some x) b) := Or.inl (by simp)
  have hpr : Pres s1 s' := step_pres hr1.struct hok2 trivial
  have hC1 : s1.cams c = some C := by
    have : s1.cams = (s.newCam c' C.proj o l).cams := rfl
    rw [this, newCam_eq]
    simp only [camTail, Function.update_apply, if_neg hne.symm, setProjection_cams, hC]
  have hlc : (s1.dict (.cam c)).lookup "focallength_x_px" = some (.p C.proj .fx) := cam_lookup_p hr1.dicts hC1 .fx
  have hcb : (s1.par (.p C.proj .fx)).callback = some (.lens l) := by
    have : s1.par (.p C.proj .fx) = (s.setProjection l C.proj).par (.p C.proj .fx) := rfl
    rw [this, setProjection_eq hL' hk', runLens_par, preBind_par hk', if_pos (Or.inr ⟨.fx, by simp [PField.lens], rfl⟩)]
  have hL1 : s1.lenses C.lens = some L := by
    have : s1.lenses C.lens = (s.setProjection l C.proj).lenses C.lens := rfl
    rw [this, setProjection_eq hL' hk', runLens_lenses_ne _ hl.symm, preBind_lenses, Function.update_apply, if_neg hl.symm, hL]
  have hL2 : s'.lenses C.lens = some L := by
    show (s1.step (.set (.cam c) "focallength_x_px" (some x) b)).lenses C.lens = some L
    simp only [St.step, hlc, St.assign, mod_par, if_true, hcb, St.runOpt, St.run]
    rw [runLens_lenses_ne _ hl.symm]
    exact hL1
  refine ⟨.step hr1 hok2, ?_, hL2, hx.symm, ?_⟩
  · rw [getattr_eq (plain_cam _ _), hpr.dict, hlc, Option.map_some, read_val (set_read hr1 hlc x b).1, norm360_not not_turn_p]
  · have hk3 : ∀ f, s'.rd (.l C.lens f) = s.rd (.l C.lens f) := by
      intro f
      have e1 : s'.par (.l C.lens f) = s1.par (.l C.lens f) := set_other hr1 hlc _ b (by simp) (by intro p g _ e; simp at e)
      have hf := setProjection_fields s l C.proj (.l C.lens f)
      have e2 : s1.par (.l C.lens f) = (s.setProjection l C.proj).par (.l C.lens f) := rfl
      unfold St.rd
      rw [e1, e2]
      unfold Param.read
      rw [hf.1, hf.2.1]
    simp only [St.lensOf, hL2, hL, hk3]

example : ∃ (s : St) (C : CObj) (L L' : LObj), Reach s ∧ s.cams 0 = some C ∧ 1 ≠ C.lens ∧ s.lenses C.lens = some L ∧ L.kind = .brown ∧
    s.lenses 1 = some L' ∧ L'.kind ≠ .none ∧ s.ok (.newCam 1 C.proj 0 1) := by
  obtain ⟨C, hC, hp, ho, hl⟩ := Ex.s4_cams
  obtain ⟨L, hL, hk, -⟩ := Ex.s4_lens
  obtain ⟨O, hO, -⟩ := Ex.s4_orients
  obtain ⟨L2, h1, h2, -⟩ := Ex.keep46.lenses 0 L hL
  obtain ⟨O', h3, -⟩ := Ex.keep46.orients 0 O hO
  obtain ⟨L1, h4, h5⟩ := Ex.s6_lens1
  refine ⟨_, C, L2, L1, Ex.reachX6.reach, by rw [Ex.s6_cams]; exact hC, by rw [hl]; simp, by rw [hl]; exact h1, by rw [h2, hk], h4,
    by rw [h5]; simp, ?_, ?_, ?_⟩
  · rw [hp, Ex.keep46.projs 0 _ Ex.s4_projs]; simp
  · rw [h3]; simp
  · rw [h4]; simp

/-- **C52** is violated if two cameras with different projections share a lens: the lens then has the scale and offset
of the second camera, also for the first. -/
theorem C52_violated_shared_lens {s : St} (hr : Reach s) {c : ℕ} {C : CObj} (hC : s.cams c = some C)
    {c' p o : ℕ} (hne : c' ≠ c) (hp : s.rd (.p p .fx) ≠ s.rd (.p C.proj .fx)) {L : LObj} (hL : s.lenses C.lens = some L) (hk : L.kind = .brown)
    (hok : s.ok (.newCam c' p o C.lens)) :
    let s' := s.step (.newCam c' p o C.lens)
    Reach s' ∧ s'.getattr (.cam c) "focallength_x_px" = s.getattr (.cam c) "focallength_x_px" ∧
      s.getattr (.cam c) "focallength_x_px" = some (some (s.rd (.p C.proj .fx))) ∧
      ∃ L', s'.lenses C.lens = some L' ∧ L'.snap.scale = ⟨s.rd (.p p .fx), s.rd (.p p .fy)⟩ ∧
        L'.snap.offset = ⟨s.rd (.p p .cx), s.rd (.p p .cy)⟩ ∧ s'.getattr (.cam c) "focallength_x_px" ≠ some (some L'.snap.scale.x) := by
  intro s'
  have hr' : Reach s' := .step hr hok
  have hC' : s'.cams c = some C := by
    have : s'.cams = (s.newCam c' p o C.lens).cams := rfl
    rw [this, newCam_eq]
    simp only [camTail, Function.update_apply, if_neg hne.symm, setProjection_cams, hC]
  have hlc : (s.dict (.cam c)).lookup "focallength_x_px" = some (.p C.proj .fx) := cam_lookup_p hr.dicts hC .fx
  have hlc' : (s'.dict (.cam c)).lookup "focallength_x_px" = some (.p C.proj .fx) := cam_lookup_p hr'.dicts hC' .fx
  have hrd : ∀ q f, (s'.par (.p q f)).read = (s.par (.p q f)).read := by
    intro q f
    have e2 : s'.par (.p q f) = (s.setProjection C.lens p).par (.p q f) := rfl
    have hf := setProjection_fields s C.lens p (.p q f)
    rw [e2]; unfold Param.read; rw [hf.1, hf.2.1]
  have g1 : s'.getattr (.cam c) "focallength_x_px" = s.getattr (.cam c) "focallength_x_px" := by
    rw [getattr_eq (plain_cam _ _), getattr_eq (plain_cam _ _), hlc, hlc', Option.map_some, Option.map_some, hrd]
  have g2 : s.getattr (.cam c) "focallength_x_px" = some (some (s.rd (.p C.proj .fx))) := by
    rw [getattr_eq (plain_cam _ _), hlc, Option.map_some, read_rd hr]
  refine ⟨hr', g1, g2, ?_⟩
  · obtain ⟨L', h1, h2, h3⟩ := setProjection_lens (p := p) hL
    have hk0 : L.kind ≠ .none := by rw [hk]; simp
    have hf : FreshL (s.setProjection C.lens p) C.lens := by
      rw [setProjection_eq hL hk0]; exact freshL_runLens _ _
    have e := hf L' h1 (by rw [h2]; exact hk0)
    have hrd' : ∀ f, (s.setProjection C.lens p).rd (.p p f) = s.rd (.p p f) := by
      intro f
      have := hrd p f
      unfold St.rd
      rw [← this]; rfl
    rw [h3 hk0, h2, hk] at e
    simp only [St.snapOf, hrd'] at e
    refine ⟨L', h1, by rw [e], by rw [e], ?_⟩
    rw [g1, g2, e]
    simpa using hp.symm

example : ∃ (s : St) (C : CObj) (L : LObj), Reach s ∧ s.cams 0 = some C ∧ s.rd (.p 1 .fx) ≠ s.rd (.p C.proj .fx) ∧
    s.lenses C.lens = some L ∧ L.kind = .brown ∧ s.ok (.newCam 1 1 0 C.lens) := by
  obtain ⟨C, hC, hp, ho, hl⟩ := Ex.s4_cams
  obtain ⟨L, hL, hk, -⟩ := Ex.s4_lens
  obtain ⟨O, hO, -⟩ := Ex.s4_orients
  obtain ⟨L', h1, h2, -⟩ := Ex.keep46.lenses 0 L hL
  obtain ⟨O', h3, -⟩ := Ex.keep46.orients 0 O hO
  refine ⟨_, C, L', Ex.reachX6.reach, by rw [Ex.s6_cams]; exact hC, by rw [hp, Ex.s6_fx1, Ex.s6_fx0]; norm_num,
    by rw [hl]; exact h1, by rw [h2, hk], ?_, ?_, ?_⟩
  · rw [Ex.s6_projs1]; simp
  · rw [h3]; simp
  · rw [hl, h1]; simp

/-! ### C53 -/

/-- **C53** A projection that was not built from a field of view reads its image size as last assigned. -/
theorem C53_image_size_partial {s : St} {L : Log} (h : Run s L) {p : ℕ} {P : PObj} (hP : s.projs p = some P) (ha : P.attr = none) :
    s.getattr (.proj p) "image_width_px" = some (L.val (.p p .iw)) ∧ s.getattr (.proj p) "image_height_px" = some (L.val (.p p .ih)) := by
  have hp : Plain s (.proj p) := by intro p' P' e hP'; cases e; rw [hP] at hP'; cases hP'; exact ha
  have hPn : s.projs p ≠ none := by rw [hP]; simp
  have hw : ∀ g, g = PField.iw ∨ g = .ih → ∀ p' g', IsF g' → Pid.p p g ≠ .p p' g' := by
    rintro g (rfl | rfl) p' g' (rfl | rfl) e <;> cases e
  constructor
  · rw [getattr_eq hp, show "image_width_px" = PField.name .iw from rfl, proj_lookup hP, Option.map_some, read_value h.reach hPn rfl,
      h.agree.plain' not_turn_p (hw _ (Or.inl rfl))]
  · rw [getattr_eq hp, show "image_height_px" = PField.name .ih from rfl, proj_lookup hP, Option.map_some, read_value h.reach hPn rfl,
      h.agree.plain' not_turn_p (hw _ (Or.inr rfl))]

example : ∃ (s : St) (L : Log) (P : PObj), Run s L ∧ s.projs 0 = some P ∧ P.attr = none := ⟨_, _, _, Ex.run4, Ex.s4_projs, rfl⟩

/-- **C53** is violated by every projection built from a field of view (projection.py:146-147): after any later history its
image size reads as it was constructed, while a camera with this projection reads what was assigned. -/
theorem C53_violated {s : St} (hr : Reach s) {p : ℕ} {k : Projection.Kind} {w h : ℝ} (hP : s.projs p = some ⟨k, some (w, h)⟩)
    (x : ℝ) (b : Bool) :
    let s' := s.step (.set (.proj p) "image_width_px" (some x) b)
    s'.getattr (.proj p) "image_width_px" = some (some w) ∧ s'.getattr (.proj p) "image_height_px" = some (some h) ∧
      (∀ c C, s.cams c = some C → C.proj = p → s'.getattr (.cam c) "image_width_px" = some (some x)) ∧
      s'.projs p = some ⟨k, some (w, h)⟩ := by
  intro s'
  have hpr : Pres s s' := step_pres hr.struct (op := .set (.proj p) "image_width_px" (some x) b) (Or.inl (by simp)) trivial
  have hl : (s.dict (.proj p)).lookup "image_width_px" = some (.p p .iw) := proj_lookup hP .iw
  have hP' : s'.projs p = some ⟨k, some (w, h)⟩ := by rw [hpr.projs]; exact hP
  refine ⟨?_, ?_, ?_, hP'⟩
  · simp [St.getattr, hP', PField.name]
  · simp [St.getattr, hP', PField.name]
  · intro c C hC hp
    subst hp
    rw [getattr_eq (plain_cam _ _), hpr.dict, show "image_width_px" = PField.name .iw from rfl, cam_lookup_p hr.dicts hC, Option.map_some]
    exact congrArg some (read_val (by rw [(set_read hr hl x b).1, norm360_not not_turn_p]))

/-- **C53** No operation of any history removes the hidden image size, and the constructor with a field of view creates
it. -/
theorem C53_violated_forever {s : St} (hr : Reach s) (op : Op) (hok : s.ok op) {p : ℕ} {k : Projection.Kind} {w h : ℝ}
    (hP : s.projs p = some ⟨k, some (w, h)⟩) :
    (s.step op).getattr (.proj p) "image_width_px" = some (some w) ∧ (s.step op).projs p = some ⟨k, some (w, h)⟩ := by
  have := (step_keep hr.struct hok).projs p _ hP
  refine ⟨?_, this⟩
  simp [St.getattr, this, PField.name]

example : ∃ s : St, Reach s ∧ s.projs 0 = some ⟨.rectilinear, some (100, 50)⟩ :=
  ⟨St.empty.step (.newProj 0 .rectilinear Ex.args true), .step .start ⟨rfl, fun f => by cases f <;> simp [Ex.args, PField.default]⟩,
    by simp [St.step, St.newProj, Ex.args]⟩
