import Verif.Props.LoadCamera
import Verif.Props.SystemFit

/-! # Cameras built from a field of view: which image size the transformations use (C52, C64), and shared projections (C57)

A projection built from a field of view keeps the image size of that time in instance attributes (projection.py:146-147). -/

set_option linter.constructorNameAsVariable false

open Classical Sys Persist

namespace Sys

/-- The image size that a projection object reads: the one given with the field of view, otherwise the current one. -/
def Held (s : St) (p : ℕ) (w h : ℝ) : Prop :=
  ∃ P, s.projs p = some P ∧ match P.attr with
    | some wh => wh = (w, h)
    | none => s.rd (.p p .iw) = w ∧ s.rd (.p p .ih) = h

/-- The camera with the current parameter values, but the given image size. -/
noncomputable def St.camSized (spline : LensModel.Spline) (s : St) (c : ℕ) (w h : ℝ) : Option Camera.Cam :=
  match s.cams c with
  | none => none
  | some C =>
    match s.projs C.proj, s.orients C.orient, s.lenses C.lens with
    | some P, some O, some L =>
      let p := C.proj
      let o := C.orient
      let l := C.lens
      let I : Projection.Intr := ⟨s.rd (.p p .fx), s.rd (.p p .fy), s.rd (.p p .cx), s.rd (.p p .cy), w, h⟩
      some {
        kind := P.kind
        intr := I
        orient := orientOf O.kind fun f => s.rd (.o o f)
        lens := match L.kind with
          | .none => Camera.noDistortion
          | .brown => (LensModel.brown spline I (s.rd (.l l .k1)) (s.rd (.l l .k2)) (s.rd (.l l .k3))).lens
          | .abc => (LensModel.abc spline I (s.rd (.l l .k1)) (s.rd (.l l .k2)) (s.rd (.l l .k3))).lens }
    | _, _, _ => none

theorem held_exists {s : St} {p : ℕ} {P : PObj} (h : s.projs p = some P) : Held s p (s.projWidth p) (s.projHeight p) := by
  refine ⟨P, h, ?_⟩
  obtain ⟨k, a⟩ := P
  cases a with
  | none => simp only [St.projWidth, St.projHeight, h, and_self]
  | some wh => simp only [St.projWidth, St.projHeight, h]

theorem held_unique {s : St} {p : ℕ} {w h w' h' : ℝ} (a : Held s p w h) (b : Held s p w' h') : w = w' ∧ h = h' := by
  obtain ⟨P, e1, e2⟩ := a
  obtain ⟨Q, e3, e4⟩ := b
  rw [e1] at e3
  cases e3
  cases hP : P.attr with
  | none =>
    simp only [hP] at e2 e4
    exact ⟨e2.1.symm.trans e4.1, e2.2.symm.trans e4.2⟩
  | some wh =>
    simp only [hP] at e2 e4
    rw [e2] at e4
    simpa using e4

end Sys

/-- **C52** For every camera without shared parts, however its projection was built: after any history it projects and casts rays like
a camera computed from the current parameter values with the image size that the projection holds. -/
theorem C52_exact_partial (spline : LensModel.Spline) {s : St} (hr : ReachX s) {c : ℕ} {C : CObj} (hC : s.cams c = some C) {w h : ℝ}
    (hw : Held s C.proj w h) :
    ∃ cam, s.camSized spline c w h = some cam ∧
      (∀ pt hide, s.imageFromSpace spline c pt hide = some (Camera.imageFromSpace cam pt hide)) ∧
      ∀ pt normed, s.getRay spline c pt normed = some (Camera.getRay cam pt normed) := by
  obtain ⟨P, O, L, hP, hO, hL, -⟩ := hr.reach.dicts.cam c C hC
  obtain ⟨rfl, rfl⟩ := held_unique hw (held_exists hP)
  have hm := mat_now (hr.reach.inv.fresh C.orient) hO
  have hlens : s.lensOf spline C.lens = match L.kind with
      | .none => Camera.noDistortion
      | .brown => (LensModel.brown spline (s.intrOf C.proj) (s.rd (.l C.lens .k1)) (s.rd (.l C.lens .k2)) (s.rd (.l C.lens .k3))).lens
      | .abc => (LensModel.abc spline (s.intrOf C.proj) (s.rd (.l C.lens .k1)) (s.rd (.l C.lens .k2)) (s.rd (.l C.lens .k3))).lens := by
    have hf := hr.invX.fresh C.lens L hL
    have hpr := hr.invX.cam c C L hC hL
    obtain ⟨k, pr, sn⟩ := L
    simp only at hf hpr
    cases k with
    | none => simp only [St.lensOf, hL]
    | brown =>
      have e := hf (by simp)
      rw [hpr (by simp)] at e
      simp only [St.snapOf] at e
      simp only [St.lensOf, hL, LensModel.brown]
      rw [e]
      simp only [St.intrOf]
    | abc =>
      have e := hf (by simp)
      rw [hpr (by simp)] at e
      simp only [St.snapOf] at e
      simp only [St.lensOf, hL, LensModel.abc]
      rw [e]
      simp only [St.intrOf]
      rfl
  refine ⟨_, by simp only [St.camSized, hC, hP, hO, hL]; rfl, ?_, ?_⟩
  · intro pt hide
    simp only [St.imageFromSpace, hC, hP, hO, Camera.imageFromSpace]
    rw [hm, hlens]
    rfl
  · intro pt normed
    simp only [St.getRay, hC, hP, hO, Camera.getRay]
    rw [hm, hlens]
    rfl

namespace Sys

theorem imageFromCamera_size (k : Projection.Kind) (fx fy cx cy w h w' h' : ℝ) (p : V3 Num) (b : Bool) :
    Projection.imageFromCamera k ⟨fx, fy, cx, cy, w, h⟩ p b = Projection.imageFromCamera k ⟨fx, fy, cx, cy, w', h'⟩ p b := by
  cases k <;> rfl

theorem getRay_size (k : Projection.Kind) (fx fy cx cy w h w' h' : ℝ) (p : V2 Num) (b : Bool) :
    Projection.getRay k ⟨fx, fy, cx, cy, w, h⟩ p b = Projection.getRay k ⟨fx, fy, cx, cy, w', h'⟩ p b := by
  cases k <;> rfl

/-- Only an ABC lens uses the image size. -/
theorem size_only_abc (spline : LensModel.Spline) {s : St} {c : ℕ} {C : CObj} (hC : s.cams c = some C) {L : LObj} (hL : s.lenses C.lens = some L)
    (hk : L.kind ≠ .abc) {w h : ℝ} {cam : Camera.Cam} (hcam : s.camSized spline c w h = some cam) :
    ∃ cam', s.camNow spline c = some cam' ∧ (∀ pt hide, Camera.imageFromSpace cam pt hide = Camera.imageFromSpace cam' pt hide) ∧
      ∀ pt normed, Camera.getRay cam pt normed = Camera.getRay cam' pt normed := by
  simp only [St.camSized, St.camNow, hC, hL] at hcam ⊢
  cases hP : s.projs C.proj with
  | none => simp [hP] at hcam
  | some P =>
    cases hO : s.orients C.orient with
    | none => simp [hP, hO] at hcam
    | some O =>
      simp only [hP, hO, Option.some.injEq] at hcam ⊢
      refine ⟨_, rfl, ?_, ?_⟩
      · intro pt hide
        rw [← hcam]
        cases hkl : L.kind with
        | none => simp only [Camera.imageFromSpace]; rw [imageFromCamera_size]
        | brown => simp only [Camera.imageFromSpace, LensModel.brown]; rw [imageFromCamera_size]
        | abc => exact absurd hkl hk
      · intro pt normed
        rw [← hcam]
        cases hkl : L.kind with
        | none => simp only [Camera.getRay]; rw [getRay_size]
        | brown => simp only [Camera.getRay, LensModel.brown]; rw [getRay_size]
        | abc => exact absurd hkl hk

end Sys

/-- **C52** With a lens other than `ABCDistortion` a camera without shared parts is up to date also if its projection was built from a
field of view. -/
theorem C52_view_partial (spline : LensModel.Spline) {s : St} (hr : ReachX s) {c : ℕ} {C : CObj} (hC : s.cams c = some C)
    {L : LObj} (hL : s.lenses C.lens = some L) (hk : L.kind ≠ .abc) :
    ∃ cam, s.camNow spline c = some cam ∧
      (∀ pt hide, s.imageFromSpace spline c pt hide = some (Camera.imageFromSpace cam pt hide)) ∧
      ∀ pt normed, s.getRay spline c pt normed = some (Camera.getRay cam pt normed) := by
  obtain ⟨P, O, L', hP, hO, hL', -⟩ := hr.reach.dicts.cam c C hC
  obtain ⟨cam, h1, h2, h3⟩ := C52_exact_partial spline hr hC (held_exists hP)
  obtain ⟨cam', h4, h5, h6⟩ := size_only_abc spline hC hL hk h1
  exact ⟨cam', h4, fun pt hide => by rw [h2, h5], fun pt normed => by rw [h3, h6]⟩

/-- **C52 is violated** by an ABC lens of a camera whose projection was built from a field of view: whatever image size is assigned
later, the lens scales with the image size given with the field of view. -/
theorem C52_view_violated {s : St} (hr : ReachX s) {c : ℕ} {C : CObj} (hC : s.cams c = some C) {L : LObj} (hL : s.lenses C.lens = some L)
    (hk : L.kind = .abc) {P : PObj} (hP : s.projs C.proj = some P) {w h : ℝ} (ha : P.attr = some (w, h)) (x y : ℝ) (b : Bool) :
    let s' := (s.step (.set (.cam c) "image_width_px" (some x) b)).step (.set (.cam c) "image_height_px" (some y) b)
    ReachX s' ∧ s'.getattr (.cam c) "image_width_px" = some (some x) ∧ s'.getattr (.cam c) "image_height_px" = some (some y) ∧
      ∃ L', s'.lenses C.lens = some L' ∧ L'.kind = .abc ∧ L'.snap.scale = ⟨min w h / 2, min w h / 2⟩ := by
  intro s'
  have hok : s.ok (.set (.cam c) "image_width_px" (some x) b) := Or.inl (by simp)
  set s1 := s.step (.set (.cam c) "image_width_px" (some x) b) with hs1
  have hr1 : ReachX s1 := .step hr hok trivial
  have hok1 : s1.ok (.set (.cam c) "image_height_px" (some y) b) := Or.inl (by simp)
  have hr2 : ReachX s' := .step hr1 hok1 trivial
  have p1 : Pres s s1 := step_pres hr.reach.struct hok trivial
  have p2 : Pres s1 s' := step_pres hr1.reach.struct hok1 trivial
  have hC1 : s1.cams c = some C := by rw [p1.cams, hC]
  have hC2 : s'.cams c = some C := by rw [p2.cams, hC1]
  have hP2 : s'.projs C.proj = some P := by rw [p2.projs, p1.projs, hP]
  have hlw : (s.dict (.cam c)).lookup "image_width_px" = some (.p C.proj .iw) := cam_lookup_p hr.reach.dicts hC .iw
  have hlh : (s1.dict (.cam c)).lookup "image_height_px" = some (.p C.proj .ih) := cam_lookup_p hr1.reach.dicts hC1 .ih
  have hlw2 : (s'.dict (.cam c)).lookup "image_width_px" = some (.p C.proj .iw) := cam_lookup_p hr2.reach.dicts hC2 .iw
  have hlh2 : (s'.dict (.cam c)).lookup "image_height_px" = some (.p C.proj .ih) := cam_lookup_p hr2.reach.dicts hC2 .ih
  refine ⟨hr2, ?_, ?_, ?_⟩
  · rw [getattr_eq (plain_cam _ _), hlw2, Option.map_some]
    have e : s'.par (.p C.proj .iw) = s1.par (.p C.proj .iw) := set_other hr1.reach hlh _ b (by simp) (by intro p g hg e; cases e)
    rw [e, read_val (set_read hr.reach hlw x b).1, norm360_not not_turn_p]
  · rw [getattr_eq (plain_cam _ _), hlh2, Option.map_some, read_val (set_read hr1.reach hlh y b).1, norm360_not not_turn_p]
  · obtain ⟨P', O', L2, -, -, hL2, -⟩ := hr2.reach.dicts.cam c C hC2
    have hk2 : L2.kind = .abc := by
      have e1 := (p2.lenses C.lens).trans (p1.lenses C.lens)
      rw [hL2, hL] at e1
      simp only [Option.map_some, Option.some.injEq, Prod.mk.injEq] at e1
      rw [e1.1, hk]
    refine ⟨L2, hL2, hk2, ?_⟩
    have e := hr2.invX.fresh C.lens L2 hL2 (by rw [hk2]; simp)
    rw [hr2.invX.cam c C L2 hC2 hL2 (by rw [hk2]; simp), hk2] at e
    obtain ⟨k, a⟩ := P
    simp only at ha
    subst ha
    simp only [St.snapOf, St.projWidth, St.projHeight, hP2] at e
    rw [e]

/-! ### C64 -/

namespace Persist

/-- Loading: the facts used below. -/
theorem load_view {s : St} (hr : Reach s) {c : ℕ} {kp : Projection.Kind} {kl : LKind} (hcls : Classes s c kp kl .thr)
    {disk disk' : Disk} {name : String} (hsave : save s c disk name = (disk', .ok ())) {s1 : St} (hr1 : ReachX s1) {p l o : ℕ} (hF : Fresh s1 p l o)
    (c' : ℕ) :
    ∃ s' C', load s1 c' p l o disk' name = .ok s' ∧ ReachX s' ∧ s'.cams c' = some C' ∧ Plain s' (.proj C'.proj) ∧
      (∃ L', s'.lenses C'.lens = some L' ∧ L'.kind = kl) ∧ (∀ spline, s'.camNow spline c' = s.camNow spline c) ∧
      ∀ n, n ≠ "focallength_px" → s'.getattr (.cam c') n = s.getattr (.cam c) n := by
  obtain ⟨s', e, a1, a2, a3, a4, -⟩ := C64_save_load_partial hr hcls hsave hr1.reach hF c'
  obtain ⟨C, P, L, O, hC, hP, hL, hO, rfl, rfl, hk⟩ := hcls
  rw [load_eq hC hP hL hsave s1 c' p l o] at e
  injection e with e
  obtain ⟨-, b2, b3, -, -, -⟩ := load_rd hr hC hO hL hr1.reach hF (c' := c') e.symm
  obtain ⟨C', O', L', d1, d2, d3, d4, d5, d6, d7, d8, d9⟩ := load_classes hr1.reach hF b3
  refine ⟨s', C', by rw [load_eq hC hP hL hsave s1 c' p l o, e], b2 hr1, d1, ?_, ⟨L', by rw [d4]; exact d8, d9⟩, a4, a3⟩
  rw [d2]
  intro p' P' e' hP'
  cases e'
  rw [d5] at hP'
  cases hP'
  rfl

end Persist

/-- **C64** With a lens other than `ABCDistortion`, a camera that shares no parts is loaded as a camera that projects and casts rays
identically, also if its projection was built from a field of view. -/
theorem C64_view_partial {s : St} (hr : ReachX s) {c : ℕ} {kp : Projection.Kind} {kl : LKind} (hcls : Classes s c kp kl .thr) (hk : kl ≠ .abc)
    {disk disk' : Disk} {name : String} (hsave : save s c disk name = (disk', .ok ())) {s1 : St} (hr1 : ReachX s1) {p l o : ℕ} (hF : Fresh s1 p l o)
    (c' : ℕ) :
    ∃ s', load s1 c' p l o disk' name = .ok s' ∧ ∀ spline,
      (∀ pt hide, s'.imageFromSpace spline c' pt hide = s.imageFromSpace spline c pt hide) ∧
      ∀ pt normed, s'.getRay spline c' pt normed = s.getRay spline c pt normed := by
  obtain ⟨s', C', e, hr', hC', -, ⟨L', hL', hk'⟩, hnow, -⟩ := load_view hr.reach hcls hsave hr1 hF c'
  obtain ⟨C, P, L, O, hC, hP, hL, hO, h1, rfl, h3⟩ := hcls
  refine ⟨s', e, fun spline => ?_⟩
  obtain ⟨cam, a1, a2, a3⟩ := C52_view_partial spline hr hC hL hk
  obtain ⟨cam', b1, b2, b3⟩ := C52_view_partial spline hr' hC' hL' (by rw [hk']; exact hk)
  rw [hnow, a1] at b1
  cases b1
  exact ⟨fun pt hide => by rw [a2, b2], fun pt normed => by rw [a3, b3]⟩

/-- **C64 is violated** for an ABC lens and a projection built from a field of view: the lens of the loaded camera scales with the image
size that the saved camera read, but the lens of the saved camera with the size given with the field of view. -/
theorem C64_view_violated {s : St} (hr : ReachX s) {c : ℕ} {C : CObj} (hC : s.cams c = some C) {kp : Projection.Kind} (hcls : Classes s c kp .abc .thr)
    {P : PObj} (hP : s.projs C.proj = some P) {w h x y : ℝ} (ha : P.attr = some (w, h)) (hx : s.getattr (.cam c) "image_width_px" = some (some x))
    (hy : s.getattr (.cam c) "image_height_px" = some (some y))
    {disk disk' : Disk} {name : String} (hsave : save s c disk name = (disk', .ok ())) {s1 : St} (hr1 : ReachX s1) {p l o : ℕ} (hF : Fresh s1 p l o)
    (c' : ℕ) :
    ∃ s' C' L L', load s1 c' p l o disk' name = .ok s' ∧ s'.cams c' = some C' ∧ s.lenses C.lens = some L ∧ s'.lenses C'.lens = some L' ∧
      L.snap.scale = ⟨min w h / 2, min w h / 2⟩ ∧ L'.snap.scale = ⟨min x y / 2, min x y / 2⟩ := by
  obtain ⟨s', C', e, hr', hC', hpl, ⟨L', hL', hk'⟩, hnow, hat⟩ := load_view hr.reach hcls hsave hr1 hF c'
  obtain ⟨C0, P0, L, O, hC0, hP0, hL, hO, h1, h2, h3⟩ := hcls
  rw [hC] at hC0
  cases hC0
  refine ⟨s', C', L, L', e, hC', hL, hL', ?_, ?_⟩
  · have e := hr.invX.fresh C.lens L hL (by rw [h2]; simp)
    rw [hr.invX.cam c C L hC hL (by rw [h2]; simp), h2] at e
    obtain ⟨k, a⟩ := P
    simp only at ha
    subst ha
    simp only [St.snapOf, St.projWidth, St.projHeight, hP] at e
    rw [e]
  · have e := hr'.invX.fresh C'.lens L' hL' (by rw [hk']; simp)
    rw [hr'.invX.cam c' C' L' hC' hL' (by rw [hk']; simp), hk'] at e
    obtain ⟨P', O', L2, hP', -, -, -⟩ := hr'.reach.dicts.cam c' C' hC'
    have ew : s'.getattr (.cam c') "image_width_px" = some (some (s'.rd (.p C'.proj .iw))) := by
      rw [getattr_eq (plain_cam _ _), show (s'.dict (.cam c')).lookup "image_width_px" = some (.p C'.proj .iw) from cam_lookup_p hr'.reach.dicts hC' .iw,
        Option.map_some, read_rd hr'.reach]
    have eh : s'.getattr (.cam c') "image_height_px" = some (some (s'.rd (.p C'.proj .ih))) := by
      rw [getattr_eq (plain_cam _ _), show (s'.dict (.cam c')).lookup "image_height_px" = some (.p C'.proj .ih) from cam_lookup_p hr'.reach.dicts hC' .ih,
        Option.map_some, read_rd hr'.reach]
    rw [hat _ (by simp), hx] at ew
    rw [hat _ (by simp), hy] at eh
    simp only [Option.some.injEq] at ew eh
    simp only [St.snapOf, projWidth_plain hP' (hpl _ P' rfl hP'), projHeight_plain hP' (hpl _ P' rfl hP'), ← ew, ← eh] at e
    rw [e]

/-! ### C57 -/

/-- **C57 is violated** if two cameras with different lenses share a projection: once the second camera exists, the lens of the first
does not see the value assigned to `focallength_px`. -/
theorem C57_lens_violated {s : St} (hr : Reach s) {c : ℕ} {C : CObj} (hC : s.cams c = some C)
    {c' o l : ℕ} (hne : c' ≠ c) (hl : l ≠ C.lens) {L L' : LObj} (hL : s.lenses C.lens = some L) (hL' : s.lenses l = some L') (hk' : L'.kind ≠ .none)
    (hok : s.ok (.newCam c' C.proj o l)) {x : ℝ} (hx : x ≠ L.snap.scale.x) (b : Bool) :
    let s' := (s.step (.newCam c' C.proj o l)).step (.set (.cam c) "focallength_px" (some x) b)
    Reach s' ∧ s'.getattr (.cam c) "focallength_x_px" = some (some x) ∧ s'.lenses C.lens = some L ∧ L.snap.scale.x ≠ x := by
  intro s'
  set s1 := s.step (.newCam c' C.proj o l) with hs1
  have hr1 : Reach s1 := .step hr hok
  have hok2 : s1.ok (.set (.cam c) "focallength_px" (some x) b) := Or.inl (by simp)
  have hC1 : s1.cams c = some C := by
    have : s1.cams = (s.newCam c' C.proj o l).cams := rfl
    rw [this, newCam_eq]
    simp only [camTail, Function.update_apply, if_neg hne.symm, setProjection_cams, hC]
  have hlc : (s1.dict (.cam c)).lookup "focallength_px" = some (.p C.proj .f) := cam_lookup_p hr1.dicts hC1 .f
  have hlx : (s1.dict (.cam c)).lookup "focallength_x_px" = some (.p C.proj .fx) := cam_lookup_p hr1.dicts hC1 .fx
  have hcb : ∀ g, IsF g → (s1.par (.p C.proj g)).callback = some (.lens l) := by
    intro g hg
    have : s1.par (.p C.proj g) = (s.setProjection l C.proj).par (.p C.proj g) := rfl
    rw [this, setProjection_eq hL' hk', runLens_par, preBind_par hk', if_pos (Or.inr ⟨g, by rcases hg with rfl | rfl <;> simp [PField.lens], rfl⟩)]
  have hL1 : s1.lenses C.lens = some L := by
    have : s1.lenses C.lens = (s.setProjection l C.proj).lenses C.lens := rfl
    rw [this, setProjection_eq hL' hk', runLens_lenses_ne _ hl.symm, preBind_lenses, Function.update_apply, if_neg hl.symm, hL]
  have hcf : (s1.par (.p C.proj .f)).callback = some (.focal C.proj) := (focal_iff hr1.struct (hr1.dicts.lookup_created hlc) _).2 rfl
  have hL2 : s'.lenses C.lens = some L := by
    show (s1.step (.set (.cam c) "focallength_px" (some x) b)).lenses C.lens = some L
    simp only [St.step, hlc, St.assign, mod_par, if_true, hcf, St.runOpt, St.run]
    have hc1 : ∀ (t : St) (g : PField), (t.par (.p C.proj g)).callback = some (.lens l) → (t.copyF C.proj g).lenses C.lens = t.lenses C.lens := by
      intro t g hg
      simp only [St.copyF, mod_par, if_true, hg, St.runSimple]
      rw [runLens_lenses_ne _ hl.symm]
      rfl
    have hc2 : ∀ (t : St), (t.par (.p C.proj .fx)).callback = some (.lens l) → (t.par (.p C.proj .fy)).callback = some (.lens l) →
        ((t.copyF C.proj .fx).par (.p C.proj .fy)).callback = some (.lens l) := by
      intro t h1 h2
      simp only [St.copyF, mod_par, if_true, h1, St.runSimple]
      rw [runLens_par, mod_par, if_neg (by simp), h2]
    have k1 := hcb .fx (Or.inl rfl)
    have k2 := hcb .fy (Or.inr rfl)
    rw [hc1 _ .fy (hc2 _ (by rw [mod_par, if_neg (by simp)]; exact k1) (by rw [mod_par, if_neg (by simp)]; exact k2)),
      hc1 _ .fx (by rw [mod_par, if_neg (by simp)]; exact k1)]
    exact hL1
  exact ⟨.step hr1 hok2, C57_both_focal_lengths hr1 hlc x b _ _ .fx (Or.inl rfl) hlx (by simp) (by simp), hL2, hx.symm⟩

/-! ### Examples -/

namespace Persist

/-- A new camera with a projection that was built from a field of view. -/
theorem viewCam (kp : Projection.Kind) (kl : LKind) : ∃ (s : St) (C : CObj), ReachX s ∧ ReachN s ∧ s.cams 0 = some C ∧ Classes s 0 kp kl .thr ∧
    s.projs C.proj = some ⟨kp, some (100, 50)⟩ := by
  have hF := fresh0
  set s := St.empty with hs
  set s1 := s.step (.newProj 0 kp initArgs true) with h1
  set s2 := s1.step (.newLens 0 kl fun _ => none) with h2
  set s3 := s2.step (.newOrient 0 .thr fun _ => none) with h3
  set s4 := s3.step (.newCam 0 0 0 0) with h4
  have ok1 : s.ok (.newProj 0 kp initArgs true) := ⟨hF.p, fun f => by cases f <;> simp [initArgs, PField.default]⟩
  have x1 : ReachX s1 := .step .start ok1 trivial
  have r1 : ReachN s1 := .step .start ok1 trivial
  have k1 : s1.projs 0 = some ⟨kp, some (100, 50)⟩ := by simp [h1, St.step, St.newProj, initArgs]
  have ok2 : s1.ok (.newLens 0 kl fun _ => none) := hF.l
  have x2 : ReachX s2 := .step x1 ok2 trivial
  have r2 : ReachN s2 := .step r1 ok2 trivial
  have k2 : s2.projs 0 = some ⟨kp, some (100, 50)⟩ := (step_keep r1.reach.struct ok2).projs _ _ k1
  obtain ⟨L2, e2, e2', e2''⟩ := newLens_kind s1 0 kl fun _ => none
  change s2.lenses 0 = some L2 at e2
  have ok3 : s2.ok (.newOrient 0 .thr fun _ => none) := by
    show s2.orients 0 = none
    have : s2.orients = s1.orients := runLens_orients (preLens s1 0 kl fun _ => none) 0
    rw [this]; exact hF.o
  have x3 : ReachX s3 := .step x2 ok3 trivial
  have r3 : ReachN s3 := .step r2 ok3 trivial
  have k3 : s3.projs 0 = some ⟨kp, some (100, 50)⟩ := (step_keep r2.reach.struct ok3).projs _ _ k2
  have e3l : s3.lenses = s2.lenses := runMatrix_lenses (preOrient s2 0 .thr fun _ => none) 0
  have e3l0 : s3.lenses 0 = some L2 := by rw [e3l]; exact e2
  obtain ⟨O3, e3, e3'⟩ := newOrient_kind s2 0 .thr fun _ => none
  change s3.orients 0 = some O3 at e3
  have ok4 : s3.ok (.newCam 0 0 0 0) := ⟨by rw [k3]; simp, by rw [e3]; simp, by rw [e3l0]; simp⟩
  have r4 : ReachN s4 := .step r3 ok4 trivial
  have x4 : ReachX s4 := by
    refine .step x3 ok4 ?_
    intro L hL hk
    rw [e3l0] at hL; cases hL
    refine ⟨Or.inl e2'', fun l' L' hne hL' hk' hp => ?_⟩
    rw [e3l, show s2.lenses l' = (preLens s1 0 kl fun _ => none).lenses l' from runLens_lenses_ne (preLens s1 0 kl fun _ => none) hne] at hL'
    simp only [preLens, Function.update_apply, if_neg hne] at hL'
    have : s1.lenses l' = none := rfl
    rw [this] at hL'
    cases hL'
  have k4 : s4.projs 0 = some ⟨kp, some (100, 50)⟩ := (step_keep r3.reach.struct ok4).projs _ _ k3
  obtain ⟨O4, f1, f1'⟩ := (step_keep r3.reach.struct ok4).orients 0 O3 e3
  obtain ⟨L4, f2, f2', -⟩ := (step_keep r3.reach.struct ok4).lenses 0 L2 e3l0
  have hC : ∃ C, s4.cams 0 = some C ∧ C.proj = 0 ∧ C.orient = 0 ∧ C.lens = 0 := by
    simp only [h4, St.step, St.newCam, Function.update_self]
    exact ⟨_, rfl, rfl, rfl, rfl⟩
  obtain ⟨C, g1, g2, g3, g4⟩ := hC
  exact ⟨s4, C, x4, r4, g1, ⟨C, _, L4, O4, g1, by rw [g2]; exact k4, by rw [g4]; exact f2, by rw [g3]; exact f1, rfl, f2'.trans e2', f1'.trans e3'⟩,
    by rw [g2]; exact k4⟩

end Persist

example : ∃ (s : St) (C : CObj), ReachX s ∧ s.cams 0 = some C ∧ Held s C.proj 100 50 := by
  obtain ⟨s, C, h1, -, h2, -, h3⟩ := viewCam .rectilinear .brown
  exact ⟨s, C, h1, h2, _, h3, rfl⟩

example : ∃ (s : St) (C : CObj) (L : LObj), ReachX s ∧ s.cams 0 = some C ∧ s.lenses C.lens = some L ∧ L.kind ≠ .abc ∧ ¬ Plain s (.proj C.proj) := by
  obtain ⟨s, C, h1, -, h2, ⟨C', P, L, O, e1, e2, e3, e4, e5, e6, e7⟩, h3⟩ := viewCam .rectilinear .brown
  rw [h2] at e1
  cases e1
  exact ⟨s, C, L, h1, h2, e3, by rw [e6]; simp, fun h => by have := h _ _ rfl h3; cases this⟩

example : ∃ (s : St) (C : CObj) (L : LObj) (P : PObj), ReachX s ∧ s.cams 0 = some C ∧ s.lenses C.lens = some L ∧ L.kind = .abc ∧ s.projs C.proj = some P ∧
    P.attr = some (100, 50) := by
  obtain ⟨s, C, h1, -, h2, ⟨C', P, L, O, e1, e2, e3, e4, e5, e6, e7⟩, h3⟩ := viewCam .rectilinear .abc
  rw [h2] at e1
  cases e1
  exact ⟨s, C, L, _, h1, h2, e3, e6, h3, rfl⟩

example : ∃ (s : St) (disk disk' : Disk), ReachX s ∧ Classes s 0 .cylindrical .brown .thr ∧ save s 0 disk "a" = (disk', .ok ()) ∧ ReachX St.empty ∧
    Fresh St.empty 0 0 0 ∧ ∃ C, s.cams 0 = some C ∧ ¬ Plain s (.proj C.proj) := by
  obtain ⟨s, C, h1, h1', h2, hc, h3⟩ := viewCam .cylindrical .brown
  exact ⟨s, fun _ => none, _, h1, hc, save_ok h1'.noBox _ _ _, .start, fresh0, C, h2, fun h => by have := h _ _ rfl h3; cases this⟩

/-- A camera that was built with the image size (100, 50) and reads (30, 20). -/
example : ∃ (s : St) (C : CObj) (P : PObj) (disk disk' : Disk), ReachX s ∧ s.cams 0 = some C ∧ Classes s 0 .cylindrical .abc .thr ∧
    s.projs C.proj = some P ∧ P.attr = some (100, 50) ∧ s.getattr (.cam 0) "image_width_px" = some (some 30) ∧
    s.getattr (.cam 0) "image_height_px" = some (some 20) ∧ save s 0 disk "a" = (disk', .ok ()) := by
  obtain ⟨s, C, h1, h1', h2, hc, h3⟩ := viewCam .cylindrical .abc
  obtain ⟨C', P, L, O, e1, e2, e3, e4, e5, e6, e7⟩ := hc
  rw [h2] at e1
  cases e1
  obtain ⟨hr, g1, g2, L', g3, g4, -⟩ := C52_view_violated h1 h2 e3 e6 h3 rfl 30 20 false
  have ok1 : s.ok (.set (.cam 0) "image_width_px" (some 30) false) := Or.inl (by simp)
  have n1 : ReachN (s.step (.set (.cam 0) "image_width_px" (some 30) false)) := .step h1' ok1 rfl
  have ok2 : (s.step (.set (.cam 0) "image_width_px" (some 30) false)).ok (.set (.cam 0) "image_height_px" (some 20) false) := Or.inl (by simp)
  have n2 := ReachN.step n1 ok2 rfl
  have p1 := step_pres h1.reach.struct ok1 trivial
  have p2 := step_pres n1.reach.struct ok2 trivial
  have hO := (p2.orients C.orient).trans (p1.orients C.orient)
  rw [e4] at hO
  obtain ⟨O', o1, o2⟩ := Option.map_eq_some_iff.1 hO
  exact ⟨_, C, _, fun _ => none, _, hr, by rw [p2.cams, p1.cams, h2], ⟨C, P, L', O', by rw [p2.cams, p1.cams, h2], by rw [p2.projs, p1.projs, e2], g3, o1, e5,
    g4, o2.trans e7⟩, by rw [p2.projs, p1.projs, h3], rfl, g1, g2, save_ok n2.noBox _ _ _⟩

example : ∃ (s : St) (C : CObj) (L L' : LObj), Reach s ∧ s.cams 0 = some C ∧ 1 ≠ C.lens ∧ s.lenses C.lens = some L ∧
    s.lenses 1 = some L' ∧ L'.kind ≠ .none ∧ s.ok (.newCam 1 C.proj 0 1) := by
  obtain ⟨C, hC, hp, ho, hl⟩ := Ex.s4_cams
  obtain ⟨L, hL, hk, -⟩ := Ex.s4_lens
  obtain ⟨O, hO, -⟩ := Ex.s4_orients
  obtain ⟨L2, h1, h2, -⟩ := Ex.keep46.lenses 0 L hL
  obtain ⟨O', h3, -⟩ := Ex.keep46.orients 0 O hO
  obtain ⟨L1, h4, h5⟩ := Ex.s6_lens1
  refine ⟨_, C, L2, L1, Ex.reachX6.reach, by rw [Ex.s6_cams]; exact hC, by rw [hl]; simp, by rw [hl]; exact h1, h4,
    by rw [h5]; simp, ?_, ?_, ?_⟩
  · rw [hp, Ex.keep46.projs 0 _ Ex.s4_projs]; simp
  · rw [h3]; simp
  · rw [h4]; simp
