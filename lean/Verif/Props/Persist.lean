import Verif.Proofs.Persist
import Verif.Proofs.Camera

/-! # Saving and loading, `setGPSpos` -/

set_option linter.constructorNameAsVariable false

open Classical Sys Persist

/-! ### C64 -/

theorem Persist.load_classes {s1 s' : St} (hr1 : Reach s1) {c' p l o : ℕ} (hF : Fresh s1 p l o) {kp : Projection.Kind} {kl : LKind}
    (hp : Pres (loadInit s1 c' p l o kp kl) s') :
    ∃ C' O' L', s'.cams c' = some C' ∧ C'.proj = p ∧ C'.orient = o ∧ C'.lens = l ∧ s'.projs p = some ⟨kp, none⟩ ∧
      s'.orients o = some O' ∧ O'.kind = .thr ∧ s'.lenses l = some L' ∧ L'.kind = kl := by
  obtain ⟨-, -, ⟨C, O, L, h1, h2, h3, h4, h5, h6, h7, h8, h9⟩, -⟩ := loadInit_spec hr1 hF (c := c') kp kl
  have ho := hp.orients o
  have hl := hp.lenses l
  rw [h6] at ho
  rw [h8] at hl
  obtain ⟨O', e1, e2⟩ := Option.map_eq_some_iff.1 ho
  obtain ⟨L', e3, e4⟩ := Option.map_eq_some_iff.1 hl
  simp only [Prod.mk.injEq] at e4
  exact ⟨C, O', L', by rw [hp.cams, h1], h2, h3, h4, by rw [hp.projs, h5], e1, e2.trans h7, e3, e4.1.trans h9⟩

theorem Persist.cam_dict {s : St} (hr : Reach s) {c : ℕ} {C : CObj} {O : OObj} {L : LObj} (hC : s.cams c = some C)
    (hO : s.orients C.orient = some O) (hL : s.lenses C.lens = some L) :
    s.dict (.cam c) = camDict O.kind L.kind c C.proj C.orient C.lens := by
  obtain ⟨P', O', L', -, q2, q3, q4, -⟩ := hr.dicts.cam c C hC
  rw [hO] at q2; cases q2
  rw [hL] at q3; cases q3
  simp only [St.dict, hC, q4]

/-- Names of two cameras with the same classes belong to the same roles. -/
theorem Persist.lookup_role (ko : OKind) (kl : LKind) (c p o l c' p' o' l' : ℕ) (n : String) :
    (∃ r : Role, r.In kl ∧ n = r.name ko kl ∧ (camDict ko kl c p o l).lookup n = some (r.pid c p o l) ∧
      (camDict ko kl c' p' o' l').lookup n = some (r.pid c' p' o' l')) ∨
    ((camDict ko kl c p o l).lookup n = none ∧ (camDict ko kl c' p' o' l').lookup n = none) := by
  cases h : (camDict ko kl c p o l).lookup n with
  | some q =>
    obtain ⟨r, h1, rfl, rfl⟩ := Role.of_mem (lookup_mem h)
    exact Or.inl ⟨r, h1, rfl, rfl, r.lookup _ _ _ _ _ h1⟩
  | none =>
    right
    refine ⟨rfl, ?_⟩
    cases h' : (camDict ko kl c' p' o' l').lookup n with
    | none => rfl
    | some q =>
      obtain ⟨r, h1, rfl, rfl⟩ := Role.of_mem (lookup_mem h')
      rw [r.lookup _ _ _ _ _ h1] at h; cases h

/-- **C64** A camera with a `SpatialOrientation` that is saved without an exception and loaded by `load`, at any later
time or in another process (the state `s1`), has the same classes and reads the same for every name but `focallength_px`, so it
is the same camera as far as the current parameter values determine it.  If no lens and no projection is shared and the
projection was not built from a field of view, it projects and casts rays identically.  Missing: cameras that cannot be
saved (`C66_violated`), and the transformations of cameras with shared parts or hidden attributes, see C52 and C53. -/
theorem C64_save_load_partial {s : St} (hr : Reach s) {c : ℕ} {kp : Projection.Kind} {kl : LKind} (hcls : Classes s c kp kl .thr)
    {disk disk' : Disk} {name : String} (hsave : save s c disk name = (disk', .ok ())) {s1 : St} (hr1 : Reach s1) {p l o : ℕ} (hF : Fresh s1 p l o)
    (c' : ℕ) :
    ∃ s', load s1 c' p l o disk' name = .ok s' ∧ Reach s' ∧ Classes s' c' kp kl .thr ∧
      (∀ n, n ≠ "focallength_px" → s'.getattr (.cam c') n = s.getattr (.cam c) n) ∧
      (∀ spline, s'.camNow spline c' = s.camNow spline c) ∧
      (ReachX s → ReachX s1 → (∀ C, s.cams c = some C → Plain s (.proj C.proj)) → ∀ spline,
        (∀ pt hide, s'.imageFromSpace spline c' pt hide = s.imageFromSpace spline c pt hide) ∧
        ∀ pt normed, s'.getRay spline c' pt normed = s.getRay spline c pt normed) := by
  obtain ⟨C, P, L, O, hC, hP, hL, hO, rfl, rfl, hk⟩ := hcls
  refine ⟨_, load_eq hC hP hL hsave s1 c' p l o, ?_⟩
  generalize hs' : assignAll (loadInit s1 c' p l o P.kind L.kind) (.cam c') ((exports s (.cam c) (some "focallength_px")).map fun kv => (kv.1, s.rd kv.2)) = s'
  obtain ⟨a1, a2, a3, a4, -, -⟩ := load_rd hr hC hO hL hr1 hF (c' := c') hs'.symm
  obtain ⟨C', O', L', b1, b2, b3, b4, b5, b6, b7, b8, b9⟩ := load_classes hr1 hF a3
  have a4' : ∀ r : Role, r.In L.kind → r ≠ .p .f → s'.rd (r.pid c' p o l) = s.rd (r.pid c C.proj C.orient C.lens) := by
    intro r h1 h2
    rw [a4 r h1 h2, if_neg (by rw [hk]; simp)]
  have hnow : ∀ spline, s'.camNow spline c' = s.camNow spline c := by
    intro spline
    have e1 : ∀ f, f ≠ .f → s'.rd (.p p f) = s.rd (.p C.proj f) := fun f hf => a4' (.p f) trivial (by simpa using hf)
    have e2 : ∀ f, s'.rd (.o o f) = s.rd (.o C.orient f) := fun f => a4' (.o f) trivial (by simp)
    simp only [St.camNow, b1, hC, b2, b3, b4, b5, b6, b8, hP, hO, hL, b7, hk, b9, e1 _ (show PField.fx ≠ .f by simp), e1 _ (show PField.fy ≠ .f by simp),
      e1 _ (show PField.cx ≠ .f by simp), e1 _ (show PField.cy ≠ .f by simp), e1 _ (show PField.iw ≠ .f by simp), e1 _ (show PField.ih ≠ .f by simp), e2]
    cases hkl : L.kind with
    | none => rfl
    | brown =>
      have e3 : ∀ f, s'.rd (.l l f) = s.rd (.l C.lens f) := fun f => a4' (.l f) (by rw [hkl]; simp [Role.In]) (by simp)
      simp only [e3]
    | abc =>
      have e3 : ∀ f, s'.rd (.l l f) = s.rd (.l C.lens f) := fun f => a4' (.l f) (by rw [hkl]; simp [Role.In]) (by simp)
      simp only [e3]
  refine ⟨a1, ⟨C', ⟨P.kind, none⟩, L', O', b1, by rw [b2]; exact b5, by rw [b4]; exact b8, by rw [b3]; exact b6, rfl, b9, b7⟩, fun n hn => ?_, hnow, fun hx hx1 hpl spline => ?_⟩
  · rw [getattr_eq (plain_cam _ _), getattr_eq (plain_cam _ _), cam_dict a1 b1 (by rw [b3]; exact b6) (by rw [b4]; exact b8), cam_dict hr hC hO hL, b7, b9, hk, b2, b3, b4]
    rcases lookup_role .thr L.kind c' p o l c C.proj C.orient C.lens n with ⟨r, h1, h2, h3, h4⟩ | ⟨h3, h4⟩
    · rw [h3, h4, Option.map_some, Option.map_some, read_rd a1, read_rd hr,
        a4' r h1 (fun e => hn (h2.trans ((Role.name_f h1).2 e)))]
    · rw [h3, h4]; rfl
  · obtain ⟨cam, h1, h2, h3⟩ := C52_up_to_date_partial spline hx hC (hpl C hC)
    obtain ⟨cam', h1', h2', h3'⟩ := C52_up_to_date_partial spline (a2 hx1) b1 (by
      rw [b2]; intro p' P' e hP'; cases e; rw [b5] at hP'; cases hP'; rfl)
    rw [hnow, h1] at h1'
    cases h1'
    exact ⟨fun pt hide => by rw [h2, h2'], fun pt normed => by rw [h3, h3']⟩

example : ∃ (s : St) (disk disk' : Disk) (s1 : St), Reach s ∧ Classes s 0 .cylindrical .brown .thr ∧ save s 0 disk "a" = (disk', .ok ()) ∧
    Reach s1 ∧ Fresh s1 0 0 0 ∧ ReachX s ∧ ReachX s1 ∧ ∀ C, s.cams 0 = some C → Plain s (.proj C.proj) := by
  have h := mkCam_spec .start fresh0 (c := 0) .cylindrical .brown .thr
  have h' := mkCam_classes .start fresh0 (c := 0) .cylindrical .brown .thr
  exact ⟨_, fun _ => none, _, _, h.1, h'.1, save_ok (mkCam_reachN .start fresh0 _ _ _).noBox _ _ _, .start, fresh0, h.2.1 .start, .start, h'.2⟩

/-! ### C65 -/

/-- **C65** is violated: a camera with a `SpatialOrientationYawPitchRoll`, whatever its yaw and pitch, is loaded as a camera
with a `SpatialOrientation` with the tilt 85 and the heading 0; everything else is the same. -/
theorem C65_violated {s : St} (hr : Reach s) {c : ℕ} {kp : Projection.Kind} {kl : LKind} (hcls : Classes s c kp kl .ypr)
    {disk disk' : Disk} {name : String} (hsave : save s c disk name = (disk', .ok ())) {s1 : St} (hr1 : Reach s1) {p l o : ℕ} (hF : Fresh s1 p l o)
    (c' : ℕ) :
    ∃ s', load s1 c' p l o disk' name = .ok s' ∧ Reach s' ∧ (ReachX s1 → ReachX s') ∧ Classes s' c' kp kl .thr ∧
      (∀ C, s'.cams c' = some C → Plain s' (.proj C.proj)) ∧
      ∀ spline, ∃ (cam : Camera.Cam) (y : Spatial.ParamsYPR), s.camNow spline c = some cam ∧ cam.orient = .ypr y ∧
        s'.camNow spline c' = some { cam with orient := .thr ⟨y.elevation_m, 85, y.roll_deg, 0, y.pos_x_m, y.pos_y_m⟩ } := by
  obtain ⟨C, P, L, O, hC, hP, hL, hO, rfl, rfl, hk⟩ := hcls
  refine ⟨_, load_eq hC hP hL hsave s1 c' p l o, ?_⟩
  obtain ⟨-, -, -, -, c1, -, -⟩ := loadInit_spec hr1 hF (c := c') P.kind L.kind
  generalize hs' : assignAll (loadInit s1 c' p l o P.kind L.kind) (.cam c') ((exports s (.cam c) (some "focallength_px")).map fun kv => (kv.1, s.rd kv.2)) = s'
  obtain ⟨a1, a2, a3, a4, -, -⟩ := load_rd hr hC hO hL hr1 hF (c' := c') hs'.symm
  obtain ⟨C', O', L', b1, b2, b3, b4, b5, b6, b7, b8, b9⟩ := load_classes hr1 hF a3
  refine ⟨a1, a2, ⟨C', ⟨P.kind, none⟩, L', O', b1, by rw [b2]; exact b5, by rw [b4]; exact b8, by rw [b3]; exact b6, rfl, b9, b7⟩, ?_, fun spline => ?_⟩
  · intro C'' e
    rw [b1] at e; cases e
    rw [b2]; intro p' P' e hP'; cases e; rw [b5] at hP'; cases hP'; rfl
  have e1 : ∀ f, f ≠ .f → s'.rd (.p p f) = s.rd (.p C.proj f) := fun f hf =>
    (a4 (.p f) trivial (by simpa using hf)).trans (if_neg (by simp))
  have e2 : ∀ f, f ≠ .ang → f ≠ .turn → s'.rd (.o o f) = s.rd (.o C.orient f) := fun f hf hf' =>
    (a4 (.o f) trivial (by simp)).trans (if_neg (by simp [hf, hf']))
  have e3 : s'.rd (.o o .ang) = 85 := (a4 (.o .ang) trivial (by simp)).trans ((if_pos (by simp [hk])).trans (c1 .ang).2)
  have e4 : s'.rd (.o o .turn) = 0 := (a4 (.o .turn) trivial (by simp)).trans ((if_pos (by simp [hk])).trans (c1 .turn).2)
  have e5 : L.kind ≠ .none → ∀ f, s'.rd (.l l f) = s.rd (.l C.lens f) := fun hkl f =>
    (a4 (.l f) hkl (by simp)).trans (if_neg (by simp))
  cases hkl : L.kind with
  | none =>
    refine ⟨_, _, by simp only [St.camNow, hC, hP, hO, hL]; rfl, by simp only [hk]; rfl, ?_⟩
    simp only [St.camNow, b1, b2, b3, b4, b5, b6, b8, b7, b9, hkl, e1 _ (show PField.fx ≠ .f by simp), e1 _ (show PField.fy ≠ .f by simp),
      e1 _ (show PField.cx ≠ .f by simp), e1 _ (show PField.cy ≠ .f by simp), e1 _ (show PField.iw ≠ .f by simp), e1 _ (show PField.ih ≠ .f by simp), e3, e4,
      orientOf, e2 .elev (by simp) (by simp), e2 .roll (by simp) (by simp), e2 .posX (by simp) (by simp), e2 .posY (by simp) (by simp)]
  | brown =>
    refine ⟨_, _, by simp only [St.camNow, hC, hP, hO, hL]; rfl, by simp only [hk]; rfl, ?_⟩
    simp only [St.camNow, b1, b2, b3, b4, b5, b6, b8, b7, b9, hkl, e1 _ (show PField.fx ≠ .f by simp), e1 _ (show PField.fy ≠ .f by simp),
      e1 _ (show PField.cx ≠ .f by simp), e1 _ (show PField.cy ≠ .f by simp), e1 _ (show PField.iw ≠ .f by simp), e1 _ (show PField.ih ≠ .f by simp), e3, e4,
      orientOf, e2 .elev (by simp) (by simp), e2 .roll (by simp) (by simp), e2 .posX (by simp) (by simp), e2 .posY (by simp) (by simp), e5 (by rw [hkl]; simp)]
  | abc =>
    refine ⟨_, _, by simp only [St.camNow, hC, hP, hO, hL]; rfl, by simp only [hk]; rfl, ?_⟩
    simp only [St.camNow, b1, b2, b3, b4, b5, b6, b8, b7, b9, hkl, e1 _ (show PField.fx ≠ .f by simp), e1 _ (show PField.fy ≠ .f by simp),
      e1 _ (show PField.cx ≠ .f by simp), e1 _ (show PField.cy ≠ .f by simp), e1 _ (show PField.iw ≠ .f by simp), e1 _ (show PField.ih ≠ .f by simp), e3, e4,
      orientOf, e2 .elev (by simp) (by simp), e2 .roll (by simp) (by simp), e2 .posX (by simp) (by simp), e2 .posY (by simp) (by simp), e5 (by rw [hkl]; simp)]

example : ∃ (s : St) (disk disk' : Disk) (s1 : St), Reach s ∧ Classes s 0 .cylindrical .brown .ypr ∧ save s 0 disk "a" = (disk', .ok ()) ∧
    Reach s1 ∧ Fresh s1 0 0 0 := by
  have h := mkCam_spec .start fresh0 (c := 0) .cylindrical .brown .ypr
  have h' := mkCam_classes .start fresh0 (c := 0) .cylindrical .brown .ypr
  exact ⟨_, fun _ => none, _, _, h.1, h'.1, save_ok (mkCam_reachN .start fresh0 _ _ _).noBox _ _ _, .start, fresh0⟩

/-- The upward component of the viewing direction. -/
theorem Persist.view_z (cam : Camera.Cam) (hfx : cam.intr.fx ≠ 0) (hfy : cam.intr.fy ≠ 0) (hl : cam.lens = Camera.noDistortion) :
    Num.Is (Camera.getRay cam (V2.num ⟨cam.intr.cx, cam.intr.cy⟩) false).2.z (-(cam.orient.mat.R).r2.z) := by
  obtain ⟨s, h1, h2, -, h4⟩ := Camera.getRay_dir cam hfx hfy (n := V2.num ⟨cam.intr.cx, cam.intr.cy⟩) (p := ⟨cam.intr.cx, cam.intr.cy⟩)
    (by rw [hl]; exact V2.is_num _) false
  have h := h4.2.2
  rw [h2 rfl] at h
  have e : ((Camera.dirR cam ⟨cam.intr.cx, cam.intr.cy⟩).mulS 1).z = -(cam.orient.mat.R).r2.z := by
    cases hk : cam.kind <;> simp [Camera.dirR, Projection.rayR, hk, M3.applyR, M3.T, V3.dot, V3.mulS]
  rw [← e]; exact h

/-- **C65** is violated: unless the pitch happens to have the sine of the default tilt, the ray through the centre of the
image of the loaded camera is another one. -/
theorem C65_violated_rays (spline : LensModel.Spline) {s : St} (hr : ReachX s) {c : ℕ} {kp : Projection.Kind} (hcls : Classes s c kp .none .ypr) {cam : Camera.Cam}
    {y : Spatial.ParamsYPR} (hcam : s.camNow spline c = some cam) (hy : cam.orient = .ypr y) (hfx : cam.intr.fx ≠ 0) (hfy : cam.intr.fy ≠ 0)
    (hpl : ∀ C, s.cams c = some C → Plain s (.proj C.proj)) (hpitch : Real.sin (Spatial.rad y.pitch_deg) ≠ -Real.cos (Spatial.rad 85))
    {disk disk' : Disk} {name : String} (hsave : save s c disk name = (disk', .ok ())) {s1 : St} (hr1 : ReachX s1) {p l o : ℕ} (hF : Fresh s1 p l o)
    (c' : ℕ) :
    ∃ s', load s1 c' p l o disk' name = .ok s' ∧ ∃ pt, s'.getRay spline c' pt false ≠ s.getRay spline c pt false := by
  obtain ⟨s', h1, h2, h3, h4, h5, h6⟩ := C65_violated hr.reach hcls hsave hr1.reach hF c'
  refine ⟨s', h1, V2.num ⟨cam.intr.cx, cam.intr.cy⟩, ?_⟩
  obtain ⟨cam0, y0, g1, g2, g3⟩ := h6 spline
  rw [hcam] at g1; cases g1
  rw [hy] at g2; cases g2
  obtain ⟨C, P, L, O, hC, hP, hL, hO, -, hkl, hko⟩ := hcls
  obtain ⟨C', -, -, -, hC', -⟩ := h4
  obtain ⟨cam1, f1, -, f2⟩ := C52_up_to_date_partial spline hr hC (hpl C hC)
  obtain ⟨cam2, f3, -, f4⟩ := C52_up_to_date_partial spline (h3 hr1) hC' (h5 C' hC')
  rw [hcam] at f1; cases f1
  rw [g3] at f3; cases f3
  rw [f2, f4]
  intro e
  have e := Option.some.inj e
  have hl : cam.lens = Camera.noDistortion := by
    simp only [St.camNow, hC, hP, hO, hL, hkl, Option.some.injEq] at hcam
    rw [← hcam]
  have z1 := view_z cam hfx hfy hl
  have z2 := view_z { cam with orient := .thr ⟨y.elevation_m, 85, y.roll_deg, 0, y.pos_x_m, y.pos_y_m⟩ } hfx hfy hl
  simp only at z2
  rw [e] at z2
  have hwrap : ¬ Out y.pitch_deg := by
    have := not_out hr.reach hO
    simp only [St.camNow, hC, hP, hO, hL, hkl, Option.some.injEq] at hcam
    rw [← hcam, hko] at hy
    simp only [orientOf, Camera.Orient.ypr.injEq] at hy
    rw [← hy]; exact this
  have z3 := z1.unique z2
  rw [hy] at z3
  simp only [Camera.Orient.mat, Spatial.initCameraMatrix, Spatial.initCameraMatrixYPR, Spatial.matrices, Spatial.matricesYPR,
    wrap360_in (show (-360 : ℝ) ≤ 0 by norm_num) (show (0 : ℝ) ≤ 360 by norm_num)] at z3
  rw [wrap360_in (not_lt.1 fun h => hwrap (Or.inl h)) (not_lt.1 fun h => hwrap (Or.inr h))] at z3
  simp [Spatial.rotation, M3.mul, M3.rowMul, M3.T, Spatial.R_roll, Spatial.R_tilt, Spatial.R_head, V3.dot, Real.cos_add] at z3
  exact hpitch (by linarith)

example : ∃ (s : St) (disk disk' : Disk) (s1 : St) (cam : Camera.Cam) (y : Spatial.ParamsYPR), ReachX s ∧ Classes s 0 .rectilinear .none .ypr ∧
    s.camNow (fun _ _ => none) 0 = some cam ∧ cam.orient = .ypr y ∧ cam.intr.fx ≠ 0 ∧ cam.intr.fy ≠ 0 ∧
    (∀ C, s.cams 0 = some C → Plain s (.proj C.proj)) ∧ Real.sin (Spatial.rad y.pitch_deg) ≠ -Real.cos (Spatial.rad 85) ∧
    save s 0 disk "a" = (disk', .ok ()) ∧ ReachX s1 ∧ Fresh s1 0 0 0 := by
  obtain ⟨h1, h2, ⟨C, O, L, a1, a2, a3, a4, a5, a6, a7, a8, a9⟩, h4, h5, h6⟩ := mkCam_spec .start fresh0 (c := 0) .rectilinear .none .ypr
  have h' := mkCam_classes .start fresh0 (c := 0) .rectilinear .none .ypr
  have hN := (mkCam_reachN .start fresh0 (c := 0) .rectilinear .none .ypr).noBox
  have hfx := mkCam_rd St.empty 0 0 0 0 .rectilinear .none .ypr
  refine ⟨_, fun _ => none, _, St.empty, _, _, h2 .start, h'.1, by simp only [St.camNow, a1, a2, a3, a4, a5, a6, a8]; rfl, by simp only [a7]; rfl, ?_, ?_, h'.2, ?_, save_ok hN _ _ _, .start, fresh0⟩
  · simp only; rw [hfx .fx 100 rfl]; norm_num
  · simp only; rw [hfx .fy 100 rfl]; norm_num
  · simp only
    rw [(h5 .turn).2]
    have : 0 < Real.cos (Spatial.rad 85) := Real.cos_pos_of_mem_Ioo ⟨by unfold Spatial.rad; nlinarith [Real.pi_pos], by unfold Spatial.rad; nlinarith [Real.pi_pos]⟩
    simp only [OField.default, Spatial.rad, zero_mul, Real.sin_zero]
    intro e
    unfold Spatial.rad at this
    linarith

/-! ### C66 -/

/-- **C66** is violated: if the value of any parameter of the camera (other than `focallength_px`) is a 0-dimensional array,
then `save` raises a TypeError and has emptied the file, whatever it held; reading the file then is an error. -/
theorem C66_violated {s : St} {c : ℕ} {n : String} {q : Pid} (hq : (n, q) ∈ s.dict (.cam c)) (hn : n ≠ "focallength_px")
    (hv : (s.par q).value ≠ none) (hb : (s.par q).boxed = true) (disk : Disk) (name : String) :
    (save s c disk name).2 = .error .typeError ∧ (save s c disk name).1 name = some (.text "") ∧
      ∀ (s1 : St) (c' p l o : ℕ), load s1 c' p l o (save s c disk name).1 name = .error .valueError := by
  have hk : ¬ ∀ kv ∈ exports s (.cam c) (some "focallength_px"), Serialisable (s.par kv.2) := by
    intro h
    rcases h (n, q) (List.mem_filter.2 ⟨hq, by simpa using hn⟩) with h | h
    · exact hv h
    · rw [hb] at h; cases h
  have e : save s c disk name = (Function.update disk name (some (.text "")), .error .typeError) := by
    unfold save writeJson
    simp only
    rw [if_neg hk]
  rw [e]
  refine ⟨rfl, Function.update_self .., fun s1 c' p l o => ?_⟩
  simp only [load, readJson, Function.update_self, bind, Except.bind]

/-- The same for the `save` of a projection, an orientation or a lens. -/
theorem C66_violated_parts {s : St} {v : View} {n : String} {q : Pid} (hq : (n, q) ∈ s.dict v) (hn : n ≠ "focallength_px")
    (hv : (s.par q).value ≠ none) (hb : (s.par q).boxed = true) (disk : Disk) (name : String) :
    (savePart s v disk name).2 = .error .typeError ∧ (savePart s v disk name).1 name = some (.text "") := by
  have hk : ∀ skip, skip = some "focallength_px" ∨ skip = none → ¬ ∀ kv ∈ exports s v skip, Serialisable (s.par kv.2) := by
    intro skip hs h
    rcases h (n, q) (List.mem_filter.2 ⟨hq, by rcases hs with rfl | rfl <;> simp [hn]⟩) with h | h
    · exact hv h
    · rw [hb] at h; cases h
  have e : savePart s v disk name = (Function.update disk name (some (.text "")), .error .typeError) := by
    unfold savePart writeJson
    simp only
    rw [if_neg (hk _ (by cases v <;> simp [skipOf]))]
  rw [e]
  exact ⟨rfl, Function.update_self ..⟩

/-- **C66** If no 0-dimensional array was ever assigned (only `setGPSpos` with a sequence does so), `save` succeeds, and
in any case no other file changes.  Missing: `C66_violated`. -/
theorem C66_partial {s : St} (c : ℕ) (disk : Disk) (name : String) :
    (ReachN s → (save s c disk name).2 = .ok ()) ∧ ∀ name', name' ≠ name → (save s c disk name).1 name' = disk name' := by
  constructor
  · intro h; rw [save_ok h.noBox]
  · intro name' hne
    unfold save writeJson
    simp only
    split_ifs <;> simp [Function.update_of_ne hne]

example : ∃ s : St, ReachN s ∧ Classes s 0 .cylindrical .brown .ypr :=
  ⟨_, mkCam_reachN .start fresh0 _ _ _, (mkCam_classes .start fresh0 (c := 0) .cylindrical .brown .ypr).1⟩

/-! ### C67 -/

/-- What an attribute of a camera reads after an assignment of a number. -/
theorem Persist.set_getattr {s : St} (hr : Reach s) {v : View} (hv : Plain s v) {n : String} {q : Pid} (hl : (s.dict v).lookup n = some q) (hf : ∀ p, q ≠ .p p .f)
    (x : ℝ) (b : Bool) :
    (s.step (.set v n (some x) b)).getattr v n = some (some (norm360 q x)) ∧
      ∀ n' q', (s.dict v).lookup n' = some q' → q' ≠ q → (s.step (.set v n (some x) b)).getattr v n' = s.getattr v n' := by
  have hok : s.ok (.set v n (some x) b) := Or.inl (by simp)
  have hp := step_pres hr.struct hok trivial
  have hv' : Plain (s.step (.set v n (some x) b)) v := fun p P e h => hv p P e (by rw [← hp.projs]; exact h)
  constructor
  · rw [getattr_eq hv', hp.dict, hl, Option.map_some]
    unfold Param.read
    rw [(set_read hr hl x b).1]
  · intro n' q' h' hne
    rw [getattr_eq hv', getattr_eq hv, hp.dict, h', Option.map_some, Option.map_some, set_other hr hl _ _ hne fun p g _ e => absurd e (hf p)]

theorem Persist.cam_lookup_c {s : St} (hr : Reach s) {c : ℕ} {C : CObj} (hC : s.cams c = some C) (f : CField) :
    (s.dict (.cam c)).lookup f.name = some (.c c f) := by
  obtain ⟨P, O, L, -, h2, h3, -⟩ := hr.dicts.cam c C hC
  rw [cam_dict hr hC h2 h3]
  exact camDict_lookup_c _ _ _ _ _ _ f

theorem Persist.cam_lookup_elev {s : St} (hr : Reach s) {c : ℕ} {C : CObj} (hC : s.cams c = some C) :
    (s.dict (.cam c)).lookup "elevation_m" = some (.o C.orient .elev) := by
  obtain ⟨P, O, L, -, h2, h3, -⟩ := hr.dicts.cam c C hC
  have := cam_lookup_o hr.dicts hC h2 .elev
  cases hk : O.kind <;> rw [hk] at this <;> exact this

/-- The result of the assignments of `setGPSpos`. -/
theorem Persist.storeGPS_spec {s : St} (hr : Reach s) {c : ℕ} {C : CObj} (hC : s.cams c = some C) (la lo : ℝ) (b : Bool) (el : Option (ℝ × Bool)) :
    let s' := storeGPS s c (some (la, b)) (some (lo, b)) el
    Reach s' ∧ s'.getattr (.cam c) "gps_lat" = some (some la) ∧ s'.getattr (.cam c) "gps_lon" = some (some lo) ∧
      s'.getattr (.cam c) "elevation_m" = (match el with
        | some e => some (some e.1)
        | none => s.getattr (.cam c) "elevation_m") ∧ s'.dict (.cam c) = s.dict (.cam c) ∧
      (b = true → (s'.par (.c c .lat)).boxed = true ∧ (s'.par (.c c .lat)).value ≠ none) := by
  intro s'
  have hpl : ∀ s : St, Plain s (.cam c) := fun s => plain_cam s c
  have l1 := cam_lookup_c hr hC .lat
  have ok1 : s.ok (.set (.cam c) "gps_lat" (some la) b) := Or.inl (by simp)
  have p1 := step_pres hr.struct ok1 trivial
  have a1 := set_getattr hr (hpl s) l1 (by simp) la b
  have w1 := set_par hr.struct l1 (some la) b
  change Pres s (s.step (.set (.cam c) (CField.name .lat) (some la) b)) at p1
  generalize hs1 : s.step (.set (.cam c) (CField.name .lat) (some la) b) = s1 at p1 a1 w1
  have hr1 : Reach s1 := hs1 ▸ .step hr ok1
  have hC1 : s1.cams c = some C := by rw [p1.cams, hC]
  have l2 := cam_lookup_c hr1 hC1 .lon
  have ok2 : s1.ok (.set (.cam c) "gps_lon" (some lo) b) := Or.inl (by simp)
  have p2 := step_pres hr1.struct ok2 trivial
  have a2 := set_getattr hr1 (hpl s1) l2 (by simp) lo b
  have w2 := set_other hr1 l2 (some lo) b (q' := .c c .lat) (by simp) (by simp)
  change Pres s1 (s1.step (.set (.cam c) (CField.name .lon) (some lo) b)) at p2
  generalize hs2 : s1.step (.set (.cam c) (CField.name .lon) (some lo) b) = s2 at p2 a2 w2
  have hr2 : Reach s2 := hs2 ▸ .step hr1 ok2
  have hC2 : s2.cams c = some C := by rw [p2.cams, hC1]
  have v1 : s1.getattr (.cam c) "gps_lat" = some (some la) := a1.1
  have v2 : s2.getattr (.cam c) "gps_lat" = some (some la) := (a2.2 _ _ (cam_lookup_c hr1 hC1 .lat) (by simp)).trans v1
  have v3 : s2.getattr (.cam c) "gps_lon" = some (some lo) := a2.1
  have v4 : s2.getattr (.cam c) "elevation_m" = s.getattr (.cam c) "elevation_m" :=
    (a2.2 _ _ (cam_lookup_elev hr1 hC1) (by simp)).trans (a1.2 _ _ (cam_lookup_elev hr hC) (by simp))
  have v5 : s2.dict (.cam c) = s.dict (.cam c) := by rw [p2.dict, p1.dict]
  have v6 : b = true → (s2.par (.c c .lat)).boxed = true ∧ (s2.par (.c c .lat)).value ≠ none := by
    intro hb
    rw [w2, w1]
    simp [Sys.after, hb]
  cases el with
  | none =>
    have e : s' = s2 := by rw [← hs2, ← hs1]; rfl
    rw [e]
    exact ⟨hr2, v2, v3, v4, v5, v6⟩
  | some e =>
    have e' : s' = s2.step (.set (.cam c) "elevation_m" (some e.1) e.2) := by rw [← hs2, ← hs1]; rfl
    rw [e']
    have l3 := cam_lookup_elev hr2 hC2
    have ok3 : s2.ok (.set (.cam c) "elevation_m" (some e.1) e.2) := Or.inl (by simp)
    have a3 := set_getattr hr2 (hpl s2) l3 (by simp) e.1 e.2
    have w3 := set_other hr2 l3 (some e.1) e.2 (q' := .c c .lat) (by simp) (by simp)
    refine ⟨.step hr2 ok3, (a3.2 _ _ (cam_lookup_c hr2 hC2 .lat) (by simp)).trans v2, (a3.2 _ _ (cam_lookup_c hr2 hC2 .lon) (by simp)).trans v3,
      a3.1, by rw [(step_pres hr2.struct ok3 trivial).dict, v5], fun hb => ?_⟩
    rw [w3]; exact v6 hb

/-- The position that the arguments of `setGPSpos` mean, with the elevation if one is given (the third number of a sequence
is the elevation). -/
def Persist.meant (parse : String → Option ℝ → Except Err (ℝ × ℝ × Option ℝ)) (lat : GpsArg) (lon elevation : Option ℝ) : Option (ℝ × ℝ × Option ℝ) :=
  match lat, lon with
  | .num la, some lo => some (la, lo, elevation)
  | .num _, none => none
  | .tuple la lo (some h), _ => some (la, lo, some h)
  | .tuple la lo none, _ => some (la, lo, elevation)
  | .str t, _ => match parse t elevation with
    | .ok x => some x
    | .error _ => none

/-- **C67** After `setGPSpos` the camera has the latitude and the longitude that were given, and the elevation if one was
given, and otherwise the elevation is unchanged.  Missing: a sequence of two numbers with a separate elevation, see `C67_violated`; how a
text is read is the subject of C45–C48. -/
theorem C67_stores_partial (parse : String → Option ℝ → Except Err (ℝ × ℝ × Option ℝ)) {s : St} (hr : Reach s) {c : ℕ} {C : CObj} (hC : s.cams c = some C)
    {lat : GpsArg} {lon elevation : Option ℝ} {la lo : ℝ} {el : Option ℝ} (hm : meant parse lat lon elevation = some (la, lo, el))
    (hx : ∀ x y, lat = .tuple x y none → elevation = none) :
    ∃ s', setGPSpos parse s c lat lon elevation = .ok s' ∧ Reach s' ∧ s'.getattr (.cam c) "gps_lat" = some (some la) ∧
      s'.getattr (.cam c) "gps_lon" = some (some lo) ∧
      s'.getattr (.cam c) "elevation_m" = el.elim (s.getattr (.cam c) "elevation_m") fun e => some (some e) := by
  have key : ∀ b, ∃ s', (Except.ok (storeGPS s c (some (la, b)) (some (lo, b)) (el.map fun e => (e, b))) : Except Err St) = .ok s' ∧
      Reach s' ∧ s'.getattr (.cam c) "gps_lat" = some (some la) ∧ s'.getattr (.cam c) "gps_lon" = some (some lo) ∧
      s'.getattr (.cam c) "elevation_m" = el.elim (s.getattr (.cam c) "elevation_m") fun e => some (some e) := by
    intro b
    obtain ⟨h1, h2, h3, h4, -⟩ := storeGPS_spec hr hC la lo b (el.map fun e => (e, b))
    refine ⟨_, rfl, h1, h2, h3, ?_⟩
    rw [h4]
    cases el <;> rfl
  cases lat with
  | num x =>
    cases lon with
    | none => simp [meant] at hm
    | some y =>
      simp only [meant, Option.some.injEq, Prod.mk.injEq] at hm
      obtain ⟨rfl, rfl, rfl⟩ := hm
      exact key false
  | tuple x y h =>
    cases h with
    | some h =>
      simp only [meant, Option.some.injEq, Prod.mk.injEq] at hm
      obtain ⟨rfl, rfl, rfl⟩ := hm
      exact key true
    | none =>
      simp only [meant, Option.some.injEq, Prod.mk.injEq] at hm
      obtain ⟨rfl, rfl, rfl⟩ := hm
      obtain rfl := hx x y rfl
      exact key true
  | str t =>
    simp only [meant] at hm
    cases hp : parse t elevation with
    | error e => rw [hp] at hm; cases hm
    | ok z =>
      rw [hp] at hm
      simp only [Option.some.injEq] at hm
      subst hm
      simp only [setGPSpos, hp, bind, Except.bind, pure, Except.pure]
      exact key false

example : ∃ (s : St) (C : CObj), Reach s ∧ s.cams 0 = some C ∧
    meant (fun _ _ => .error .typeError) (.num 1) (some 2) (some 3) = some (1, 2, some 3) ∧ ∀ x y, GpsArg.num 1 = .tuple x y none → (some 3 : Option ℝ) = none := by
  obtain ⟨C, hC, -⟩ := Ex.s4_cams
  exact ⟨_, C, Ex.reachX4.reach, hC, rfl, by simp⟩

/-- **C67** is violated: `setGPSpos((lat, lon), elevation=e)` drops the elevation. -/
theorem C67_violated (parse : String → Option ℝ → Except Err (ℝ × ℝ × Option ℝ)) {s : St} (hr : Reach s) {c : ℕ} {C : CObj} (hC : s.cams c = some C)
    (la lo : ℝ) (lon elevation : Option ℝ) :
    ∃ s', setGPSpos parse s c (.tuple la lo none) lon elevation = .ok s' ∧ s'.getattr (.cam c) "elevation_m" = s.getattr (.cam c) "elevation_m" := by
  obtain ⟨h1, h2, h3, h4, -⟩ := storeGPS_spec hr hC la lo true none
  exact ⟨_, rfl, h4⟩

/-- **C66** is violated after every call of `setGPSpos` with a sequence: the next `save` raises and the file is empty. -/
theorem C66_violated_gps (parse : String → Option ℝ → Except Err (ℝ × ℝ × Option ℝ)) {s : St} (hr : Reach s) {c : ℕ} {C : CObj} (hC : s.cams c = some C)
    (la lo : ℝ) (h lon elevation : Option ℝ) :
    ∃ s', setGPSpos parse s c (.tuple la lo h) lon elevation = .ok s' ∧ Reach s' ∧ ∀ disk name,
      (save s' c disk name).2 = .error .typeError ∧ (save s' c disk name).1 name = some (.text "") := by
  obtain ⟨h1, h2, h3, h4, h5, h6⟩ := storeGPS_spec hr hC la lo true (h.map fun e => (e, true))
  refine ⟨_, rfl, h1, fun disk name => ?_⟩
  obtain ⟨e1, e2⟩ := h6 rfl
  have hm := C66_violated (by rw [h5]; exact lookup_mem (cam_lookup_c hr hC .lat)) (by simp [CField.name]) e2 e1 disk name
  exact ⟨hm.1, hm.2.1⟩

/- the hypotheses of `C66_violated`, `C66_violated_parts`, `C67_violated` and `C66_violated_gps` hold -/
example (parse : String → Option ℝ → Except Err (ℝ × ℝ × Option ℝ)) : ∃ (s s' : St) (C : CObj) (q : Pid), Reach s ∧ s.cams 0 = some C ∧
    setGPSpos parse s 0 (.tuple 49 11 none) none none = .ok s' ∧ ("gps_lat", q) ∈ s'.dict (.cam 0) ∧ (s'.par q).value ≠ none ∧ (s'.par q).boxed = true := by
  obtain ⟨h1, -, ⟨C, O, L, a1, -⟩, -⟩ := mkCam_spec .start fresh0 (c := 0) .cylindrical .brown .ypr
  obtain ⟨-, -, -, -, h5, h6⟩ := storeGPS_spec h1 a1 49 11 true none
  have hm := lookup_mem (cam_lookup_c h1 a1 .lat)
  rw [← h5] at hm
  exact ⟨_, _, C, _, h1, a1, rfl, hm, (h6 rfl).2, (h6 rfl).1⟩

/-! ### C91 -/

/-- **C91** is violated: in every camera that was loaded from a file, `sample()` and `set_to_mean()` reset both focal
lengths to 100, whatever was saved, although no parameter has an uncertainty. -/
theorem C91_violated {s : St} (hr : Reach s) {c : ℕ} {kp : Projection.Kind} {kl : LKind} {ko : OKind} (hcls : Classes s c kp kl ko)
    {disk disk' : Disk} {name : String} (hsave : save s c disk name = (disk', .ok ())) {s1 : St} (hr1 : Reach s1) {p l o : ℕ} (hF : Fresh s1 p l o)
    (c' : ℕ) :
    ∃ s', load s1 c' p l o disk' name = .ok s' ∧
      s'.getattr (.cam c') "focallength_x_px" = s.getattr (.cam c) "focallength_x_px" ∧
      s'.getattr (.cam c') "focallength_y_px" = s.getattr (.cam c) "focallength_y_px" ∧
      (∀ draw order, s'.ok (.sample (.cam c') draw order) →
        (s'.step (.sample (.cam c') draw order)).getattr (.cam c') "focallength_x_px" = some (some 100) ∧
        (s'.step (.sample (.cam c') draw order)).getattr (.cam c') "focallength_y_px" = some (some 100)) ∧
      ∀ order, s'.ok (.toMean (.cam c') order) →
        (s'.step (.toMean (.cam c') order)).getattr (.cam c') "focallength_x_px" = some (some 100) ∧
        (s'.step (.toMean (.cam c') order)).getattr (.cam c') "focallength_y_px" = some (some 100) := by
  obtain ⟨C, P, L, O, hC, hP, hL, hO, rfl, rfl, hk⟩ := hcls
  refine ⟨_, load_eq hC hP hL hsave s1 c' p l o, ?_⟩
  obtain ⟨-, -, -, -, -, c1, c2⟩ := loadInit_spec hr1 hF (c := c') P.kind L.kind
  have c3 := mkCam_f hr1 hF (c := c') P.kind L.kind .thr
  generalize hs' : assignAll (loadInit s1 c' p l o P.kind L.kind) (.cam c') ((exports s (.cam c) (some "focallength_px")).map fun kv => (kv.1, s.rd kv.2)) = s'
  obtain ⟨a1, a2, a3, a4, a5, -⟩ := load_rd hr hC hO hL hr1 hF (c' := c') hs'.symm
  obtain ⟨C', O', L', b1, b2, b3, b4, b5, b6, b7, b8, b9⟩ := load_classes hr1 hF a3
  have hv : (s'.par (.p p .f)).value = some 100 := by rw [a5]; exact c3
  have hm : (s'.par (.p p .f)).mean = none := by rw [a5, c2]
  have lk : ∀ f : PField, (s'.dict (.cam c')).lookup f.name = some (.p p f) := fun f => b2 ▸ cam_lookup_p a1.dicts b1 f
  have hPn : s'.projs p ≠ none := by rw [b5]; simp
  have hread : ∀ f : PField, f ≠ .f → s'.getattr (.cam c') f.name = s.getattr (.cam c) f.name := by
    intro f hf
    rw [getattr_eq (plain_cam _ _), getattr_eq (plain_cam _ _), lk, cam_lookup_p hr.dicts hC, Option.map_some, Option.map_some, read_rd a1, read_rd hr]
    have := a4 (.p f) trivial (by simpa using hf)
    rw [if_neg (by simp)] at this
    exact congrArg _ (congrArg _ this)
  have hS : ∀ draw order, s'.ok (.sample (.cam c') draw order) → ∀ g, IsF g →
      (s'.step (.sample (.cam c') draw order)).getattr (.cam c') g.name = some (some 100) := by
    intro draw order hok g hg
    have hpr : Pres s' (s'.step (.sample (.cam c') draw order)) := step_pres a1.struct hok trivial
    rw [getattr_eq (plain_cam _ _), hpr.dict, lk, Option.map_some, read_value (.step a1 hok) (by rw [hpr.projs]; exact hPn) (by rcases hg with rfl | rfl <;> rfl),
      sample_par a1.struct hok, after_f _ _ _ hg, if_pos (focal_in_order a1 hok.2 (lk .f))]
    simp only
    rw [sampleLoop_par, if_neg (by rw [hm]; simp), hv]
  have hM : ∀ order, s'.ok (.toMean (.cam c') order) → ∀ g, IsF g →
      (s'.step (.toMean (.cam c') order)).getattr (.cam c') g.name = some (some 100) := by
    intro order hok g hg
    have hpr : Pres s' (s'.step (.toMean (.cam c') order)) := step_pres a1.struct hok trivial
    rw [getattr_eq (plain_cam _ _), hpr.dict, lk, Option.map_some, read_value (.step a1 hok) (by rw [hpr.projs]; exact hPn) (by rcases hg with rfl | rfl <;> rfl),
      toMean_par a1.struct hok, after_f _ _ _ hg, if_pos (focal_in_order a1 hok.2 (lk .f))]
    simp only
    rw [meanLoop_par, if_neg (by rw [hm]; simp), hv]
  exact ⟨hread .fx (by simp), hread .fy (by simp), fun draw order hok => ⟨hS draw order hok .fx (Or.inl rfl), hS draw order hok .fy (Or.inr rfl)⟩,
    fun order hok => ⟨hM order hok .fx (Or.inl rfl), hM order hok .fy (Or.inr rfl)⟩⟩

example : ∃ (s : St) (disk disk' : Disk) (s1 : St), Reach s ∧ Classes s 0 .cylindrical .brown .ypr ∧ save s 0 disk "a" = (disk', .ok ()) ∧
    Reach s1 ∧ Fresh s1 0 0 0 ∧ s.getattr (.cam 0) "focallength_x_px" = some (some 70) := by
  obtain ⟨h1, h2, ⟨C, O, L, a1, a2, -⟩, h4, h5, h6⟩ := mkCam_spec .start fresh0 (c := 0) .cylindrical .brown .ypr
  have hN := mkCam_reachN .start fresh0 (c := 0) .cylindrical .brown .ypr
  have hc := (mkCam_classes .start fresh0 (c := 0) .cylindrical .brown .ypr).1
  generalize mkCam St.empty 0 0 0 0 .cylindrical .brown .ypr = s at *
  have ok : s.ok (.set (.cam 0) "focallength_x_px" (some 70) false) := Or.inl (by simp)
  have hp := step_pres h1.struct ok trivial
  have hN' : ReachN (s.step (.set (.cam 0) "focallength_x_px" (some 70) false)) := .step hN ok rfl
  refine ⟨_, fun _ => none, _, _, hN'.reach, ?_, save_ok hN'.noBox _ _ _, .start, fresh0,
    (set_getattr h1 (plain_cam _ _) (cam_lookup_p h1.dicts a1 .fx) (by simp) 70 false).1⟩
  obtain ⟨C', P', L', O', g1, g2, g3, g4, g5, g6, g7⟩ := hc
  have ho := hp.orients C'.orient
  have hl := hp.lenses C'.lens
  rw [g4] at ho
  rw [g3] at hl
  obtain ⟨O'', e1, e2⟩ := Option.map_eq_some_iff.1 ho
  obtain ⟨L'', e3, e4⟩ := Option.map_eq_some_iff.1 hl
  simp only [Prod.mk.injEq] at e4
  exact ⟨C', P', L'', O'', by rw [hp.cams]; exact g1, by rw [hp.projs]; exact g2, e3, e1, g5, e4.1.trans g6, e2.trans g7⟩

/-! ### C92 -/

theorem Persist.oname_inj (k : OKind) : ∀ a ∈ OField.all, ∀ b ∈ OField.all, a.name k = b.name k → a = b := by
  intro a _ b _ h
  cases k <;> cases a <;> cases b <;> first | rfl | (simp [OField.name] at h)

theorem Persist.pname_inj : ∀ a ∈ PField.all, ∀ b ∈ PField.all, a.name = b.name → a = b := by
  intro a _ b _ h
  cases a <;> cases b <;> first | rfl | (simp [PField.name] at h)

/-- **C92** The orientation: saving one and loading the file into another orientation of the same class copies all parameters
and with them the matrices, and changes nothing else. -/
theorem C92_orientation {s : St} (hr : Reach s) {o : ℕ} {O : OObj} (hO : s.orients o = some O) {disk disk' : Disk} {name : String}
    (hsave : savePart s (.orient o) disk name = (disk', .ok ())) {s1 : St} (hr1 : Reach s1) {o' : ℕ} {O' : OObj} (hO' : s1.orients o' = some O')
    (hk : O'.kind = O.kind) :
    ∃ s' O'', loadPart s1 (.orient o') disk' name = .ok s' ∧ Reach s' ∧ (∀ n, s'.getattr (.orient o') n = s.getattr (.orient o) n) ∧
      s'.orients o' = some O'' ∧ O''.kind = O.kind ∧ O''.mat = O.mat ∧ ∀ q, (∀ f, q ≠ .o o' f) → s'.par q = s1.par q := by
  have hd : s.dict (.orient o) = OField.all.map fun f => (f.name O.kind, .o o f) := by simp only [St.dict, hO, orientDict]
  have hd' : s1.dict (.orient o') = OField.all.map fun f => (f.name O.kind, .o o' f) := by simp only [St.dict, hO', orientDict, hk]
  set vals := (exports s (.orient o) (skipOf (.orient o))).map fun kv => (kv.1, attrOf s (.orient o) kv.1) with hvals
  have hv : ∀ nx, nx ∈ vals ↔ ∃ f ∈ OField.all, True ∧ nx = (f.name O.kind, s.rd (.o o f)) := by
    intro nx
    simp only [hvals, exports, skipOf, hd, List.mem_map, List.mem_filter]
    constructor
    · rintro ⟨kv, ⟨⟨f, hf, rfl⟩, -⟩, rfl⟩
      exact ⟨f, hf, trivial, by rw [attrOf_eq hr (plain_orient _ _) (orient_lookup hO f)]⟩
    · rintro ⟨f, hf, -, rfl⟩
      exact ⟨(f.name O.kind, .o o f), ⟨⟨f, hf, rfl⟩, by simp⟩, by rw [attrOf_eq hr (plain_orient _ _) (orient_lookup hO f)]⟩
  obtain ⟨c1, c2⟩ := copy_lastOf OField.all (fun f => f.name O.kind) (fun f => .o o' f) (fun f => s.rd (.o o f)) (fun _ => True) (oname_inj O.kind)
    (fun a _ b _ e => by cases e; rfl) hv
  rw [← hd'] at c1 c2
  obtain ⟨a1, -, a3, a4, a5, -⟩ := assignAll_spec (v := .orient o') vals hr1 (by
    intro nx _ p' e
    rw [hd'] at e
    obtain ⟨f, -, -, e'⟩ := lookup_map _ _ _ e
    cases e')
  have hall : ∀ f, f ∈ OField.all := fun f => by cases f <;> simp [OField.all]
  have hrd : ∀ f, (assignAll s1 (.orient o') vals).rd (.o o' f) = s.rd (.o o f) := by
    intro f
    rw [a4, c1 f (hall f), if_pos trivial]
    apply norm360_same
    intro ht
    cases f <;> first | exact ht.elim | exact not_out hr hO
  have ho := a3.orients o'
  rw [hO'] at ho
  obtain ⟨O'', e1, e2⟩ := Option.map_eq_some_iff.1 ho
  refine ⟨_, O'', by simp only [loadPart, readJson, savePart_eq hsave, bind, Except.bind, pure, Except.pure]; rfl, a1, fun n => ?_, e1, e2.trans hk, ?_, fun q hq => a5 q (c2 q fun f _ => hq f)⟩
  · rw [getattr_eq (plain_orient _ _), getattr_eq (plain_orient _ _), a3.dict, hd, hd']
    by_cases h : ∃ f, n = OField.name O.kind f
    · obtain ⟨f, rfl⟩ := h
      rw [lookup_map_inj OField.all _ _ (oname_inj O.kind) (hall f), lookup_map_inj OField.all _ _ (oname_inj O.kind) (hall f), Option.map_some, Option.map_some,
        read_rd a1, read_rd hr, hrd]
    · push Not at h
      rw [lookup_map_none _ _ _ fun f _ => h f, lookup_map_none _ _ _ fun f _ => h f]
      rfl
  · rw [(a1.inv.fresh o' O'' e1).1, (hr.inv.fresh o O hO).1, e2, hk]
    unfold St.matOf
    cases O.kind <;> simp only [hrd]

example : ∃ (s : St) (O : OObj) (disk disk' : Disk), Reach s ∧ s.orients 0 = some O ∧ savePart s (.orient 0) disk "a" = (disk', .ok ()) := by
  obtain ⟨h1, h2, ⟨C, O, L, a1, a2, a3, a4, a5, a6, -⟩, -⟩ := mkCam_spec .start fresh0 (c := 0) .cylindrical .brown .ypr
  exact ⟨_, O, fun _ => none, _, h1, a6, savePart_ok (mkCam_reachN .start fresh0 _ _ _).noBox _ _ _⟩

/-- **C92** The projection: saving one and loading the file into another projection that was not built from a field of
view copies all parameters but `focallength_px`, and changes nothing else.  Missing: targets that were built from a field
of view, whose image size cannot be changed (C53). -/
theorem C92_projection_partial {s : St} (hr : Reach s) {p : ℕ} {P : PObj} (hP : s.projs p = some P) {disk disk' : Disk} {name : String}
    (hsave : savePart s (.proj p) disk name = (disk', .ok ())) {s1 : St} (hr1 : Reach s1) {p' : ℕ} {P' : PObj} (hP' : s1.projs p' = some P')
    (hpl : P'.attr = none) :
    ∃ s', loadPart s1 (.proj p') disk' name = .ok s' ∧ Reach s' ∧
      (∀ n, n ≠ "focallength_px" → s'.getattr (.proj p') n = s.getattr (.proj p) n) ∧
      ∀ q, (∀ f, q ≠ .p p' f) ∨ q = .p p' .f → s'.par q = s1.par q := by
  have hd : s.dict (.proj p) = PField.all.map fun f => (f.name, .p p f) := by simp only [St.dict, hP, projDict]
  have hd' : s1.dict (.proj p') = PField.all.map fun f => (f.name, .p p' f) := by simp only [St.dict, hP', projDict]
  have hpl' : Plain s1 (.proj p') := by intro p2 P2 e h; cases e; rw [hP'] at h; cases h; exact hpl
  set vals := (exports s (.proj p) (skipOf (.proj p))).map fun kv => (kv.1, attrOf s (.proj p) kv.1) with hvals
  have hnf : ∀ f : PField, f.name = "focallength_px" ↔ f = .f := by intro f; cases f <;> simp [PField.name]
  have hv : ∀ nx, nx ∈ vals ↔ ∃ f ∈ PField.all, f ≠ .f ∧ nx = (f.name, attrOf s (.proj p) f.name) := by
    intro nx
    simp only [hvals, exports, skipOf, hd, List.mem_map, List.mem_filter]
    constructor
    · rintro ⟨kv, ⟨⟨f, hf, rfl⟩, h⟩, rfl⟩
      exact ⟨f, hf, fun e => by simp [(hnf f).2 e] at h, rfl⟩
    · rintro ⟨f, hf, h, rfl⟩
      exact ⟨(f.name, .p p f), ⟨⟨f, hf, rfl⟩, by simpa using fun e => h ((hnf f).1 e)⟩, rfl⟩
  obtain ⟨c1, c2⟩ := copy_lastOf PField.all (fun f => f.name) (fun f => .p p' f) (fun f => attrOf s (.proj p) f.name) (fun f => f ≠ .f) pname_inj
    (fun a _ b _ e => by cases e; rfl) hv
  rw [← hd'] at c1 c2
  obtain ⟨a1, -, a3, a4, a5, -⟩ := assignAll_spec (v := .proj p') vals hr1 (by
    intro nx hnx p2 e
    obtain ⟨f, hf, hff, rfl⟩ := (hv _).1 hnx
    rw [hd'] at e
    simp only at e
    rw [lookup_map_inj PField.all _ _ pname_inj hf] at e
    cases e; exact hff rfl)
  have hall : ∀ f, f ∈ PField.all := fun f => by cases f <;> simp [PField.all]
  have hpl2 : Plain (assignAll s1 (.proj p') vals) (.proj p') := fun p2 P2 e h => hpl' p2 P2 e (by rw [← a3.projs]; exact h)
  refine ⟨_, by simp only [loadPart, readJson, savePart_eq hsave, bind, Except.bind, pure, Except.pure]; rfl, a1, fun n hn => ?_, fun q hq => ?_⟩
  · by_cases h : ∃ f : PField, n = f.name
    · obtain ⟨f, rfl⟩ := h
      have hf : f ≠ .f := fun e => hn ((hnf f).2 e)
      have hsome : ∃ x, s.getattr (.proj p) f.name = some (some x) := by
        have hl : ((s.dict (.proj p)).lookup f.name).map (fun q => (s.par q).read) = some (some (s.rd (.p p f))) := by
          rw [proj_lookup hP, Option.map_some, read_rd hr]
        obtain ⟨k, a⟩ := P
        cases a with
        | none => simp only [St.getattr, hP]; exact ⟨_, hl⟩
        | some wh =>
          obtain ⟨w, h⟩ := wh
          simp only [St.getattr, hP]
          split_ifs
          · exact ⟨_, rfl⟩
          · exact ⟨_, rfl⟩
          · exact ⟨_, hl⟩
      obtain ⟨x, hx⟩ := hsome
      rw [getattr_eq hpl2, a3.dict, hd', lookup_map_inj PField.all _ _ pname_inj (hall f), Option.map_some, read_rd a1, a4, c1 f (hall f), if_pos hf]
      simp only
      rw [norm360_not (by simp [IsTurn]), hx]
      simp only [attrOf, hx]; rfl
    · push Not at h
      rw [getattr_eq hpl2, getattr_other (h .iw) (h .ih), a3.dict, hd, hd', lookup_map_none _ _ _ fun f _ => h f, lookup_map_none _ _ _ fun f _ => h f]
      rfl
  · rcases hq with hq | rfl
    · exact a5 q (c2 q fun f _ => hq f)
    · exact a5 _ ((c1 .f (hall .f)).trans (if_neg (by simp)))

example : ∃ (s : St) (P : PObj) (disk disk' : Disk), Reach s ∧ s.projs 0 = some P ∧ savePart s (.proj 0) disk "a" = (disk', .ok ()) ∧ P.attr = none := by
  obtain ⟨h1, h2, ⟨C, O, L, a1, a2, a3, a4, a5, a6, -⟩, -⟩ := mkCam_spec .start fresh0 (c := 0) .cylindrical .brown .ypr
  exact ⟨_, _, fun _ => none, _, h1, a5, savePart_ok (mkCam_reachN .start fresh0 _ _ _).noBox _ _ _, rfl⟩

/-- **C92** is violated for lenses: `load` of a lens file copies the coefficients, and also overwrites the focal lengths, the
centre and the image size of the projection the target lens is used with by those of the projection of the saved lens. -/
theorem C92_violated_lens {s : St} (hr : Reach s) {l p : ℕ} {L : LObj} (hL : s.lenses l = some L) (hk : L.kind ≠ .none) (hp : L.proj = some p)
    {disk disk' : Disk} {name : String} (hsave : savePart s (.lens l) disk name = (disk', .ok ())) {s1 : St} (hr1 : Reach s1) {l' p' : ℕ} {L' : LObj}
    (hL' : s1.lenses l' = some L') (hk' : L'.kind = L.kind) (hp' : L'.proj = some p') :
    ∃ s', loadPart s1 (.lens l') disk' name = .ok s' ∧ Reach s' ∧
      (∀ f : LField, s'.getattr (.lens l') (f.name L.kind) = s.getattr (.lens l) (f.name L.kind)) ∧
      ∀ f ∈ PField.lens, s'.rd (.p p' f) = s.rd (.p p f) := by
  let nm : LField ⊕ PField → String := Sum.elim (fun f => f.name L.kind) (fun f => f.name)
  let K : List (LField ⊕ PField) := LField.all.map .inl ++ PField.lens.map .inr
  let Q : ℕ → ℕ → LField ⊕ PField → Pid := fun l p => Sum.elim (fun f => .l l f) (fun f => .p p f)
  have hK : ∀ l p, lensDict L.kind l (some p) = K.map fun a => (nm a, Q l p a) := by
    intro l p
    cases hkl : L.kind with
    | none => exact absurd hkl hk
    | _ => simp [lensDict, K, nm, Q, hkl, Function.comp_def]
  have hd : s.dict (.lens l) = K.map fun a => (nm a, Q l p a) := by simp only [St.dict, hL, hp, hK]
  have hd' : s1.dict (.lens l') = K.map fun a => (nm a, Q l' p' a) := by simp only [St.dict, hL', hp', hk', hK]
  have hn : ∀ a ∈ K, ∀ b ∈ K, nm a = nm b → a = b := by
    intro a _ b _ h
    rcases a with a | a <;> rcases b with b | b <;> simp only [nm, Sum.elim_inl, Sum.elim_inr] at h
    · cases hkl : L.kind <;> rw [hkl] at h <;> cases a <;> cases b <;> first | rfl | (simp [LField.name] at h)
    · cases hkl : L.kind <;> rw [hkl] at h <;> cases a <;> cases b <;> (simp [LField.name, PField.name] at h)
    · cases hkl : L.kind <;> rw [hkl] at h <;> cases a <;> cases b <;> (simp [LField.name, PField.name] at h)
    · cases a <;> cases b <;> first | rfl | (simp [PField.name] at h)
  have hq : ∀ a ∈ K, ∀ b ∈ K, Q l' p' a = Q l' p' b → a = b := by
    intro a _ b _ h
    rcases a with a | a <;> rcases b with b | b <;> simp only [Q, Sum.elim_inl, Sum.elim_inr] at h <;> cases h <;> rfl
  have hlk : ∀ a ∈ K, (s.dict (.lens l)).lookup (nm a) = some (Q l p a) := fun a ha => by rw [hd]; exact lookup_map_inj K nm _ hn ha
  set vals := (exports s (.lens l) (skipOf (.lens l))).map fun kv => (kv.1, attrOf s (.lens l) kv.1) with hvals
  have hv : ∀ nx, nx ∈ vals ↔ ∃ a ∈ K, True ∧ nx = (nm a, s.rd (Q l p a)) := by
    intro nx
    simp only [hvals, exports, skipOf, List.mem_map, List.mem_filter]
    constructor
    · rintro ⟨kv, ⟨h, -⟩, rfl⟩
      rw [hd, List.mem_map] at h
      obtain ⟨a, ha, rfl⟩ := h
      exact ⟨a, ha, trivial, by rw [attrOf_eq hr (plain_lens _ _) (hlk a ha)]⟩
    · rintro ⟨a, ha, -, rfl⟩
      exact ⟨(nm a, Q l p a), ⟨lookup_mem (hlk a ha), by simp⟩, by rw [attrOf_eq hr (plain_lens _ _) (hlk a ha)]⟩
  obtain ⟨c1, c2⟩ := copy_lastOf K nm (Q l' p') (fun a => s.rd (Q l p a)) (fun _ => True) hn hq hv
  rw [← hd'] at c1 c2
  obtain ⟨a1, -, a3, a4, a5, -⟩ := assignAll_spec (v := .lens l') vals hr1 (by
    intro nx hnx p2 e
    obtain ⟨a, ha, -, rfl⟩ := (hv _).1 hnx
    rw [hd'] at e
    simp only at e
    rw [lookup_map_inj K nm _ hn ha] at e
    have e := Option.some.inj e
    rcases a with a | a
    · cases e
    · simp only [Q, Sum.elim_inr, Pid.p.injEq] at e
      simp only [K, List.mem_append, List.mem_map, reduceCtorEq, and_false, exists_false, Sum.inr.injEq, exists_eq_right, false_or] at ha
      rw [e.2] at ha
      simp [PField.lens] at ha)
  have hrd : ∀ a ∈ K, (assignAll s1 (.lens l') vals).rd (Q l' p' a) = s.rd (Q l p a) := by
    intro a ha
    rw [a4, c1 a ha, if_pos trivial]
    simp only
    apply norm360_not
    rcases a with a | a <;> simp [Q, IsTurn]
  refine ⟨_, by simp only [loadPart, readJson, savePart_eq hsave, bind, Except.bind, pure, Except.pure]; rfl, a1, fun f => ?_, fun f hf => ?_⟩
  · have ha : (Sum.inl f : LField ⊕ PField) ∈ K := by
      simp only [K, List.mem_append, List.mem_map, Sum.inl.injEq, exists_eq_right, reduceCtorEq, and_false, exists_false, or_false]
      cases f <;> simp [LField.all]
    have := hlk _ ha
    rw [getattr_eq (plain_lens _ _), getattr_eq (plain_lens _ _), a3.dict, show f.name L.kind = nm (Sum.inl f) from rfl, this, hd', lookup_map_inj K nm _ hn ha,
      Option.map_some, Option.map_some, read_rd a1, read_rd hr, hrd _ ha]
  · exact hrd (Sum.inr f) (by simp [K, hf])

example : ∃ (s : St) (L : LObj) (disk disk' : Disk), Reach s ∧ s.lenses 0 = some L ∧ L.kind ≠ .none ∧ L.proj = some 0 ∧
    savePart s (.lens 0) disk "a" = (disk', .ok ()) := by
  obtain ⟨L, h1, h2, h3⟩ := Ex.s4_lens
  have hN : ReachN Ex.s4 := .step (.step (.step (.step .start Ex.ok1 trivial) Ex.ok2 trivial) Ex.ok3 trivial) Ex.ok4 trivial
  exact ⟨_, L, fun _ => none, _, hN.reach, h1, by rw [h2]; simp, h3, savePart_ok hN.noBox _ _ _⟩
