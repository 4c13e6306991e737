import Verif.Props.Persist

/-! # `load_camera` (C64) -/

set_option linter.constructorNameAsVariable false

open Classical Sys Persist

/-- The camera that `load_camera` makes before it loads the file. -/
theorem Persist.first_camera {s : St} (hr : Reach s) {c p0 o0 l0 : ℕ} (h0 : Fresh s p0 l0 o0) {p l o : ℕ} (hF : Fresh s p l o)
    (hp : p ≠ p0) (hl : l ≠ l0) (ho : o ≠ o0) :
    let s' := (((s.step (.newProj p0 .rectilinear initArgs false)).step (.newOrient o0 .thr fun _ => none)).step
      (.newLens l0 .none fun _ => none)).step (.newCam c p0 o0 l0)
    Reach s' ∧ (ReachX s → ReachX s') ∧ Fresh s' p l o := by
  intro s'
  set s1 := s.step (.newProj p0 .rectilinear initArgs false) with h1
  set s2 := s1.step (.newOrient o0 .thr fun _ => none) with h2
  set s3 := s2.step (.newLens l0 .none fun _ => none) with h3
  have ok1 : s.ok (.newProj p0 .rectilinear initArgs false) := ⟨h0.p, fun f => by cases f <;> simp [initArgs, PField.default]⟩
  have r1 : Reach s1 := .step hr ok1
  have k1 : s1.projs p0 = some ⟨.rectilinear, none⟩ := by simp [h1, St.step, St.newProj]
  have ok2 : s1.ok (.newOrient o0 .thr fun _ => none) := h0.o
  have r2 : Reach s2 := .step r1 ok2
  have k2 : s2.projs p0 = some ⟨.rectilinear, none⟩ := (step_keep r1.struct ok2).projs _ _ k1
  obtain ⟨O2, e2, -⟩ := newOrient_kind s1 o0 .thr fun _ => none
  have l2 : s2.lenses = s1.lenses := runMatrix_lenses (preOrient s1 o0 .thr fun _ => none) o0
  have ok3 : s2.ok (.newLens l0 .none fun _ => none) := by
    show s2.lenses l0 = none
    rw [l2]; exact h0.l
  have r3 : Reach s3 := .step r2 ok3
  have k3 : s3.projs p0 = some ⟨.rectilinear, none⟩ := (step_keep r2.struct ok3).projs _ _ k2
  have o3 : s3.orients = s2.orients := runLens_orients (preLens s2 l0 .none fun _ => none) l0
  obtain ⟨L3, e3, e3', -⟩ := newLens_kind s2 l0 .none fun _ => none
  change s3.lenses l0 = some L3 at e3
  change s2.orients o0 = some O2 at e2
  have ok4 : s3.ok (.newCam c p0 o0 l0) := ⟨by rw [k3]; simp, by rw [o3, e2]; simp, by rw [e3]; simp⟩
  have hset : s3.setProjection l0 p0 = s3 := setProjection_none fun L hL => by rw [e3] at hL; cases hL; exact e3'
  refine ⟨.step r3 ok4, fun hx => .step (.step (.step (.step hx ok1 trivial) ok2 trivial) ok3 trivial) ok4 ?_, ?_, ?_, ?_⟩
  · intro L hL hk
    rw [e3] at hL; cases hL
    exact absurd e3' hk
  · have a : s'.projs = (s3.setProjection l0 p0).projs := rfl
    have b : s3.projs = s2.projs := runLens_projs (preLens s2 l0 .none fun _ => none) l0
    have d : s2.projs = s1.projs := runMatrix_projs (preOrient s1 o0 .thr fun _ => none) o0
    rw [a, hset, b, d]
    simp only [h1, St.step, St.newProj, Function.update_apply, if_neg hp]
    exact hF.p
  · have a : s'.lenses = (s3.setProjection l0 p0).lenses := rfl
    have b : s3.lenses l = (preLens s2 l0 .none fun _ => none).lenses l := runLens_lenses_ne _ hl
    rw [a, hset, b]
    simp only [preLens, Function.update_apply, if_neg hl]
    rw [l2]; exact hF.l
  · have a : s'.orients = (s3.setProjection l0 p0).orients := rfl
    have b : s2.orients o = (preOrient s1 o0 .thr fun _ => none).orients o := runMatrix_orients_ne _ ho
    rw [a, hset, o3, b]
    simp only [preOrient, Function.update_apply, if_neg ho]
    exact hF.o

/-- **C64** `load_camera` of a saved file gives a camera that reads the same for every name but `focallength_px`. -/
theorem C64_load_camera_partial {s : St} (hr : Reach s) {c : ℕ} {kp : Projection.Kind} {kl : LKind} (hcls : Classes s c kp kl .thr)
    {disk disk' : Disk} {name : String} (hsave : save s c disk name = (disk', .ok ())) {s1 : St} (hr1 : Reach s1) {p0 l0 o0 p l o : ℕ}
    (h0 : Fresh s1 p0 l0 o0) (hF : Fresh s1 p l o) (hp : p ≠ p0) (hl : l ≠ l0) (ho : o ≠ o0) (c' : ℕ) :
    ∃ s', loadCamera s1 c' p0 o0 l0 p l o disk' name = .ok s' ∧ Reach s' ∧ Classes s' c' kp kl .thr ∧
      (∀ n, n ≠ "focallength_px" → s'.getattr (.cam c') n = s.getattr (.cam c) n) ∧
      (∀ spline, s'.camNow spline c' = s.camNow spline c) ∧
      (ReachX s → ReachX s1 → (∀ C, s.cams c = some C → Plain s (.proj C.proj)) → ∀ spline,
        (∀ pt hide, s'.imageFromSpace spline c' pt hide = s.imageFromSpace spline c pt hide) ∧
        ∀ pt normed, s'.getRay spline c' pt normed = s.getRay spline c pt normed) := by
  obtain ⟨r, rx, f⟩ := first_camera hr1 (c := c') h0 hF hp hl ho
  obtain ⟨s', e, a1, a2, a3, a4, a5⟩ := C64_save_load_partial hr hcls hsave r f c'
  exact ⟨s', e, a1, a2, a3, a4, fun hx hx1 => a5 hx (rx hx1)⟩

example : ∃ (s : St) (disk disk' : Disk) (s1 : St), Reach s ∧ Classes s 0 .cylindrical .brown .thr ∧ save s 0 disk "a" = (disk', .ok ()) ∧
    Reach s1 ∧ Fresh s1 0 0 0 ∧ Fresh s1 1 1 1 ∧ ReachX s ∧ ReachX s1 ∧ ∀ C, s.cams 0 = some C → Plain s (.proj C.proj) := by
  have h := mkCam_spec .start fresh0 (c := 0) .cylindrical .brown .thr
  have h' := mkCam_classes .start fresh0 (c := 0) .cylindrical .brown .thr
  exact ⟨_, fun _ => none, _, _, h.1, h'.1, save_ok (mkCam_reachN .start fresh0 _ _ _).noBox _ _ _, .start, ⟨rfl, rfl, rfl⟩, ⟨rfl, rfl, rfl⟩,
    h.2.1 .start, .start, h'.2⟩
