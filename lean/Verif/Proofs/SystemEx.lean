import Verif.Proofs.SystemStepPar

/-! A concrete history for the examples: an orientation, a projection, a Brown lens, a camera. -/

set_option linter.constructorNameAsVariable false

open Classical

namespace Sys.Ex

/-- Focal lengths 100 and 120, image 50 x 100. -/
noncomputable def args : PField → Option ℝ
  | .fx | .iw => some 100
  | .fy => some 120
  | .ih => some 50
  | _ => none

noncomputable def s1 : St := St.empty.step (.newOrient 0 .thr fun _ => none)
noncomputable def s2 : St := s1.step (.newProj 0 .rectilinear args false)
noncomputable def s3 : St := s2.step (.newLens 0 .brown fun _ => none)
noncomputable def s4 : St := s3.step (.newCam 0 0 0 0)

theorem s1_orients : s1.orients 0 ≠ none := by
  rw [s1, St.step, newOrient_eq, (Pres.runMatrix _ 0).orients_iff]; simp [preOrient]

theorem keep12 : Keep s1 s2 := step_keep (Reach.step .start (by rfl)).inv.struct (op := .newProj 0 .rectilinear args false)
  ⟨by simp only [St.step, newOrient_eq, runMatrix_projs]; rfl, fun f => by cases f <;> simp [args, PField.default]⟩

theorem s1_lenses : s1.lenses = fun _ => none := by simp only [s1, St.step, newOrient_eq, runMatrix_lenses]; rfl
theorem s1_projs : s1.projs = fun _ => none := by simp only [s1, St.step, newOrient_eq, runMatrix_projs]; rfl
theorem s1_cams : s1.cams = fun _ => none := by simp only [s1, St.step, newOrient_eq, (Pres.runMatrix _ 0).cams]; rfl

theorem ok1 : St.empty.ok (.newOrient 0 .thr fun _ => none) := rfl
theorem ok2 : s1.ok (.newProj 0 .rectilinear args false) :=
  ⟨by rw [s1_projs], fun f => by cases f <;> simp [args, PField.default]⟩
theorem ok3 : s2.ok (.newLens 0 .brown fun _ => none) := by
  show s2.lenses 0 = none
  have : s2.lenses = s1.lenses := rfl
  rw [this, s1_lenses]

theorem s2_projs : s2.projs 0 = some ⟨.rectilinear, none⟩ := by simp [s2, St.step, St.newProj]

theorem s3_projs : s3.projs 0 = some ⟨.rectilinear, none⟩ := by
  simp only [s3, St.step, newLens_eq, runLens_projs]; exact s2_projs

theorem s3_orients : s3.orients 0 ≠ none := by
  have : s3.orients = s1.orients := by simp only [s3, St.step, newLens_eq, runLens_orients]; rfl
  rw [this]; exact s1_orients

theorem s3_lens : ∃ L, s3.lenses 0 = some L ∧ L.kind = .brown ∧ L.proj = none := by
  have h := (Pres.runLens (preLens s2 0 .brown fun _ => none) 0).lenses 0
  have e : ((preLens s2 0 .brown fun _ => none).runLens 0) = s3 := rfl
  rw [e] at h
  cases e' : s3.lenses 0 with
  | none => rw [e'] at h; simp [preLens] at h
  | some L =>
    rw [e'] at h
    simp only [preLens, Function.update_self, Option.map_some, Option.some.injEq, Prod.mk.injEq] at h
    exact ⟨L, rfl, h⟩

theorem ok4 : s3.ok (.newCam 0 0 0 0) := by
  refine ⟨by rw [s3_projs]; simp, s3_orients, ?_⟩
  obtain ⟨L, h, -⟩ := s3_lens
  rw [h]; simp

noncomputable def L4 : Log :=
  (((Log.empty.step St.empty.dict (.newOrient 0 .thr fun _ => none)).step s1.dict (.newProj 0 .rectilinear args false)).step s2.dict
    (.newLens 0 .brown fun _ => none)).step s3.dict (.newCam 0 0 0 0)

theorem run4 : Run s4 L4 := .step (.step (.step (.step .start ok1) ok2) ok3) ok4

theorem excl4 : s3.excl (.newCam 0 0 0 0) := by
  intro L hL hk
  obtain ⟨L', h, -, h2⟩ := s3_lens
  rw [h] at hL; cases hL
  refine ⟨Or.inl h2, fun l' L' hne hl' => ?_⟩
  have : s3.lenses l' = none := by
    simp only [s3, St.step, newLens_eq, runLens_lenses_ne _ hne]
    simp only [preLens, Function.update_apply, if_neg hne]
    show s1.lenses l' = none
    rw [s1_lenses]
  rw [this] at hl'; cases hl'

theorem reachX4 : ReachX s4 := .step (.step (.step (.step .start ok1 trivial) ok2 trivial) ok3 trivial) ok4 excl4

theorem s4_cams : ∃ C, s4.cams 0 = some C ∧ C.proj = 0 ∧ C.orient = 0 ∧ C.lens = 0 := by
  simp [s4, St.step, St.newCam]

theorem s4_projs : s4.projs 0 = some ⟨.rectilinear, none⟩ := (step_keep reachX4.reach.inv.struct (op := .setTrace (.cam 0) none) trivial) |>.projs 0 _
  ((setProjection_keep s3 0 0).projs 0 _ s3_projs)

theorem s4_orients : ∃ O, s4.orients 0 = some O ∧ O.kind = .thr := by
  have e1 : ∃ O, s1.orients 0 = some O ∧ O.kind = .thr := by
    have h := (Pres.runMatrix (preOrient St.empty 0 .thr fun _ => none) 0).orients 0
    have e : ((preOrient St.empty 0 .thr fun _ => none).runMatrix 0) = s1 := rfl
    rw [e] at h
    cases e' : s1.orients 0 with
    | none => rw [e'] at h; simp [preOrient] at h
    | some L => rw [e'] at h; exact ⟨L, rfl, by simpa [preOrient] using h⟩
  obtain ⟨O, h1, h2⟩ := e1
  have e3 : s3.orients 0 = some O := by
    have : s3.orients = s1.orients := by simp only [s3, St.step, newLens_eq, runLens_orients]; rfl
    rw [this]; exact h1
  obtain ⟨O', h3, h4⟩ := ((setProjection_keep s3 0 0).trans (camTail_keep _ 0 0 0 0)).orients 0 O e3
  exact ⟨O', h3, h4.trans h2⟩

theorem s4_lens : ∃ L, s4.lenses 0 = some L ∧ L.kind = .brown ∧ L.proj = some 0 := by
  obtain ⟨L, h1, h2, -⟩ := s3_lens
  obtain ⟨L', h3, h4, h5⟩ := setProjection_lens (p := 0) h1
  exact ⟨L', h3, h4.trans h2, h5 (by rw [h2]; simp)⟩

/-- A log without exceptions or uncertain values. -/
def Clean (L : Log) : Prop := ∀ q, ¬ L.exc q ∧ ¬ L.excFit q ∧ L.mean q = none

theorem Clean.create {L : Log} (h : Clean L) (new) : Clean (L.create new) := by
  intro q
  simp only [Log.create]
  cases new q with
  | none => exact h q
  | some _ => simp

theorem clean4 : Clean L4 := (((Clean.create (fun _ => ⟨not_false, not_false, rfl⟩) _).create _).create _).create _

theorem exc4 (q : Pid) : ¬ L4.exc q := (clean4 q).1
theorem excFit4 (q : Pid) : ¬ L4.excFit q := (clean4 q).2.1
theorem mean4 (q : Pid) : L4.mean q = none := (clean4 q).2.2

theorem val4 (f : OField) : L4.val (.o 0 f) = none := by
  simp only [L4, Log.step, Log.create]; rfl

theorem dflt4 (f : OField) : L4.dflt (.o 0 f) = some f.default := by
  rw [← initialO_eq]
  simp only [L4, Log.step, Log.create]; rfl

theorem valf4 : L4.val (.p 0 .f) = some 100 := by
  simp only [L4, Log.step, Log.create]; rfl

theorem valfy4 : L4.val (.p 0 .fy) = some 120 := by
  simp only [L4, Log.step, Log.create]; rfl

/-- The set of callbacks can be iterated. -/
theorem exists_order (cbs : List Cb) : ∃ order, IsOrder order cbs := ⟨cbs.dedup, List.nodup_dedup _, fun _ => List.mem_dedup⟩

theorem trace4 : s4.traces (.cam 0) = none := by simp [s4, St.step, St.newCam]

/-- Other focal lengths. -/
noncomputable def args1 : PField → Option ℝ := fun f => if f = .fx then some 200 else args f

/-- A second projection and a second lens. -/
noncomputable def s5 : St := s4.step (.newProj 1 .rectilinear args1 false)
noncomputable def s6 : St := s5.step (.newLens 1 .brown fun _ => none)

theorem s3_lens1 : s3.lenses 1 = none := by
  simp only [s3, St.step, newLens_eq, runLens_lenses_ne _ (show 1 ≠ 0 by simp)]
  simp only [preLens, Function.update_apply, if_neg (show 1 ≠ 0 by simp)]
  show s1.lenses 1 = none
  rw [s1_lenses]

theorem setProjection_projs (s : St) (l p : ℕ) : (s.setProjection l p).projs = s.projs := by
  by_cases h : ∃ L, s.lenses l = some L ∧ L.kind ≠ .none
  · obtain ⟨L, hl, hk⟩ := h
    rw [setProjection_eq hl hk, runLens_projs, preBind_projs]
  · rw [setProjection_none fun L hL => by by_contra hk; exact h ⟨L, hL, hk⟩]

theorem s4_projs1 : s4.projs 1 = none := by
  have e : s4.projs = (s3.setProjection 0 0).projs := rfl
  have e' : s3.projs = s2.projs := by simp only [s3, St.step, newLens_eq, runLens_projs]; rfl
  rw [e, setProjection_projs, e']
  simp only [s2, St.step, St.newProj, Function.update_apply]
  rw [if_neg (show 1 ≠ 0 by simp), s1_projs]

theorem s4_lens1 : s4.lenses 1 = none := by
  have e : s4.lenses 1 = (s3.setProjection 0 0).lenses 1 := rfl
  obtain ⟨L, h1, h2, -⟩ := s3_lens
  rw [e, setProjection_eq h1 (by rw [h2]; simp), runLens_lenses_ne _ (show 1 ≠ 0 by simp), preBind_lenses, Function.update_apply,
    if_neg (show 1 ≠ 0 by simp), s3_lens1]

theorem ok5 : s4.ok (.newProj 1 .rectilinear args1 false) :=
  ⟨s4_projs1, fun f => by cases f <;> simp [args1, args, PField.default]⟩

theorem ok6 : s5.ok (.newLens 1 .brown fun _ => none) := s4_lens1

theorem reachX6 : ReachX s6 := .step (.step reachX4 ok5 trivial) ok6 trivial

theorem keep46 : Keep s4 s6 :=
  (step_keep reachX4.reach.inv.struct ok5).trans (step_keep (Reach.step reachX4.reach ok5).inv.struct ok6)

theorem s6_cams : s6.cams = s4.cams := by
  have e : s6.cams = s5.cams := (Pres.runLens (preLens s5 1 .brown fun _ => none) 1).cams
  rw [e]; rfl

theorem s6_projs1 : s6.projs 1 = some ⟨.rectilinear, none⟩ := by
  simp only [s6, St.step, newLens_eq, runLens_projs]
  simp [preLens, s5, St.step, St.newProj]

theorem s6_lens1 : ∃ L, s6.lenses 1 = some L ∧ L.kind = .brown := by
  have h := (Pres.runLens (preLens s5 1 .brown fun _ => none) 1).lenses 1
  have e : ((preLens s5 1 .brown fun _ => none).runLens 1) = s6 := rfl
  rw [e] at h
  cases e' : s6.lenses 1 with
  | none => rw [e'] at h; simp [preLens] at h
  | some L =>
    rw [e'] at h
    simp only [preLens, Function.update_self, Option.map_some, Option.some.injEq, Prod.mk.injEq] at h
    exact ⟨L, rfl, h.1⟩

theorem s6_fx1 : s6.rd (.p 1 .fx) = 200 := by
  have e : s6.par (.p 1 .fx) = newParam (some 200) none 2 none := by
    simp only [s6, St.step, newLens_eq, runLens_par]
    simp [preLens, s5, St.step, St.newProj, args1, PField.default]
  unfold St.rd; rw [e]; rfl

theorem s6_fx0 : s6.rd (.p 0 .fx) = 100 := by
  have e : s6.par (.p 0 .fx) = s4.par (.p 0 .fx) := by
    simp only [s6, St.step, newLens_eq, runLens_par]
    simp [preLens, s5, St.step, St.newProj]
  have e2 : (s4.par (.p 0 .fx)).value = some 100 := by
    have h := (setProjection_fields s3 0 0 (.p 0 .fx)).1
    have : s4.par (.p 0 .fx) = (s3.setProjection 0 0).par (.p 0 .fx) := rfl
    rw [this, h]
    simp only [s3, St.step, newLens_eq, runLens_par]
    simp [preLens, s2, St.step, St.newProj, args, newParam]
  unfold St.rd; rw [e]; unfold Param.read; rw [e2]; rfl

/-- A read of the camera. -/
theorem read4 : s4.getattr (.cam 0) "tilt_deg" = some (some 85) := by
  obtain ⟨C, hC, hp, ho, hl⟩ := s4_cams
  obtain ⟨O, hO, hk⟩ := s4_orients
  have := cam_lookup_o run4.reach.dicts hC (by rw [ho]; exact hO) .ang
  rw [hk, ho] at this
  have e : s4.getattr (.cam 0) "tilt_deg" = ((s4.dict (.cam 0)).lookup "tilt_deg").map fun q => (s4.par q).read := rfl
  rw [e, show "tilt_deg" = OField.name .thr .ang from rfl, this, Option.map_some, run4.agree.read (exc4 _)]
  simp [Log.read, val4, dflt4, OField.default]

end Sys.Ex
