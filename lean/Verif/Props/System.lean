import Verif.Proofs.SystemRead

/-! # Properties of the parameter system

Every theorem is about the states after an arbitrary history of calls (`Run`, `Reach`, `ReachX`): constructors,
assignments through any object, default assignments, fits, sampling, setting to the mean, on any number of cameras,
projections, orientations and lenses that may be shared. -/

set_option linter.constructorNameAsVariable false

open Classical Sys

/-! ### C49 -/

/-- **C49** After any history a parameter reads as the last assigned value (a heading modulo 360 if it is out of range),
else the default.  Missing: parameters for which the exceptions `Log.exc` happened, and the hidden image size of a
projection object (C53). -/
theorem C49_last_assigned_partial {s : St} {L : Log} (h : Run s L) {v : View} {n : String} {q : Pid}
    (hl : (s.dict v).lookup n = some q) (he : ¬ L.exc q) (hp : Plain s v) : s.getattr v n = some (L.read q) := by
  rw [getattr_eq hp, hl, Option.map_some, h.agree.read he]

example : ∃ (s : St) (L : Log), Run s L ∧ (s.dict (.cam 0)).lookup "tilt_deg" = some (.o 0 .ang) ∧ ¬ L.exc (.o 0 .ang) ∧
    Plain s (.cam 0) ∧ L.read (.o 0 .ang) = some 85 := by
  obtain ⟨C, hC, hp, ho, hl⟩ := Ex.s4_cams
  obtain ⟨O, hO, hk⟩ := Ex.s4_orients
  have := cam_lookup_o Ex.run4.reach.dicts hC (by rw [ho]; exact hO) .ang
  rw [hk, ho] at this
  refine ⟨_, _, Ex.run4, this, Ex.exc4 _, plain_cam _ _, ?_⟩
  simp [Log.read, Ex.val4, Ex.dflt4, OField.default]

/-- **C49** is violated: after a default heading `x` outside [-360, 360] was set, the heading reads as `x` modulo 360
whatever default is set later, although no value was ever assigned. -/
theorem C49_violated_default {s : St} {L : Log} (h : Run s L) {o : ℕ} {O : OObj} (hO : s.orients o = some O)
    (hv : L.val (.o o .turn) = none) (he : ¬ L.exc (.o o .turn)) {x y : ℝ} (hx : Out x) (hy : y ≠ x - 360 * ⌊x / 360⌋) :
    let n := OField.name O.kind .turn
    let s' := (s.step (.setDefault (.orient o) n x)).step (.setDefault (.orient o) n y)
    s'.getattr (.orient o) n = some (some (x - 360 * ⌊x / 360⌋)) ∧
      ∃ L', Run s' L' ∧ L'.read (.o o .turn) = some y ∧ s'.getattr (.orient o) n ≠ some (L'.read (.o o .turn)) := by
  intro n s'
  have hr := h.reach
  have hl : (s.dict (.orient o)).lookup n = some (.o o .turn) := orient_lookup hO .turn
  have hval : (s.par (.o o .turn)).value = none := by rw [h.agree.val _ he, hv]; rfl
  have h1 : Run (s.step (.setDefault (.orient o) n x)) (L.step s.dict (.setDefault (.orient o) n x)) := .step h trivial
  have hpr : Pres s (s.step (.setDefault (.orient o) n x)) := step_pres hr.struct (op := .setDefault (.orient o) n x) trivial trivial
  have hl1 : ((s.step (.setDefault (.orient o) n x)).dict (.orient o)).lookup n = some (.o o .turn) := by rw [hpr.dict]; exact hl
  have h2 : Run s' _ := .step (op := .setDefault (.orient o) n y) h1 trivial
  have hpr2 : Pres (s.step (.setDefault (.orient o) n x)) s' := step_pres h1.reach.struct (op := .setDefault (.orient o) n y) trivial trivial
  have e1 : ((s.step (.setDefault (.orient o) n x)).par (.o o .turn)).value = some (x - 360 * ⌊x / 360⌋) := by
    have ho : s.orients o ≠ none := by rw [hO]; simp
    rw [setDefault_par hr.struct hl, after_turn, if_pos ⟨⟨hval, hr.struct.ocb o ho .turn⟩, ho⟩]
    simp only [mod_par, if_true]
    have hr0 : ({ s.par (.o o .turn) with default := some x } : Param).read.getD 0 = x := by simp [Param.read, hval]
    unfold wrapP
    rw [hr0, if_pos (by rcases hx with h | h <;> [left; right] <;> exact h)]
    rfl
  have e2 : (s'.par (.o o .turn)).value = some (x - 360 * ⌊x / 360⌋) := by
    rw [setDefault_par h1.reach.struct hl1, after_turn, if_neg (by rw [e1]; simp)]
    simp only [mod_par, if_true]
    exact e1
  have e3 : s'.getattr (.orient o) n = some (some (x - 360 * ⌊x / 360⌋)) := by
    rw [getattr_eq (plain_orient _ _), hpr2.dict, hl1, Option.map_some, read_val e2]
  have e4 : ((L.step s.dict (.setDefault (.orient o) n x)).step (s.step (.setDefault (.orient o) n x)).dict (.setDefault (.orient o) n y)).read
      (.o o .turn) = some y := by
    simp only [Log.step, hl, hl1, Log.read, hv, if_true]
  refine ⟨e3, _, h2, e4, ?_⟩
  rw [e3, e4]
  simpa using hy.symm

example : ∃ (s : St) (L : Log) (O : OObj), Run s L ∧ s.orients 0 = some O ∧ L.val (.o 0 .turn) = none ∧ ¬ L.exc (.o 0 .turn) ∧ Out 400 ∧
    (10 : ℝ) ≠ 400 - 360 * ⌊(400 : ℝ) / 360⌋ := by
  obtain ⟨O, hO, -⟩ := Ex.s4_orients
  refine ⟨_, _, O, Ex.run4, hO, Ex.val4 _, Ex.exc4 _, Or.inr (by norm_num), ?_⟩
  have : ⌊(400 : ℝ) / 360⌋ = 1 := by rw [Int.floor_eq_iff]; norm_num
  rw [this]; norm_num

/-- **C49** is violated: `camera.sample()` overwrites the focal length of a camera with two different focal lengths,
although nothing is uncertain. -/
theorem C49_violated_sample {s : St} {L : Log} (h : Run s L) {c : ℕ} {C : CObj} (hC : s.cams c = some C)
    (hm : ∀ q, L.mean q = none) (he : ¬ L.exc (.p C.proj .fy)) (hd : L.val (.p C.proj .fy) ≠ L.val (.p C.proj .f)) {draw : Pid → ℝ} {order : List Cb} (hok : s.ok (.sample (.cam c) draw order)) :
    let s' := s.step (.sample (.cam c) draw order)
    s.getattr (.cam c) "focallength_y_px" = some (L.val (.p C.proj .fy)) ∧
      s'.getattr (.cam c) "focallength_y_px" = s.getattr (.cam c) "focallength_px" ∧
      s'.getattr (.cam c) "focallength_y_px" ≠ s.getattr (.cam c) "focallength_y_px" := by
  intro s'
  have hr := h.reach
  obtain ⟨P, -, -, hP, -⟩ := hr.dicts.cam c C hC
  have hPn : s.projs C.proj ≠ none := by rw [hP]; simp
  have hly : (s.dict (.cam c)).lookup "focallength_y_px" = some (.p C.proj .fy) := cam_lookup_p hr.dicts hC .fy
  have hlf : (s.dict (.cam c)).lookup "focallength_px" = some (.p C.proj .f) := cam_lookup_p hr.dicts hC .f
  have hpr : Pres s s' := step_pres hr.struct hok trivial
  have key : ∀ g : PField, g.default = none → (s.par (.p C.proj g)).read = (s.par (.p C.proj g)).value := fun g hg => read_value hr hPn hg
  have hmean : ∀ q, ¬ IsTurn q → (s.par q).mean = none := fun q hq => by rw [h.agree.mean q hq, hm]
  have e1 : (s'.par (.p C.proj .fy)).value = (s.par (.p C.proj .f)).value := by
    rw [sample_par hr.struct hok, after_f _ _ _ (Or.inr rfl), if_pos (focal_in_order hr hok.2 hlf)]
    simp only
    rw [sampleLoop_par, if_neg (by rw [hmean _ not_turn_p]; simp)]
  have e2 : s.getattr (.cam c) "focallength_y_px" = some (L.val (.p C.proj .fy)) := by
    rw [getattr_eq (plain_cam _ _), hly, Option.map_some, key _ rfl, h.agree.plain not_turn_p he]
  have e3 : s'.getattr (.cam c) "focallength_y_px" = s.getattr (.cam c) "focallength_px" := by
    rw [getattr_eq (plain_cam _ _), getattr_eq (plain_cam _ _), hpr.dict, hly, hlf, Option.map_some, Option.map_some, key _ rfl,
      ← e1, read_value (.step hr hok) (by rw [hpr.projs]; exact hPn) rfl]
  have e4 : s.getattr (.cam c) "focallength_px" = some (L.val (.p C.proj .f)) := by
    rw [getattr_eq (plain_cam _ _), hlf, Option.map_some, key _ rfl, h.agree.plain' not_turn_p f_not_f]
  refine ⟨e2, e3, ?_⟩
  rw [e3, e4, e2]
  simpa using hd.symm

example : ∃ (s : St) (L : Log) (C : CObj) (draw : Pid → ℝ) (order : List Cb), Run s L ∧ s.cams 0 = some C ∧ (∀ q, L.mean q = none) ∧
    ¬ L.exc (.p C.proj .fy) ∧ s.ok (.sample (.cam 0) draw order) ∧ L.val (.p C.proj .fy) ≠ L.val (.p C.proj .f) := by
  obtain ⟨C, hC, hp, -, -⟩ := Ex.s4_cams
  obtain ⟨order, ho⟩ := Ex.exists_order (Ex.s4.allCallbacks (Ex.s4.dict (.cam 0)))
  refine ⟨_, _, C, fun _ => 0, order, Ex.run4, hC, Ex.mean4, Ex.exc4 _, ⟨Ex.trace4, ho⟩, ?_⟩
  rw [hp, Ex.valfy4, Ex.valf4]
  norm_num

/-! ### C50 -/

/-- The objects a camera consists of. -/
def Sys.PartOf (C : CObj) (v : View) : Prop := v = .proj C.proj ∨ v = .orient C.orient ∨ v = .lens C.lens

theorem Sys.lens_name_ne {k : LKind} {f : LField} {g : PField} : g.name ≠ f.name k := by
  cases k <;> cases f <;> cases g <;> simp [PField.name, LField.name]

theorem Sys.lens_lookup_cases {k : LKind} {l : ℕ} {pr : Option ℕ} {n : String} {q : Pid} (h : (lensDict k l pr).lookup n = some q) :
    k ≠ .none ∧ ((∃ f, n = f.name k ∧ q = .l l f) ∨ ∃ p f, pr = some p ∧ n = PField.name f ∧ q = .p p f) := by
  have hk : k ≠ .none := by rintro rfl; cases h
  refine ⟨hk, ?_⟩
  rcases mem_lensDict' (lookup_mem h) with ⟨f, e⟩ | ⟨p, f, e1, e2⟩
  · left; cases e; exact ⟨f, rfl, rfl⟩
  · right; cases e2; exact ⟨p, f, e1, rfl, rfl⟩

/-- The names of the parts are names of the camera, for the same parameters. -/
theorem Sys.part_lookup {s : St} (hr : Reach s) {c : ℕ} {C : CObj} (hC : s.cams c = some C) {v : View} (hv : PartOf C v) {n : String} {q : Pid}
    (hl : (s.dict v).lookup n = some q) (hlens : v = .lens C.lens → ∀ L, s.lenses C.lens = some L → L.proj = some C.proj ∨ ∃ l f, q = .l l f) :
    (s.dict (.cam c)).lookup n = some q := by
  rcases hv with rfl | rfl | rfl
  · obtain ⟨P, -, -, hP, -⟩ := hr.dicts.cam c C hC
    simp only [St.dict, hP] at hl
    obtain ⟨f, -, rfl, rfl⟩ := lookup_map _ _ _ hl
    exact cam_lookup_p hr.dicts hC f
  · obtain ⟨P, O, -, -, hO, -⟩ := hr.dicts.cam c C hC
    simp only [St.dict, hO] at hl
    obtain ⟨f, -, rfl, rfl⟩ := lookup_map _ _ _ hl
    exact cam_lookup_o hr.dicts hC hO f
  · obtain ⟨P, O, L, -, -, hL, -⟩ := hr.dicts.cam c C hC
    simp only [St.dict, hL] at hl
    obtain ⟨hk, h⟩ := lens_lookup_cases hl
    rcases h with ⟨f, rfl, rfl⟩ | ⟨p, f, hp, rfl, rfl⟩
    · exact cam_lookup_l hr.dicts hC hL hk f
    · rcases hlens rfl L hL with h | ⟨l, g, h⟩
      · rw [hp] at h; cases h; exact cam_lookup_p hr.dicts hC f
      · cases h

/-- Two names for one parameter. -/
def Sys.SameParam (s : St) (v w : View) (n : String) (q : Pid) : Prop :=
  (Plain s v → Plain s w → s.getattr v n = s.getattr w n) ∧
  (∀ x b, s.step (.set v n x b) = s.step (.set w n x b)) ∧
  (∀ m σ, s.step (.setStats v n m σ) = s.step (.setStats w n m σ)) ∧
  (∀ x, s.step (.setDefault v n x) = s.step (.setDefault w n x)) ∧
  ∀ x b, (Plain s v → (s.step (.set w n (some x) b)).getattr v n = some (some (norm360 q x))) ∧
    (Plain s w → (s.step (.set v n (some x) b)).getattr w n = some (some (norm360 q x)))

theorem Sys.Plain.pres {s s' : St} {v : View} (h : Plain s v) (hp : Pres s s') : Plain s' v := by
  intro p P e hP; rw [hp.projs] at hP; exact h p P e hP

theorem Sys.sameParam {s : St} (hr : Reach s) {v w : View} {n : String} {q : Pid} (hv : (s.dict v).lookup n = some q)
    (hw : (s.dict w).lookup n = some q) : SameParam s v w n q := by
  have hset : ∀ x b, Pres s (s.step (.set v n (some x) b)) ∧ Pres s (s.step (.set w n (some x) b)) := fun x b =>
    ⟨step_pres hr.struct (op := .set v n (some x) b) (Or.inl (by simp)) trivial,
      step_pres hr.struct (op := .set w n (some x) b) (Or.inl (by simp)) trivial⟩
  refine ⟨?_, ?_, ?_, ?_, ?_⟩
  · intro h1 h2; rw [getattr_eq h1, getattr_eq h2, hv, hw]
  · intro x b; simp only [St.step, hv, hw]
  · intro x b; simp only [St.step, hv, hw]
  · intro x; simp only [St.step, hv, hw]
  · intro x b
    constructor
    · intro hp
      rw [getattr_eq (hp.pres (hset x b).2), (hset x b).2.dict, hv, Option.map_some, read_val (set_read hr hw x b).1]
    · intro hp
      rw [getattr_eq (hp.pres (hset x b).1), (hset x b).1.dict, hw, Option.map_some, read_val (set_read hr hv x b).1]

/-- **C50** The projection, the orientation and the lens coefficients of a camera are the parameters of the camera: in
every reachable state they read the same through both objects, assignments (plain, with uncertainty, of the default) have
the same effect through both, and what is assigned through one is read through the other.
Missing: the image size of projections built from a field of view (C53, hypothesis `Plain` of `SameParam`) and the
parameters a lens takes over from a projection (below). -/
theorem C50_shared_partial {s : St} (hr : Reach s) {c : ℕ} {C : CObj} (hC : s.cams c = some C) {v : View} (hv : PartOf C v)
    {n : String} {q : Pid} (hl : (s.dict v).lookup n = some q) (hq : v = .lens C.lens → ∃ l f, q = .l l f) :
    SameParam s v (.cam c) n q :=
  sameParam hr hl (part_lookup hr hC hv hl fun h _ _ => Or.inr (hq h))

/-- **C50** If no projection is used with two lenses and no lens with two projections, all parameters of the lens are
shared with the camera. -/
theorem C50_shared_lens_partial {s : St} (hr : ReachX s) {c : ℕ} {C : CObj} (hC : s.cams c = some C) {v : View} (hv : PartOf C v)
    {n : String} {q : Pid} (hl : (s.dict v).lookup n = some q) : SameParam s v (.cam c) n q := by
  refine sameParam hr.reach hl (part_lookup hr.reach hC hv hl fun h L hL => Or.inl (hr.invX.cam c C L hC hL ?_))
  rintro hk
  subst h
  simp only [St.dict, hL, hk, lensDict] at hl
  cases hl

example : ∃ (s : St) (C : CObj), ReachX s ∧ s.cams 0 = some C ∧ PartOf C (.lens 0) ∧ (s.dict (.lens 0)).lookup "center_x_px" = some (.p 0 .cx) ∧
    (s.dict (.lens 0)).lookup "k1" = some (.l 0 .k1) := by
  obtain ⟨C, hC, hp, ho, hl⟩ := Ex.s4_cams
  obtain ⟨L, hL, hk, hb⟩ := Ex.s4_lens
  refine ⟨_, C, Ex.reachX4, hC, Or.inr (Or.inr (by rw [hl])), ?_, ?_⟩
  · simp only [St.dict, hL, hk, hb]; exact lensDict_lookup_p (k := .brown) (by simp) 0 0 (f := .cx) (by simp [PField.lens])
  · simp only [St.dict, hL, hk, hb]; exact lensDict_lookup (k := .brown) (by simp) 0 _ .k1

/-- **C50** is violated if a lens is used for a second camera with another projection: what is assigned through the first
camera is not seen through its lens. -/
theorem C50_violated_lens_moved {s : St} (hr : Reach s) {c : ℕ} {C : CObj} (hC : s.cams c = some C) {L : LObj}
    (hL : s.lenses C.lens = some L) (hk : L.kind ≠ .none) {c' p o : ℕ} (hne : c' ≠ c) (hp : p ≠ C.proj)
    (hok : s.ok (.newCam c' p o C.lens)) (x : ℝ) (b : Bool) :
    let s' := s.step (.newCam c' p o C.lens)
    let s'' := s'.step (.set (.cam c) "center_x_px" (some x) b)
    s''.getattr (.cam c) "center_x_px" = some (some x) ∧
      s''.getattr (.lens C.lens) "center_x_px" = s'.getattr (.lens C.lens) "center_x_px" ∧
      s'.getattr (.lens C.lens) "center_x_px" = some ((s.par (.p p .cx)).read) := by
  intro s' s''
  have hr' : Reach s' := .step hr hok
  have hC' : s'.cams c = some C := by
    have : s'.cams = (s.newCam c' p o C.lens).cams := rfl
    rw [this, newCam_eq]
    simp only [camTail, Function.update_apply, if_neg hne.symm, setProjection_cams, hC]
  obtain ⟨L', h1, h2, h3⟩ := setProjection_lens (p := p) hL
  have hL' : s'.lenses C.lens = some L' := h1
  have hpr : Pres s' s'' := step_pres hr'.struct (op := .set (.cam c) "center_x_px" (some x) b) (Or.inl (by simp)) trivial
  have hlc : (s'.dict (.cam c)).lookup "center_x_px" = some (.p C.proj .cx) := cam_lookup_p hr'.dicts hC' .cx
  have hll : (s'.dict (.lens C.lens)).lookup "center_x_px" = some (.p p .cx) := by
    simp only [St.dict, hL', h3 hk]; exact lensDict_lookup_p (by rw [h2]; exact hk) _ _ (f := .cx) (by simp [PField.lens])
  refine ⟨?_, ?_, ?_⟩
  · rw [getattr_eq (plain_cam _ _), hpr.dict, hlc, Option.map_some, read_val (set_read hr' hlc x b).1, norm360_not not_turn_p]
  · rw [getattr_eq (plain_lens _ _), getattr_eq (plain_lens _ _), hpr.dict, hll, Option.map_some, Option.map_some,
      set_other hr' hlc (some x) b (by intro e; cases e; exact hp rfl) (by intro p g _ e; cases e)]
  · rw [getattr_eq (plain_lens _ _), hll, Option.map_some]
    have : (s'.par (.p p .cx)) = (s.setProjection C.lens p).par (.p p .cx) := rfl
    rw [this]
    have hf := setProjection_fields s C.lens p (.p p .cx)
    unfold Param.read
    rw [hf.1, hf.2.1]

example : ∃ (s : St) (C : CObj) (L : LObj), Reach s ∧ s.cams 0 = some C ∧ s.lenses C.lens = some L ∧ L.kind ≠ .none ∧ 1 ≠ C.proj ∧
    s.ok (.newCam 1 1 0 C.lens) := by
  obtain ⟨C, hC, hp, ho, hl⟩ := Ex.s4_cams
  obtain ⟨L, hL, hk, -⟩ := Ex.s4_lens
  obtain ⟨O, hO, -⟩ := Ex.s4_orients
  obtain ⟨L', h1, h2, -⟩ := Ex.keep46.lenses 0 L hL
  obtain ⟨O', h3, -⟩ := Ex.keep46.orients 0 O hO
  refine ⟨_, C, L', Ex.reachX6.reach, by rw [Ex.s6_cams]; exact hC, by rw [hl]; exact h1, by rw [h2, hk]; simp, by rw [hp]; simp, ?_, ?_, ?_⟩
  · rw [Ex.s6_projs1]; simp
  · rw [h3]; simp
  · rw [hl, h1]; simp
