import Verif.Props.SystemCache

/-! # Fits, samples and the focal length -/

set_option linter.constructorNameAsVariable false

open Classical Sys

/-! ### C54 -/

/-- The callbacks that run in set_fit_parameters. -/
theorem Sys.fit_focal {s : St} (hr : Reach s) {v : View} {vals : List (String × ℝ)} {order : List Cb} (hok : s.ok (.setFit v vals order)) {p : ℕ} :
    .focal p ∈ order ↔ lastOf (s.dict v) vals (.p p .f) ≠ none := by
  rw [fitOrder_mem hok]
  constructor
  · rintro ⟨q, h1, h2⟩
    obtain ⟨nv, -, h⟩ := lastOf_some.1 h1
    rw [← (focal_iff hr.struct (hr.dicts.lookup_created h) p).1 h2]; exact h1
  · intro h
    obtain ⟨nv, -, h1⟩ := lastOf_some.1 h
    exact ⟨_, h, (focal_iff hr.struct (hr.dicts.lookup_created h1) p).2 rfl⟩

/-- A parameter that `set_fit_parameters` with the given names writes: one of the names, or a focal length if
`focallength_px` is one of the names. -/
def Sys.Written (d : Dict) (vals : List (String × ℝ)) (q : Pid) : Prop :=
  lastOf d vals q ≠ none ∨ ∃ p g, IsF g ∧ q = .p p g ∧ lastOf d vals (.p p .f) ≠ none

theorem Sys.fitLoop_orients (d : Dict) (vals : List (String × ℝ)) (s : St) : (s.fitLoop d vals).orients = s.orients := by
  induction vals generalizing s with
  | nil => rfl
  | cons a t ih =>
    obtain ⟨n, v⟩ := a
    simp only [St.fitLoop]
    cases d.lookup n with
    | none => exact ih s
    | some q => simp only; rw [ih]; rfl

theorem Sys.fitLoop_filter (d : Dict) (vals : List (String × ℝ)) (s : St) :
    s.fitLoop d (vals.filter fun nv => (d.lookup nv.1).isSome) = s.fitLoop d vals := by
  induction vals generalizing s with
  | nil => rfl
  | cons a t ih =>
    obtain ⟨n, v⟩ := a
    cases h : d.lookup n with
    | none => simp only [List.filter, h, St.fitLoop, Option.isSome_none]; exact ih s
    | some q => simp only [List.filter, h, St.fitLoop, Option.isSome_some]; exact ih _

/-- **C54** `set_fit_parameters`: every known name has its (last) value and is marked as fitted, all parameters that are
not written are unchanged, unknown names have no effect, and neither the parameters nor the matrices depend on the order
in which the callbacks are called (they are up to date by C51 and C52, which hold for the new state).
Missing: a heading outside [-360, 360], and focal lengths if `focallength_px` is also among the names. -/
theorem C54_set_fit_partial {s : St} (hr : Reach s) {v : View} {vals : List (String × ℝ)} {order : List Cb} (hok : s.ok (.setFit v vals order)) :
    let s' := s.step (.setFit v vals order)
    Reach s' ∧
    (∀ q x, lastOf (s.dict v) vals q = some x → (IsTurn q → ¬ Out x) →
      (∀ p g, IsF g → q = .p p g → lastOf (s.dict v) vals (.p p .f) = none) →
      (s'.par q).value = some x ∧ (s'.par q).state = .fit ∧ (s'.par q).mean = (s.par q).mean ∧ (s'.par q).default = (s.par q).default) ∧
    (∀ q, ¬ Written (s.dict v) vals q → s'.par q = s.par q) ∧
    s.step (.setFit v (vals.filter fun nv => ((s.dict v).lookup nv.1).isSome) order) = s' ∧
    ∀ order', s.ok (.setFit v vals order') → (s.step (.setFit v vals order')).par = s'.par ∧
      (s.step (.setFit v vals order')).orients = s'.orients := by
  intro s'
  have hr' : Reach s' := .step hr hok
  refine ⟨hr', ?_, ?_, ?_, ?_⟩
  · intro q x hq hT hF
    have e : (s.fitLoop (s.dict v) vals).par q = { s.par q with value := some x, state := .fit, boxed := false } := by
      rw [fitLoop_par, hq]
    have key : (s'.par q) = { s.par q with value := some x, state := .fit, boxed := false } := by
      rw [setFit_par hr.struct hok]
      rcases after_one (s := s.fitLoop (s.dict v) vals) (q := q) (A := (· ∈ order)) (fun p g hg e1 h => by
        rw [fit_focal hr hok, hF p g hg e1] at h; exact h rfl) with h | ⟨ht, h⟩
      · rw [h, e]
      · rw [h, e]; exact wrapP_in (v := x) rfl (hT ht)
    rw [key]
    exact ⟨rfl, rfl, rfl, rfl⟩
  · intro q hq
    have h0 : lastOf (s.dict v) vals q = none := by by_contra h; exact hq (Or.inl h)
    have e : (s.fitLoop (s.dict v) vals).par q = s.par q := by rw [fitLoop_par, h0]
    rw [setFit_par hr.struct hok]
    rcases pid_cases q with ⟨o, rfl⟩ | ⟨p, g, hg, rfl⟩ | ⟨h1, h2⟩
    · rw [after_turn, e]
      split_ifs with hm
      · rw [fitLoop_orients] at hm
        obtain ⟨O, hO⟩ := Option.ne_none_iff_exists'.1 hm.2
        have := ((hr.inv.fresh o) O hO).2
        exact wrapP_none_in (by
          rintro (h | h)
          · exact absurd this.1 (not_le.2 h)
          · exact absurd this.2 (not_le.2 h))
      · rfl
    · rw [after_f _ _ _ hg, if_neg, e]
      intro h
      rw [fit_focal hr hok] at h
      exact hq (Or.inr ⟨p, g, hg, rfl, h⟩)
    · rw [after_other _ _ h1 h2, e]
  · show (s.fitLoop (s.dict v) _).runAll order = (s.fitLoop (s.dict v) vals).runAll order
    rw [fitLoop_filter]
  · intro order' hok'
    have hpar : (s.step (.setFit v vals order')).par = s'.par := by
      funext q
      rw [setFit_par hr.struct hok', setFit_par hr.struct hok]
      congr 1
      funext cb
      rw [hok.2, hok'.2]
    refine ⟨hpar, ?_⟩
    have hr'' : Reach (s.step (.setFit v vals order')) := .step hr hok'
    funext o
    have h1 := (step_pres hr.struct hok trivial).orients o
    have h2 := (step_pres hr.struct hok' trivial).orients o
    cases e1 : (s.step (.setFit v vals order')).orients o with
    | none =>
      cases e2 : s'.orients o with
      | none => rfl
      | some O2 => rw [e1] at h2; rw [show (s.step (.setFit v vals order)).orients o = some O2 from e2] at h1; rw [← h2] at h1; cases h1
    | some O1 =>
      cases e2 : s'.orients o with
      | none => rw [e1] at h2; rw [show (s.step (.setFit v vals order)).orients o = none from e2] at h1; rw [← h2] at h1; cases h1
      | some O2 =>
        have hk : O1.kind = O2.kind := by
          rw [e1] at h2; rw [show (s.step (.setFit v vals order)).orients o = some O2 from e2] at h1; rw [← h2] at h1
          simpa using h1.symm
        have m1 := (hr''.inv.fresh o O1 e1).1
        have m2 := (hr'.inv.fresh o O2 e2).1
        have : (s.step (.setFit v vals order')).matOf O1.kind o = s'.matOf O2.kind o := by
          rw [hk]; exact matOf_congr (fun f => rd_eq_of_par (by rw [hpar])) _
        obtain ⟨k1, M1⟩ := O1
        obtain ⟨k2, M2⟩ := O2
        simp only at hk m1 m2 this
        rw [hk, m1, m2, this]

example : ∃ (s : St) (order : List Cb), Reach s ∧ s.ok (.setFit (.cam 0) [("tilt_deg", 3), ("unknown", 4), ("tilt_deg", 5)] order) ∧
    lastOf (s.dict (.cam 0)) [("tilt_deg", 3), ("unknown", 4), ("tilt_deg", 5)] (.o 0 .ang) = some 5 := by
  obtain ⟨C, hC, hp, ho, hl⟩ := Ex.s4_cams
  obtain ⟨O, hO, hk⟩ := Ex.s4_orients
  have := cam_lookup_o Ex.run4.reach.dicts hC (by rw [ho]; exact hO) .ang
  rw [hk, ho] at this
  obtain ⟨order, ho⟩ := Ex.exists_order (Ex.s4.fitCallbacks (Ex.s4.dict (.cam 0)) [("tilt_deg", 3), ("unknown", 4), ("tilt_deg", 5)])
  refine ⟨_, order, Ex.run4.reach, ho, ?_⟩
  simp only [OField.name] at this
  simp [lastOf, this]

/-- **C54** is violated for a heading outside [-360, 360]: afterwards it is marked as set by the user, not as fitted, and
has another value. -/
theorem C54_violated_heading {s : St} (hr : Reach s) {v : View} {vals : List (String × ℝ)} {order : List Cb} (hok : s.ok (.setFit v vals order))
    {o : ℕ} {x : ℝ} (hq : lastOf (s.dict v) vals (.o o .turn) = some x) (hx : Out x) :
    let s' := s.step (.setFit v vals order)
    (s'.par (.o o .turn)).state = .userSet ∧ (s'.par (.o o .turn)).value = some (x - 360 * ⌊x / 360⌋) ∧
      (s'.par (.o o .turn)).value ≠ some x := by
  intro s'
  obtain ⟨nv, -, hl⟩ := lastOf_some.1 (by rw [hq]; simp : lastOf (s.dict v) vals (.o o .turn) ≠ none)
  have hc : s.orients o ≠ none := hr.dicts.lookup_created hl
  have hm : .matrix o ∈ order := by
    rw [fitOrder_mem hok]; exact ⟨_, by rw [hq]; simp, hr.struct.ocb o hc .turn⟩
  have e : s'.par (.o o .turn) = wrapP { s.par (.o o .turn) with value := some x, state := .fit, boxed := false } := by
    rw [setFit_par hr.struct hok, after_turn, if_pos ⟨hm, by rw [fitLoop_orients]; exact hc⟩, fitLoop_par, hq]
  have e2 : (s'.par (.o o .turn)).value = some (x - 360 * ⌊x / 360⌋) := by
    rw [e, wrapP_value rfl o, norm360_eq, if_pos hx]
  refine ⟨?_, e2, ?_⟩
  · rw [e]
    unfold wrapP
    rw [if_pos]
    show x < -360 ∨ x > 360
    rcases hx with h | h <;> [left; right] <;> exact h
  · rw [e2]
    intro h
    simp only [Option.some.injEq] at h
    have := norm360_range o x
    rw [norm360_eq, if_pos hx, h] at this
    exact this hx

example : ∃ (s : St) (order : List Cb), Reach s ∧ s.ok (.setFit (.cam 0) [("heading_deg", 400)] order) ∧
    lastOf (s.dict (.cam 0)) [("heading_deg", 400)] (.o 0 .turn) = some 400 ∧ Out 400 := by
  obtain ⟨C, hC, hp, ho, hl⟩ := Ex.s4_cams
  obtain ⟨O, hO, hk⟩ := Ex.s4_orients
  have := cam_lookup_o Ex.run4.reach.dicts hC (by rw [ho]; exact hO) .turn
  rw [hk, ho] at this
  obtain ⟨order, ho⟩ := Ex.exists_order (Ex.s4.fitCallbacks (Ex.s4.dict (.cam 0)) [("heading_deg", 400)])
  refine ⟨_, order, Ex.run4.reach, ho, ?_, Or.inr (by norm_num)⟩
  simp only [OField.name] at this
  simp [lastOf, this]

/-- **C54** is violated if `focallength_px` is fitted together with a focal length in one direction: the latter does not
get its value. -/
theorem C54_violated_focal {s : St} (hr : Reach s) {v : View} {vals : List (String × ℝ)} {order : List Cb} (hok : s.ok (.setFit v vals order))
    {p : ℕ} {x y : ℝ} (hx : lastOf (s.dict v) vals (.p p .f) = some x) (_hy : lastOf (s.dict v) vals (.p p .fx) = some y) (hne : x ≠ y) :
    let s' := s.step (.setFit v vals order)
    (s'.par (.p p .fx)).read = some x ∧ (s'.par (.p p .fx)).read ≠ some y := by
  intro s'
  have e : (s'.par (.p p .fx)).value = some x := by
    rw [setFit_par hr.struct hok, after_f _ _ _ (Or.inl rfl), if_pos ((fit_focal hr hok).2 (by rw [hx]; simp))]
    simp only
    rw [fitLoop_par, hx]
  exact ⟨read_val e, by rw [read_val e]; simpa using hne⟩

example : ∃ (s : St) (order : List Cb), Reach s ∧ s.ok (.setFit (.cam 0) [("focallength_px", 10), ("focallength_x_px", 20)] order) ∧
    lastOf (s.dict (.cam 0)) [("focallength_px", 10), ("focallength_x_px", 20)] (.p 0 .f) = some 10 ∧
    lastOf (s.dict (.cam 0)) [("focallength_px", 10), ("focallength_x_px", 20)] (.p 0 .fx) = some 20 := by
  obtain ⟨C, hC, hp, ho, hl⟩ := Ex.s4_cams
  have h1 := cam_lookup_p Ex.run4.reach.dicts hC .f
  have h2 := cam_lookup_p Ex.run4.reach.dicts hC .fx
  obtain ⟨order, ho⟩ := Ex.exists_order (Ex.s4.fitCallbacks (Ex.s4.dict (.cam 0)) [("focallength_px", 10), ("focallength_x_px", 20)])
  simp only [PField.name, hp] at h1 h2
  refine ⟨_, order, Ex.run4.reach, ho, ?_, ?_⟩ <;> simp [lastOf, h1, h2]

/-! ### C57 -/

/-- **C57** After `focallength_px` was assigned through any object, both focal lengths read as the value. -/
theorem C57_both_focal_lengths {s : St} (hr : Reach s) {v : View} {n : String} {p : ℕ} (hl : (s.dict v).lookup n = some (.p p .f)) (x : ℝ) (b : Bool) :
    let s' := s.step (.set v n (some x) b)
    ∀ w m g, IsF g → (s.dict w).lookup m = some (.p p g) → m ≠ "image_width_px" → m ≠ "image_height_px" → s'.getattr w m = some (some x) := by
  intro s' w m g hg hm h1 h2
  have hpr : Pres s s' := step_pres hr.struct (op := .set v n (some x) b) (Or.inl (by simp)) trivial
  have hc := hr.dicts.lookup_created hl
  rw [getattr_other h1 h2, hpr.dict, hm, Option.map_some]
  congr 1
  apply read_val
  rw [set_par hr.struct hl, after_f _ _ _ hg, if_pos ((focal_iff hr.struct hc p).2 rfl)]
  simp

/-- **C57** The same for `focallength_px` in a fit. -/
theorem C57_both_focal_lengths_fit {s : St} (hr : Reach s) {v : View} {vals : List (String × ℝ)} {order : List Cb} (hok : s.ok (.setFit v vals order))
    {p : ℕ} {x : ℝ} (hx : lastOf (s.dict v) vals (.p p .f) = some x) :
    let s' := s.step (.setFit v vals order)
    ∀ w m g, IsF g → (s.dict w).lookup m = some (.p p g) → m ≠ "image_width_px" → m ≠ "image_height_px" → s'.getattr w m = some (some x) := by
  intro s' w m g hg hm h1 h2
  have hpr : Pres s s' := step_pres hr.struct hok trivial
  rw [getattr_other h1 h2, hpr.dict, hm, Option.map_some]
  congr 1
  apply read_val
  rw [setFit_par hr.struct hok, after_f _ _ _ hg, if_pos ((fit_focal hr hok).2 (by rw [hx]; simp))]
  simp only
  rw [fitLoop_par, hx]

/-- **C57** If lenses and projections are not shared, a Brown lens has the new scale.  Missing: shared lenses (C52). -/
theorem C57_lens_partial {s : St} (hr : ReachX s) {v : View} {n : String} {p : ℕ} (hl : (s.dict v).lookup n = some (.p p .f)) (x : ℝ) (b : Bool) :
    let s' := s.step (.set v n (some x) b)
    ∀ l L, s'.lenses l = some L → L.kind = .brown → L.proj = some p → L.snap.scale = ⟨x, x⟩ := by
  intro s' l L hL hk hp
  have hok : s.ok (.set v n (some x) b) := Or.inl (by simp)
  have hr' : ReachX s' := .step hr hok trivial
  have hc := hr.reach.dicts.lookup_created hl
  have e := hr'.invX.fresh l L hL (by rw [hk]; simp)
  have hf : ∀ g, IsF g → s'.rd (.p p g) = x := by
    intro g hg
    apply rd_of_read
    apply read_val
    rw [set_par hr.reach.struct hl, after_f _ _ _ hg, if_pos ((focal_iff hr.reach.struct hc p).2 rfl)]
    simp
  rw [hk, hp] at e
  simp only [St.snapOf, hf _ (Or.inl rfl), hf _ (Or.inr rfl)] at e
  rw [e]

example : ∃ s : St, ReachX s ∧ (s.dict (.cam 0)).lookup "focallength_px" = some (.p 0 .f) ∧ (s.dict (.proj 0)).lookup "focallength_y_px" = some (.p 0 .fy) ∧
    ∃ L, s.lenses 0 = some L ∧ L.kind = .brown ∧ L.proj = some 0 := by
  obtain ⟨C, hC, hp, ho, hl⟩ := Ex.s4_cams
  have h1 := cam_lookup_p Ex.run4.reach.dicts hC .f
  rw [hp] at h1
  exact ⟨_, Ex.reachX4, h1, proj_lookup Ex.s4_projs .fy, Ex.s4_lens⟩
