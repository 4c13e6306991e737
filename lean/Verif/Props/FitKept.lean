import Verif.Props.SystemSample

/-! # C153: what a fit found survives `sample` and `set_to_mean` -/

open Classical Sys

/-- **C153** What a fit has stored in a parameter that the user never gave an uncertainty is still read after `sample()` and after
`set_to_mean()`.  Missing: parameters with an uncertainty (see `C153_violated`), headings, the focal lengths. -/
theorem C153_kept_partial {s : St} {L : Log} (h : Run s L) {q : Pid} (hm : L.mean q = none) (hT : ¬ IsTurn q) (hF : ∀ p g, IsF g → q ≠ .p p g)
    {v : View} {vals : List (String × ℝ)} {order : List Cb} (hok : s.ok (.setFit v vals order)) {x : ℝ} (hx : lastOf (s.dict v) vals q = some x) :
    let s' := s.step (.setFit v vals order)
    (∀ w n draw order', (s'.dict w).lookup n = some q → Plain s' w → s'.ok (.sample w draw order') →
      (s'.step (.sample w draw order')).getattr w n = some (some x)) ∧
    (∀ w n order', (s'.dict w).lookup n = some q → Plain s' w → s'.ok (.toMean w order') →
      (s'.step (.toMean w order')).getattr w n = some (some x)) := by
  intro s'
  have hr' : Reach s' := .step h.reach hok
  obtain ⟨-, h1, -⟩ := C54_set_fit_partial h.reach hok
  obtain ⟨e1, -, e2, -⟩ := h1 q x hx (fun hh => absurd hh hT) (fun p g hg hq => absurd hq (hF p g hg))
  have hmean : (s'.par q).mean = none := by rw [e2, h.agree.mean q hT, hm]
  refine ⟨fun w n draw order' hl hp hok' => ?_, fun w n order' hl hp hok' => ?_⟩
  · have hpr : Pres s' (s'.step (.sample w draw order')) := step_pres hr'.struct hok' trivial
    rw [getattr_eq (hp.pres hpr), hpr.dict, hl, Option.map_some]
    congr 1
    apply read_val
    rw [sample_par hr'.struct hok', after_other _ _ hT hF, sampleLoop_par, if_neg (by rw [hmean]; simp)]
    exact e1
  · have hpr : Pres s' (s'.step (.toMean w order')) := step_pres hr'.struct hok' trivial
    rw [getattr_eq (hp.pres hpr), hpr.dict, hl, Option.map_some]
    congr 1
    apply read_val
    rw [toMean_par hr'.struct hok', after_other _ _ hT hF, meanLoop_par, if_neg (by rw [hmean]; simp)]
    exact e1

/-- **C153** is violated: a fit does not replace the mean of an uncertain parameter, so whatever it found, `set_to_mean()` returns to the
mean the user gave before the fit, and `sample()` draws around that mean. -/
theorem C153_violated {s : St} {L : Log} (h : Run s L) {q : Pid} {m : ℝ} (hm : L.mean q = some m) (hT : ¬ IsTurn q) (hF : ∀ p g, IsF g → q ≠ .p p g)
    {v : View} {vals : List (String × ℝ)} {order : List Cb} (hok : s.ok (.setFit v vals order)) {x : ℝ} (hx : lastOf (s.dict v) vals q = some x) :
    let s' := s.step (.setFit v vals order)
    (s'.par q).read = some x ∧
    (∀ w n draw order', (s'.dict w).lookup n = some q → Plain s' w → s'.ok (.sample w draw order') →
      (s'.step (.sample w draw order')).getattr w n = some (some (draw q))) ∧
    (∀ w n order', (s'.dict w).lookup n = some q → Plain s' w → s'.ok (.toMean w order') →
      (s'.step (.toMean w order')).getattr w n = some (some m)) := by
  intro s'
  have h' : Run s' _ := .step h hok
  have hm' : (Log.step s.dict L (.setFit v vals order)).mean q = some m := hm
  obtain ⟨-, h1, -⟩ := C54_set_fit_partial h.reach hok
  obtain ⟨e1, -⟩ := h1 q x hx (fun hh => absurd hh hT) (fun p g hg hq => absurd hq (hF p g hg))
  obtain ⟨k1, k2, -⟩ := C56_uncertain_partial h' hm' hT hF
  exact ⟨read_val e1, k1, k2⟩

/-- The hypotheses can be met: the tilt of a camera is given as 80 ± 1 and then fitted to 85. -/
example : ∃ (s : St) (L : Log) (order : List Cb), Run s L ∧ L.mean (.o 0 .ang) = some 80 ∧ L.mean (.o 0 .roll) = none ∧
    s.ok (.setFit (.cam 0) [("tilt_deg", 85), ("roll_deg", 2)] order) ∧
    lastOf (s.dict (.cam 0)) [("tilt_deg", 85), ("roll_deg", 2)] (.o 0 .ang) = some 85 ∧
    lastOf (s.dict (.cam 0)) [("tilt_deg", 85), ("roll_deg", 2)] (.o 0 .roll) = some 2 := by
  obtain ⟨C, hC, hp, ho, hl⟩ := Ex.s4_cams
  obtain ⟨O, hO, hk⟩ := Ex.s4_orients
  have hlk := cam_lookup_o Ex.run4.reach.dicts hC (by rw [ho]; exact hO) .ang
  have hlk' := cam_lookup_o Ex.run4.reach.dicts hC (by rw [ho]; exact hO) .roll
  rw [hk, ho] at hlk hlk'
  simp only [OField.name] at hlk hlk'
  have hpr : Pres Ex.s4 (Ex.s4.step (.setStats (.cam 0) "tilt_deg" 80 1)) := step_pres Ex.run4.reach.struct (op := .setStats _ _ _ _) trivial trivial
  obtain ⟨order, horder⟩ := Ex.exists_order ((Ex.s4.step (.setStats (.cam 0) "tilt_deg" 80 1)).fitCallbacks
    ((Ex.s4.step (.setStats (.cam 0) "tilt_deg" 80 1)).dict (.cam 0)) [("tilt_deg", 85), ("roll_deg", 2)])
  refine ⟨_, _, order, .step (op := .setStats (.cam 0) "tilt_deg" 80 1) Ex.run4 trivial, ?_, ?_, horder, ?_, ?_⟩
  · simp [Log.step, hlk]
  · simp [Log.step, hlk, Ex.mean4]
  · rw [hpr.dict]; simp [lastOf, hlk, hlk']
  · rw [hpr.dict]; simp [lastOf, hlk']
