import Verif.Props.SystemFit

/-! # Fit candidates, uncertain parameters -/

set_option linter.constructorNameAsVariable false

open Classical Sys

/-! ### C55 -/

/-- The types of the parameters of existing objects. -/
def Sys.TypeOk (s : St) : Prop := ∀ q, Created s q → (s.par q).type = q.type

theorem Sys.Pres.created {s s' : St} (h : Pres s s') {q : Pid} (hc : Created s' q) : Created s q := by
  cases q with
  | o o f => exact h.orients_ne hc
  | p p f => have : s'.projs p ≠ none := hc; rw [h.projs] at this; exact this
  | l l f => exact h.lenses_ne hc
  | c c f => have : s'.cams c ≠ none := hc; rw [h.cams] at this; exact this

theorem Sys.TypeOk.pres {s s' : St} (h : TypeOk s) (hp : Pres s s') : TypeOk s' := by
  intro q hc; rw [hp.type]; exact h q (hp.created hc)

theorem Sys.Reach.typeOk {s : St} (h : Reach s) : TypeOk s := by
  induction h with
  | start => intro q hq; cases q <;> exact absurd rfl hq
  | step hr hok ih =>
    rename_i s op
    by_cases hp : op.isParam
    · exact ih.pres (step_pres hr.struct hok hp)
    · cases op with
      | newOrient o k args =>
        refine TypeOk.pres (s := preOrient s o k args) ?_ (Pres.runMatrix _ o)
        intro q hq
        cases q with
        | o o' f =>
          by_cases e : o' = o
          · subst e; cases f <;> simp [preOrient, newParam, Pid.type, OField.type]
          · have : Created s (.o o' f) := by simpa [Created, preOrient, Function.update_apply, e] using hq
            simpa [preOrient, e] using ih _ this
        | p p f => exact ih (.p p f) hq
        | l l f => exact ih (.l l f) hq
        | c c f => exact ih (.c c f) hq
      | newProj p k args attr =>
        intro q hq
        cases q with
        | o o f => exact ih (.o o f) hq
        | p p' f =>
          by_cases e : p' = p
          · subst e; cases f <;> simp [St.step, St.newProj, newParam, Pid.type]
          · have : Created s (.p p' f) := by simpa [Created, St.step, St.newProj, Function.update_apply, e] using hq
            have := ih _ this
            cases f <;> simpa [St.step, St.newProj, e] using this
        | l l f => exact ih (.l l f) hq
        | c c f => exact ih (.c c f) hq
      | newLens l k args =>
        refine TypeOk.pres (s := preLens s l k args) ?_ (Pres.runLens _ l)
        intro q hq
        cases q with
        | o o f => exact ih (.o o f) hq
        | p p f => exact ih (.p p f) hq
        | l l' f =>
          by_cases e : l' = l
          · subst e; simp [preLens, newParam, Pid.type]
          · have : Created s (.l l' f) := by simpa [Created, preLens, Function.update_apply, e] using hq
            simpa [preLens, e] using ih _ this
        | c c f => exact ih (.c c f) hq
      | newCam c p o l =>
        have hc0 : ∀ q, Created (s.setProjection l p) q → Created s q := by
          intro q hq
          by_cases h : ∃ L, s.lenses l = some L ∧ L.kind ≠ .none
          · obtain ⟨L, hl, hk⟩ := h
            rw [setProjection_eq hl hk] at hq
            have := (Pres.runLens (preBind s l p L) l).created hq
            cases q with
            | o o f => simpa [Created, preBind_orients] using this
            | p p f => simpa [Created, preBind_projs] using this
            | l l' f =>
              by_cases e : l' = l
              · subst e; simp [Created, hl]
              · simpa [Created, preBind_lenses, Function.update_apply, e] using this
            | c c f =>
              have hh : (preBind s l p L).cams c ≠ none := this
              unfold preBind at hh; rw [(hook_frame _ _ _).2.2.2.1] at hh; exact hh
          · rwa [setProjection_none fun L hL => by by_contra hk; exact h ⟨L, hL, hk⟩] at hq
        have h0 : ∀ q, Created (s.setProjection l p) q → ((s.setProjection l p).par q).type = q.type := by
          intro q hq; rw [(setProjection_fields s l p q).2.2.2.2]; exact ih q (hc0 q hq)
        intro q hq
        cases q with
        | o o f => exact h0 (.o o f) hq
        | p p f => exact h0 (.p p f) hq
        | l l f => exact h0 (.l l f) hq
        | c c' f =>
          by_cases e : c' = c
          · subst e; simp [St.step, newCam_eq, camTail, newParam, Pid.type]
          · have hq' : ((camTail (s.setProjection l p) c p o l).cams c') ≠ none := hq
            have : Created (s.setProjection l p) (.c c' f) := by simpa [Created, camTail, Function.update_apply, e] using hq'
            have := h0 _ this
            show ((camTail (s.setProjection l p) c p o l).par (.c c' f)).type = _
            simpa [camTail, e] using this
      | newGroup g d => exact fun q hq => ih q (by cases q <;> exact hq)
      | setTrace v t => exact fun q hq => ih q (by cases q <;> exact hq)
      | _ => exact absurd trivial hp

/-- The type of the parameter matches the mask (any type if there is no mask). -/
def Sys.Matches (mask : Option ℕ) (q : Pid) : Prop := ∀ m, mask = some m → q.type &&& m ≠ 0

/-- **C55** After any history `get_fit_parameters` gives exactly the names of the parameters that match the mask and that
the user has not fixed, in the order of declaration.  Missing: headings for which the exceptions `Log.exc`, `Log.excFit`
happened. -/
theorem C55_fit_parameters_partial {s : St} {L : Log} (h : Run s L) (v : View) (mask : Option ℕ)
    (hx : ∀ kv ∈ s.dict v, IsTurn kv.2 → ¬ L.exc kv.2 ∧ ¬ L.excFit kv.2) :
    s.getFit v mask = ((s.dict v).filter fun kv => Matches mask kv.2 ∧ ¬ L.user kv.2).map Prod.fst := by
  unfold St.getFit
  have key : ∀ d : Dict, (∀ kv ∈ d, kv ∈ s.dict v) → (d.filterMap fun kv =>
      if (∃ m, mask = some m ∧ (s.par kv.2).type &&& m = 0) then none
      else if (s.par kv.2).state ≠ .userSet ∨ (s.par kv.2).value = none then some kv.1 else none) =
      (d.filter fun kv => Matches mask kv.2 ∧ ¬ L.user kv.2).map Prod.fst := by
    intro d
    induction d with
    | nil => intro _; rfl
    | cons a t ih =>
      intro hd
      have ha := hd a (by simp)
      have ht := h.reach.typeOk a.2 (h.reach.dicts.created ha)
      have hu := h.agree.user a.2 (fun hT => hx a ha hT)
      have hm : Matches mask a.2 ↔ ¬ ∃ m, mask = some m ∧ (s.par a.2).type &&& m = 0 := by
        rw [ht]; unfold Matches; push Not; rfl
      have hu' : ¬ L.user a.2 ↔ ((s.par a.2).state ≠ .userSet ∨ (s.par a.2).value = none) := by
        rw [← hu]; tauto
      rw [List.filterMap_cons, List.filter_cons]
      by_cases c1 : ∃ m, mask = some m ∧ (s.par a.2).type &&& m = 0
      · rw [if_pos c1, if_neg (by simp [hm, c1])]
        exact ih fun kv hkv => hd kv (by simp [hkv])
      · rw [if_neg c1]
        by_cases c2 : (s.par a.2).state ≠ .userSet ∨ (s.par a.2).value = none
        · rw [if_pos c2, if_pos (by rw [decide_eq_true_eq]; exact ⟨hm.2 c1, hu'.2 c2⟩)]
          simp only [List.map_cons]
          rw [ih fun kv hkv => hd kv (by simp [hkv])]
        · rw [if_neg c2, if_neg (by rw [decide_eq_true_eq]; exact fun hh => c2 (hu'.1 hh.2))]
          exact ih fun kv hkv => hd kv (by simp [hkv])
  exact key _ fun kv h => h

example : ∃ (s : St) (L : Log), Run s L ∧ s.dict (.cam 0) ≠ [] ∧ ∀ kv ∈ s.dict (.cam 0), IsTurn kv.2 → ¬ L.exc kv.2 ∧ ¬ L.excFit kv.2 := by
  refine ⟨_, _, Ex.run4, ?_, fun kv _ _ => ⟨Ex.exc4 _, Ex.excFit4 _⟩⟩
  obtain ⟨C, hC, hp, ho, hl⟩ := Ex.s4_cams
  have h1 := cam_lookup_p Ex.run4.reach.dicts hC .f
  intro h; rw [h] at h1; cases h1

/-- **C55** is violated: a heading outside [-360, 360] that comes from a fit counts as fixed by the user. -/
theorem C55_violated {s : St} {L : Log} (h : Run s L) {o : ℕ} {O : OObj} (hO : s.orients o = some O) {x : ℝ} (hx : Out x) {order : List Cb}
    (hok : s.ok (.setFit (.orient o) [(OField.name O.kind .turn, x)] order)) (mask : Option ℕ) :
    let s' := s.step (.setFit (.orient o) [(OField.name O.kind .turn, x)] order)
    OField.name O.kind .turn ∉ s'.getFit (.orient o) mask ∧
      ∃ L', Run s' L' ∧ ¬ L'.user (.o o .turn) := by
  intro s'
  have hl : (s.dict (.orient o)).lookup (OField.name O.kind .turn) = some (.o o .turn) := orient_lookup hO .turn
  have hlast : lastOf (s.dict (.orient o)) [(OField.name O.kind .turn, x)] (.o o .turn) = some x := by simp [lastOf, hl]
  obtain ⟨h1, h2, -⟩ := C54_violated_heading h.reach hok hlast hx
  have hpr : Pres s s' := step_pres h.reach.struct hok trivial
  refine ⟨?_, _, .step h hok, ?_⟩
  · unfold St.getFit
    rw [hpr.dict, List.mem_filterMap]
    rintro ⟨kv, hkv, hh⟩
    have hd : s.dict (.orient o) = orientDict O.kind o := by simp only [St.dict, hO]
    rw [hd] at hkv
    obtain ⟨f, rfl⟩ := mem_orientDict hkv
    split_ifs at hh with c1 c2
    simp only [Option.some.injEq] at hh
    have hf : f = .turn := by
      cases hk : O.kind <;> rw [hk] at hh <;> cases f <;> simp [OField.name] at hh ⊢
    subst hf
    simp only at c2
    rw [h1, h2] at c2
    simp at c2
  · simp [Log.step, hlast]

example : ∃ (s : St) (L : Log) (O : OObj) (order : List Cb), Run s L ∧ s.orients 0 = some O ∧ Out 400 ∧
    s.ok (.setFit (.orient 0) [(OField.name O.kind .turn, 400)] order) := by
  obtain ⟨O, hO, hk⟩ := Ex.s4_orients
  obtain ⟨order, ho⟩ := Ex.exists_order (Ex.s4.fitCallbacks (Ex.s4.dict (.orient 0)) [(OField.name O.kind .turn, 400)])
  exact ⟨_, _, O, order, Ex.run4, hO, Or.inr (by norm_num), ho⟩

/-! ### C56 -/

/-- An operation that is no new assignment to the parameter. -/
def Sys.NotAssigned (s : St) (q : Pid) : Op → Prop
  | .set v n _ _ => (s.dict v).lookup n ≠ some q
  | .setStats v n _ _ => (s.dict v).lookup n ≠ some q
  | .newCam c _ _ _ => ∀ f, q ≠ .c c f
  | _ => True

/-- **C56** A parameter with an uncertainty, other than a heading and the two focal lengths: `sample()` reads as the new
draw, `set_to_mean()` as the mean, and it stays uncertain with the same mean through every operation that is no
assignment to it.  Missing: headings and the two focal lengths. -/
theorem C56_uncertain_partial {s : St} {L : Log} (h : Run s L) {q : Pid} {m : ℝ} (hm : L.mean q = some m) (hT : ¬ IsTurn q)
    (hF : ∀ p g, IsF g → q ≠ .p p g) :
    (∀ v n draw order, (s.dict v).lookup n = some q → Plain s v → s.ok (.sample v draw order) →
      (s.step (.sample v draw order)).getattr v n = some (some (draw q))) ∧
    (∀ v n order, (s.dict v).lookup n = some q → Plain s v → s.ok (.toMean v order) →
      (s.step (.toMean v order)).getattr v n = some (some m)) ∧
    (∀ op, s.ok op → Created s q → NotAssigned s q op → ∃ L', Run (s.step op) L' ∧ L'.mean q = some m) := by
  have hr := h.reach
  have hmean : (s.par q).mean = some m := by rw [h.agree.mean q hT, hm]
  refine ⟨?_, ?_, ?_⟩
  · intro v n draw order hl hp hok
    have hpr : Pres s (s.step (.sample v draw order)) := step_pres hr.struct hok trivial
    rw [getattr_eq (hp.pres hpr), hpr.dict, hl, Option.map_some]
    congr 1
    apply read_val
    rw [sample_par hr.struct hok, after_other _ _ hT hF, sampleLoop_par, if_pos ⟨⟨n, lookup_mem hl⟩, by rw [hmean]; simp⟩]
  · intro v n order hl hp hok
    have hpr : Pres s (s.step (.toMean v order)) := step_pres hr.struct hok trivial
    rw [getattr_eq (hp.pres hpr), hpr.dict, hl, Option.map_some]
    congr 1
    apply read_val
    rw [toMean_par hr.struct hok, after_other _ _ hT hF, meanLoop_par, if_pos ⟨⟨n, lookup_mem hl⟩, by rw [hmean]; simp⟩]
    exact hmean
  · intro op hok hc hn
    refine ⟨_, .step h hok, ?_⟩
    cases op with
    | newOrient o k args =>
      simp only [Log.step, Log.create]
      cases q with
      | o o' f =>
        have hne : o' ≠ o := by rintro rfl; exact hc hok
        simp only [if_neg hne]; exact hm
      | _ => exact hm
    | newProj p k args attr =>
      simp only [Log.step, Log.create]
      cases q with
      | p p' f =>
        have hne : p' ≠ p := by rintro rfl; exact hc hok.1
        cases f <;> simp only [if_neg hne] <;> exact hm
      | _ => exact hm
    | newLens l k args =>
      simp only [Log.step, Log.create]
      cases q with
      | l l' f =>
        have hne : l' ≠ l := by rintro rfl; exact hc hok
        simp only [if_neg hne]; exact hm
      | _ => exact hm
    | newCam c p o l =>
      simp only [Log.step, Log.create]
      cases q with
      | c c' f =>
        have hne : c' ≠ c := by rintro rfl; exact hn f rfl
        simp only [if_neg hne]; exact hm
      | _ => exact hm
    | newGroup g d => exact hm
    | setTrace v t => exact hm
    | set v n x b =>
      simp only [Log.step]
      cases e : (s.dict v).lookup n with
      | none => exact hm
      | some q0 =>
        have hne : q ≠ q0 := by rintro rfl; exact hn e
        simp only [if_neg hne]; exact hm
    | setStats v n m' σ =>
      simp only [Log.step]
      cases e : (s.dict v).lookup n with
      | none => exact hm
      | some q0 =>
        have hne : q ≠ q0 := by rintro rfl; exact hn e
        simp only [if_neg hne]; exact hm
    | setDefault v n x =>
      simp only [Log.step]
      cases e : (s.dict v).lookup n with
      | none => exact hm
      | some q0 => exact hm
    | setFit v vals order => exact hm
    | sample v draw order => exact hm
    | toMean v order => exact hm

example : ∃ (s : St) (L : Log), Run s L ∧ L.mean (.o 0 .ang) = some 80 ∧ (s.dict (.cam 0)).lookup "tilt_deg" = some (.o 0 .ang) ∧ s.traces (.cam 0) = none := by
  obtain ⟨C, hC, hp, ho, hl⟩ := Ex.s4_cams
  obtain ⟨O, hO, hk⟩ := Ex.s4_orients
  have hlk := cam_lookup_o Ex.run4.reach.dicts hC (by rw [ho]; exact hO) .ang
  rw [hk, ho] at hlk
  simp only [OField.name] at hlk
  have hpr : Pres Ex.s4 (Ex.s4.step (.setStats (.cam 0) "tilt_deg" 80 1)) := step_pres Ex.run4.reach.struct (op := .setStats _ _ _ _) trivial trivial
  refine ⟨_, _, .step (op := .setStats (.cam 0) "tilt_deg" 80 1) Ex.run4 trivial, ?_, by rw [hpr.dict]; exact hlk, ?_⟩
  · simp [Log.step, hlk]
  · have hcb : (Ex.s4.par (.o 0 .ang)).callback = some (.matrix 0) := Ex.run4.reach.struct.ocb 0 (by rw [hO]; simp) .ang
    simp only [St.step, hlk, St.assignStats, mod_par, if_true, hcb, St.runOpt, St.run, runMatrix_traces]
    exact Ex.trace4

/-- **C56** is violated for the two focal lengths of a camera: whatever is drawn for `focallength_x_px`, `sample()` and
`set_to_mean()` leave it at `focallength_px`. -/
theorem C56_violated_focal {s : St} {L : Log} (h : Run s L) {c : ℕ} {C : CObj} (hC : s.cams c = some C) (hf : L.mean (.p C.proj .f) = none)
    {draw : Pid → ℝ} {order : List Cb} (hok : s.ok (.sample (.cam c) draw order)) (hok' : s.ok (.toMean (.cam c) order)) :
    (s.step (.sample (.cam c) draw order)).getattr (.cam c) "focallength_x_px" = some (L.val (.p C.proj .f)) ∧
    (s.step (.toMean (.cam c) order)).getattr (.cam c) "focallength_x_px" = some (L.val (.p C.proj .f)) := by
  have hr := h.reach
  obtain ⟨P, -, -, hP, -⟩ := hr.dicts.cam c C hC
  have hPn : s.projs C.proj ≠ none := by rw [hP]; simp
  have hlx : (s.dict (.cam c)).lookup "focallength_x_px" = some (.p C.proj .fx) := cam_lookup_p hr.dicts hC .fx
  have hlf : (s.dict (.cam c)).lookup "focallength_px" = some (.p C.proj .f) := cam_lookup_p hr.dicts hC .f
  have hmean : (s.par (.p C.proj .f)).mean = none := by rw [h.agree.mean _ not_turn_p, hf]
  have hv : (s.par (.p C.proj .f)).value = L.val (.p C.proj .f) := h.agree.plain' not_turn_p f_not_f
  have hpr : Pres s (s.step (.sample (.cam c) draw order)) := step_pres hr.struct hok trivial
  have hpr' : Pres s (s.step (.toMean (.cam c) order)) := step_pres hr.struct hok' trivial
  constructor
  · rw [getattr_eq (plain_cam _ _), hpr.dict, hlx, Option.map_some, read_value (.step hr hok) (by rw [hpr.projs]; exact hPn) rfl,
      sample_par hr.struct hok, after_f _ _ _ (Or.inl rfl), if_pos (focal_in_order hr hok.2 hlf)]
    simp only
    rw [sampleLoop_par, if_neg (by rw [hmean]; simp), hv]
  · rw [getattr_eq (plain_cam _ _), hpr'.dict, hlx, Option.map_some, read_value (.step hr hok') (by rw [hpr'.projs]; exact hPn) rfl,
      toMean_par hr.struct hok', after_f _ _ _ (Or.inl rfl), if_pos (focal_in_order hr hok'.2 hlf)]
    simp only
    rw [meanLoop_par, if_neg (by rw [hmean]; simp), hv]

example : ∃ (s : St) (L : Log) (C : CObj) (draw : Pid → ℝ) (order : List Cb), Run s L ∧ s.cams 0 = some C ∧ L.mean (.p C.proj .f) = none ∧
    s.ok (.sample (.cam 0) draw order) ∧ s.ok (.toMean (.cam 0) order) := by
  obtain ⟨C, hC, hp, -, -⟩ := Ex.s4_cams
  obtain ⟨order, ho⟩ := Ex.exists_order (Ex.s4.allCallbacks (Ex.s4.dict (.cam 0)))
  exact ⟨_, _, C, fun _ => 0, order, Ex.run4, hC, Ex.mean4 _, ⟨Ex.trace4, ho⟩, ⟨Ex.trace4, ho⟩⟩

/-- **C56** is violated for the heading: after one draw outside [-360, 360] later calls of `sample()` do not redraw it. -/
theorem C56_violated_heading {s : St} (hr : Reach s) {o : ℕ} {O : OObj} (hO : s.orients o = some O) {m σ : ℝ} (hm : ¬ Out m)
    {draw draw' : Pid → ℝ} {order order' : List Cb} (hx : Out (draw (.o o .turn))) :
    let n := OField.name O.kind .turn
    let s1 := s.step (.setStats (.orient o) n m σ)
    let s2 := s1.step (.sample (.orient o) draw order)
    s1.ok (.sample (.orient o) draw order) → s2.ok (.sample (.orient o) draw' order') →
    (s2.step (.sample (.orient o) draw' order')).getattr (.orient o) n = some (some (norm360 (.o o .turn) (draw (.o o .turn)))) := by
  intro n s1 s2 hok hok'
  have ho : s.orients o ≠ none := by rw [hO]; simp
  have hr1 : Reach s1 := .step hr trivial
  have hr2 : Reach s2 := .step hr1 hok
  have hp1 : Pres s s1 := step_pres hr.struct (op := .setStats (.orient o) n m σ) trivial trivial
  have hp2 : Pres s1 s2 := step_pres hr1.struct hok trivial
  have hp3 : Pres s2 (s2.step (.sample (.orient o) draw' order')) := step_pres hr2.struct hok' trivial
  have hl : (s.dict (.orient o)).lookup n = some (.o o .turn) := orient_lookup hO .turn
  have ho1 : s1.orients o ≠ none := (hp1.orients_iff o).2 ho
  have ho2 : s2.orients o ≠ none := (hp2.orients_iff o).2 ho1
  have e1 : (s1.par (.o o .turn)).mean = some m := by
    rw [setStats_par hr.struct hl, after_turn, if_pos ⟨hr.struct.ocb o ho .turn, ho⟩]
    simp only [mod_par, if_true]
    rw [wrapP_in (v := m) rfl hm]
  have hm1 : .matrix o ∈ order := by
    rw [order_mem hok.2]
    exact ⟨_, ⟨n, lookup_mem (by rw [hp1.dict]; exact hl)⟩, hr1.struct.ocb o ho1 .turn⟩
  have hso : ∀ (d : Dict) (s : St) (draw : Pid → ℝ), (s.sampleLoop draw d).orients = s.orients := by
    intro d
    induction d with
    | nil => intro s draw; rfl
    | cons a t ih => intro s draw; obtain ⟨n, q⟩ := a; simp only [St.sampleLoop]; rw [ih]; rfl
  have e2 : s2.par (.o o .turn) = wrapP { s1.par (.o o .turn) with value := some (draw (.o o .turn)), boxed := false } := by
    rw [sample_par hr1.struct hok, after_turn, if_pos ⟨hm1, by rw [hso]; exact ho1⟩, sampleLoop_par,
      if_pos ⟨⟨n, lookup_mem (by rw [hp1.dict]; exact hl)⟩, by rw [e1]; simp⟩]
  have e3 : (s2.par (.o o .turn)).mean = none := by
    rw [e2]
    unfold wrapP
    rw [if_pos]
    show draw (.o o .turn) < -360 ∨ draw (.o o .turn) > 360
    rcases hx with h | h <;> [left; right] <;> exact h
  have e4 : (s2.par (.o o .turn)).value = some (norm360 (.o o .turn) (draw (.o o .turn))) := by
    rw [e2]; exact wrapP_value rfl o
  rw [getattr_eq (plain_orient _ _), hp3.dict, hp2.dict, hp1.dict, hl, Option.map_some]
  congr 1
  apply read_val
  rw [sample_par hr2.struct hok', after_turn]
  have e5 : (s2.sampleLoop draw' (s2.dict (.orient o))).par (.o o .turn) = s2.par (.o o .turn) := by
    rw [sampleLoop_par, if_neg (by rw [e3]; simp)]
  rw [e5]
  split_ifs
  · rw [wrapP_in e4 (norm360_range o _), e4]
  · exact e4

example : ∃ (s : St) (O : OObj) (draw draw' : Pid → ℝ) (order order' : List Cb), Reach s ∧ s.orients 0 = some O ∧ ¬ Out 359 ∧ Out (draw (.o 0 .turn)) ∧
    (s.step (.setStats (.orient 0) (OField.name O.kind .turn) 359 1)).ok (.sample (.orient 0) draw order) ∧
    ((s.step (.setStats (.orient 0) (OField.name O.kind .turn) 359 1)).step (.sample (.orient 0) draw order)).ok (.sample (.orient 0) draw' order') := by
  have hr1 : Reach Ex.s1 := .step .start Ex.ok1
  obtain ⟨O, hO⟩ := Option.ne_none_iff_exists'.1 Ex.s1_orients
  have ht : Ex.s1.traces (.orient 0) = none := by
    simp only [Ex.s1, St.step, newOrient_eq, runMatrix_traces]; rfl
  have hl : (Ex.s1.dict (.orient 0)).lookup (OField.name O.kind .turn) = some (.o 0 .turn) := orient_lookup hO .turn
  obtain ⟨order, ho⟩ := Ex.exists_order ((Ex.s1.step (.setStats (.orient 0) (OField.name O.kind .turn) 359 1)).allCallbacks
    ((Ex.s1.step (.setStats (.orient 0) (OField.name O.kind .turn) 359 1)).dict (.orient 0)))
  have ht1 : (Ex.s1.step (.setStats (.orient 0) (OField.name O.kind .turn) 359 1)).traces (.orient 0) = none := by
    have hcb : (Ex.s1.par (.o 0 .turn)).callback = some (.matrix 0) := hr1.struct.ocb 0 Ex.s1_orients .turn
    simp only [St.step, hl, St.assignStats, mod_par, if_true, hcb, St.runOpt, St.run, runMatrix_traces]
    exact ht
  have hso : ∀ (d : Dict) (s : St) (draw : Pid → ℝ), (s.sampleLoop draw d).traces = s.traces := by
    intro d
    induction d with
    | nil => intro s draw; rfl
    | cons a t ih => intro s draw; obtain ⟨n, q⟩ := a; simp only [St.sampleLoop]; rw [ih]; rfl
  have htr : ∀ (order : List Cb) (s : St), (s.runAll order).traces = s.traces := by
    have hs : ∀ (s : St) cb, (s.runSimple cb).traces = s.traces := by
      intro s cb; unfold St.runSimple; split
      · exact runMatrix_traces _ _
      · unfold St.runLens; split <;> rfl
      · rfl
    intro order
    induction order with
    | nil => intro s; rfl
    | cons cb t ih =>
      intro s
      show ((s.run cb).runAll t).traces = _
      rw [ih]
      cases cb with
      | matrix o => exact runMatrix_traces s o
      | lens l => simp only [St.run]; unfold St.runLens; split <;> rfl
      | focal p =>
        have hm : ∀ (s : St) q f, (s.mod q f).traces = s.traces := fun _ _ _ => rfl
        simp only [St.run, St.copyF, hs, hm]
  obtain ⟨order', ho'⟩ := Ex.exists_order (((Ex.s1.step (.setStats (.orient 0) (OField.name O.kind .turn) 359 1)).step
    (.sample (.orient 0) (fun _ => 361) order)).allCallbacks (((Ex.s1.step (.setStats (.orient 0) (OField.name O.kind .turn) 359 1)).step
    (.sample (.orient 0) (fun _ => 361) order)).dict (.orient 0)))
  refine ⟨Ex.s1, O, fun _ => 361, fun _ => 0, order, order', hr1, hO, ?_, Or.inr (by norm_num), ⟨ht1, ho⟩, ⟨?_, ho'⟩⟩
  · rintro (h | h) <;> norm_num at h
  · show ((St.sampleLoop _ _ _).runAll order).traces _ = none
    rw [htr, hso]; exact ht1
