import Verif.Props.Statistic
import Verif.Props.SystemFit

/-! # Fitting and sampling the parameters of an object -/

set_option linter.constructorNameAsVariable false

open Classical Stat Sys

namespace Stat

theorem newVal_none {d : Dict} {vals : List (String × ℝ)} {q : Pid} : newVal d vals q = none ↔ ¬ Named d (vals.map Prod.fst) q := by
  have key : ∀ q, lastOf d vals q = none ↔ ¬ ∃ n ∈ vals.map Prod.fst, d.lookup n = some q := by
    intro q
    have := lastOf_some (d := d) (vals := vals) (q := q)
    rw [← not_iff_not, ← ne_eq, this, not_not]
    simp
  unfold Named
  cases q with
  | p p f =>
    cases f with
    | fx =>
      simp only [newVal, Option.or_eq_none_iff, key]
      constructor
      · rintro ⟨h1, h2⟩ (h | ⟨p', h | h, g⟩)
        · exact h2 h
        · cases h; exact h1 g
        · cases h
      · intro h; exact ⟨fun g => h (Or.inr ⟨p, Or.inl rfl, g⟩), fun g => h (Or.inl g)⟩
    | fy =>
      simp only [newVal, Option.or_eq_none_iff, key]
      constructor
      · rintro ⟨h1, h2⟩ (h | ⟨p', h | h, g⟩)
        · exact h2 h
        · cases h
        · cases h; exact h1 g
      · intro h; exact ⟨fun g => h (Or.inr ⟨p, Or.inr rfl, g⟩), fun g => h (Or.inl g)⟩
    | _ =>
      simp only [newVal, key]
      constructor
      · rintro h1 (h | ⟨p', h | h, g⟩)
        · exact h1 h
        · cases h
        · cases h
      · exact fun h g => h (Or.inl g)
  | _ =>
    simp only [newVal, key]
    constructor
    · rintro h1 (h | ⟨p', h | h, g⟩)
      · exact h1 h
      · cases h
      · cases h
    · exact fun h g => h (Or.inl g)

theorem named_written {d : Dict} {vals : List (String × ℝ)} {q : Pid} : Named d (vals.map Prod.fst) q ↔ Written d vals q := by
  have key : ∀ q, lastOf d vals q ≠ none ↔ ∃ n ∈ vals.map Prod.fst, d.lookup n = some q := by
    intro q; rw [lastOf_some]; simp
  unfold Named Written
  rw [key]
  refine or_congr Iff.rfl ?_
  constructor
  · rintro ⟨p, h | h, g⟩
    · exact ⟨p, .fx, Or.inl rfl, h, (key _).2 g⟩
    · exact ⟨p, .fy, Or.inr rfl, h, (key _).2 g⟩
  · rintro ⟨p, f, hf, rfl, g⟩
    rcases hf with rfl | rfl
    · exact ⟨p, Or.inl rfl, (key _).1 g⟩
    · exact ⟨p, Or.inr rfl, (key _).1 g⟩

/-- What is read after `set_fit_parameters`. -/
theorem setFit_rd {s : St} (hr : Reach s) {v : View} {vals : List (String × ℝ)} {order : List Cb} (hok : s.ok (.setFit v vals order)) (q : Pid) :
    (s.step (.setFit v vals order)).rd q = readAfter s.rd (s.dict v) vals q := by
  have hP := setFit_par hr.struct hok
  by_cases hn : newVal (s.dict v) vals q = none
  · have := (C54_set_fit_partial hr hok).2.2.1 q (by rw [← named_written]; exact newVal_none.1 hn)
    rw [rd_eq_of_par this]
    unfold readAfter; rw [hn]
  obtain ⟨x, hx⟩ := Option.ne_none_iff_exists'.1 hn
  have goal : ((s.step (.setFit v vals order)).par q).value = some (norm360 q x) → (s.step (.setFit v vals order)).rd q = readAfter s.rd (s.dict v) vals q := by
    intro h
    unfold readAfter; rw [hx]
    unfold St.rd Param.read
    rw [h]; rfl
  apply goal
  rw [hP]
  rcases pid_cases q with ⟨o, rfl⟩ | ⟨p, g, hg, rfl⟩ | ⟨h1, h2⟩
  · have hx' : lastOf (s.dict v) vals (.o o .turn) = some x := hx
    have hval : ((s.fitLoop (s.dict v) vals).par (.o o .turn)).value = some x := by rw [fitLoop_par, hx']
    rw [after_turn, if_pos]
    · exact wrapP_value hval o
    · have hne : lastOf (s.dict v) vals (.o o .turn) ≠ none := by rw [hx']; simp
      obtain ⟨nv, -, hl⟩ := lastOf_some.1 hne
      have ho : s.orients o ≠ none := hr.dicts.lookup_created hl
      refine ⟨?_, by rw [fitLoop_orients]; exact ho⟩
      rw [fitOrder_mem hok]
      exact ⟨_, hne, hr.struct.ocb o ho .turn⟩
  · rw [norm360_not not_turn_p]
    have hx' : (lastOf (s.dict v) vals (.p p .f)).or (lastOf (s.dict v) vals (.p p g)) = some x := by
      rcases hg with rfl | rfl <;> exact hx
    rw [after_f _ _ _ hg]
    by_cases hf : lastOf (s.dict v) vals (.p p .f) = none
    · rw [if_neg (by rw [fit_focal hr hok, hf]; simp)]
      rw [hf, Option.none_or] at hx'
      rw [fitLoop_par, hx']
    · rw [if_pos (by rw [fit_focal hr hok]; exact hf)]
      obtain ⟨y, hy⟩ := Option.ne_none_iff_exists'.1 hf
      rw [hy, Option.some_or] at hx'
      show ((s.fitLoop (s.dict v) vals).par (.p p .f)).value = _
      rw [fitLoop_par, hy]; exact hx'
  · have hx' : lastOf (s.dict v) vals q = some x := by
      cases q with
      | p p f => cases f <;> first | exact hx | exact absurd rfl (h2 p _ (Or.inl rfl)) | exact absurd rfl (h2 p _ (Or.inr rfl))
      | _ => exact hx
    rw [after_other _ _ h1 h2, fitLoop_par, hx', norm360_not h1]

/-- What stays the same while positions are tried. -/
structure FitInv (s : St) (add : ℕ → ℝ) (v : View) (names : List String) (n : ℕ) (x : St × (ℕ → ℝ)) : Prop where
  reach : Reach x.1
  dict : ∀ w, x.1.dict w = s.dict w
  par : ∀ q, ¬ Named (s.dict v) names q → x.1.par q = s.par q
  rest : ∀ j, ¬ names.length + j < n → x.2 j = add j
  traces : x.1.traces = s.traces

theorem zip_fst {names : List String} {n : ℕ} (pos : Fin n → ℝ) (h : names.length ≤ n) : (names.zip (List.ofFn pos)).map Prod.fst = names := by
  rw [List.map_fst_zip]; rw [List.length_ofFn]; exact h

theorem run_traces (s : St) (cb : Cb) : (s.run cb).traces = s.traces := by
  have hs : ∀ (s : St) cb, (s.runSimple cb).traces = s.traces := by
    intro s cb; unfold St.runSimple; split
    · exact runMatrix_traces _ _
    · unfold St.runLens; split <;> rfl
    · rfl
  cases cb with
  | matrix o => exact runMatrix_traces s o
  | lens l => simp only [St.run]; unfold St.runLens; split <;> rfl
  | focal p =>
    have hm : ∀ (s : St) q f, (s.mod q f).traces = s.traces := fun _ _ _ => rfl
    simp only [St.run, St.copyF, hs, hm]

theorem runAll_traces (order : List Cb) (s : St) : (s.runAll order).traces = s.traces := by
  induction order generalizing s with
  | nil => rfl
  | cons cb t ih =>
    show ((s.run cb).runAll t).traces = _
    rw [ih, run_traces]

theorem setFit_traces (s : St) (d : Dict) (vals : List (String × ℝ)) (order : List Cb) : (s.setFit d vals order).traces = s.traces := by
  unfold St.setFit
  rw [runAll_traces]
  induction vals generalizing s with
  | nil => rfl
  | cons a t ih =>
    obtain ⟨n, v⟩ := a
    simp only [St.fitLoop]
    cases d.lookup n with
    | none => exact ih s
    | some q => simp only; rw [ih]; rfl

/-- The reading depends only on what is not named. -/
theorem readAfter_congr {rd rd' : Pid → ℝ} {d : Dict} {vals : List (String × ℝ)} (h : ∀ q, ¬ Named d (vals.map Prod.fst) q → rd q = rd' q) :
    readAfter rd d vals = readAfter rd' d vals := by
  funext q
  unfold readAfter
  cases e : newVal d vals q with
  | some x => rfl
  | none => exact h q (newVal_none.1 e)

/-- The function `P`: the log probability at a position. -/
noncomputable def probAt {n : ℕ} (s : St) (add : ℕ → ℝ) (v : View) (names : List String) (T : List Term) (pos : Fin n → ℝ) : Num :=
  logProbability (T.map fun t => t (readAfter s.rd (s.dict v) (names.zip (List.ofFn pos))) (rest names.length pos add))

theorem computes {s : St} {add : ℕ → ℝ} {v : View} {names : List String} {n : ℕ} (hn : names.length ≤ n) (T : List Term)
    {ord : List Cb → List Cb} (hord : ∀ l, IsOrder (ord l) l) :
    Computes (FitInv s add v names n) (getLogProb v names T ord) (probAt (n := n) s add v names T) := by
  intro x pos hx
  have hok : x.1.ok (.setFit v (names.zip (List.ofFn pos)) (ord (x.1.fitCallbacks (x.1.dict v) (names.zip (List.ofFn pos))))) := hord _
  have hz := zip_fst (names := names) pos hn
  have hrd := fun q => setFit_rd hx.reach hok q
  constructor
  · refine ⟨.step hx.reach hok, fun w => ?_, fun q hq => ?_, fun j hj => ?_, ?_⟩
    · exact ((step_pres hx.reach.struct hok trivial).dict w).trans (hx.dict w)
    · refine ((C54_set_fit_partial hx.reach hok).2.2.1 q ?_).trans (hx.par q hq)
      rw [← named_written, hz, hx.dict]; exact hq
    · simp only [getLogProb]; rw [dif_neg hj]; exact hx.rest j hj
    · exact (setFit_traces _ _ _ _).trans hx.traces
  · unfold probAt
    have e1 : (x.1.setFit (x.1.dict v) (names.zip (List.ofFn pos)) (ord (x.1.fitCallbacks (x.1.dict v) (names.zip (List.ofFn pos))))).rd =
        readAfter s.rd (s.dict v) (names.zip (List.ofFn pos)) := by
      rw [← hx.dict v]
      refine (funext hrd).trans ?_
      apply readAfter_congr
      intro q hq
      rw [hz, hx.dict] at hq
      exact rd_eq_of_par (hx.par q hq)
    have e2 : (fun j => if h : names.length + j < n then pos ⟨names.length + j, h⟩ else x.2 j) = rest names.length pos add := by
      funext j
      unfold rest
      split_ifs with h
      · rfl
      · exact hx.rest j h
    simp only [getLogProb, e1, e2]

theorem FitInv.init {s : St} (hr : Reach s) (add : ℕ → ℝ) (v : View) (names : List String) (n : ℕ) : FitInv s add v names n (s, add) :=
  ⟨hr, fun _ => rfl, fun _ _ => rfl, fun _ _ => rfl, rfl⟩

theorem idxmax_ok {α : Type} {l : List (α × Num)} {b : α × Num} (hn : ∀ r ∈ l, r.2 ≠ .nan) (h : idxmax l = .ok b) : b ∈ l ∧ ∀ r ∈ l, r.2 ≤ b.2 := by
  induction l generalizing b with
  | nil => cases h
  | cons a t ih =>
    cases t with
    | nil =>
      simp only [idxmax, Except.ok.injEq] at h
      subst h
      refine ⟨by simp, ?_⟩
      intro r hr
      simp only [List.mem_singleton] at hr
      subst hr
      exact ⟨hn _ (by simp), hn _ (by simp), le_rfl⟩
    | cons a' t' =>
      simp only [idxmax] at h
      obtain ⟨c, hc, h⟩ := bind_ok h
      obtain ⟨h1, h2⟩ := ih (fun r hr => hn r (by simp at hr ⊢; tauto)) hc
      simp only [pure, Except.pure, Except.ok.injEq] at h
      by_cases hle : c.2 ≤ a.2
      · rw [if_pos hle] at h
        subst h
        refine ⟨by simp, ?_⟩
        intro r hr
        rw [List.mem_cons] at hr
        rcases hr with rfl | hr
        · exact ⟨hn _ (by simp), hn _ (by simp), le_rfl⟩
        · have := h2 r hr
          exact ⟨this.1, hle.2.1, this.2.2.trans hle.2.2⟩
      · rw [if_neg hle] at h
        subst h
        refine ⟨by rw [List.mem_cons]; exact Or.inr h1, ?_⟩
        intro r hr
        rw [List.mem_cons] at hr
        rcases hr with rfl | hr
        · have hcn := hn c (by rw [List.mem_cons]; exact Or.inr h1)
          have han := hn r (by simp)
          refine ⟨han, hcn, ?_⟩
          rcases le_total (Num.ext r.2) (Num.ext c.2) with h | h
          · exact h
          · exact absurd ⟨hcn, han, h⟩ hle
        · exact h2 r hr

theorem logProbability_ne_nan (xs : List Num) : logProbability xs ≠ .nan := by
  unfold logProbability
  by_cases h : npsum xs = .nan
  · simp only [if_pos h]; simp
  · simp only [if_neg h]; exact h

/-- The steps of a successful call. -/
theorem metropolisOn_ok {v : View} {params additional : List FitParam} {T : List Term} {ord : List Cb → List Cb} {scale iterations burn : ℝ}
    {R : Rand (params ++ additional).length} {s s' : St} {add add' : ℕ → ℝ} {rows : List Row}
    (h : metropolisOn v params additional T ord scale iterations burn R s add = .ok (s', add', rows)) :
    ∃ (x : (St × (ℕ → ℝ)) × (Fin (params ++ additional).length → ℝ)) (A : Args (params ++ additional).length) (m : (St × (ℕ → ℝ)) × _) (best : Row),
      findStart (getLogProb v (params.map FitParam.name) T ord) R.draws (s, add) (fun k => ((params ++ additional).get k).value) = .ok x ∧
      A.iterations = iterations ∧ A.burn = burn ∧ A.tn = R.tn ∧ A.u = R.u ∧
      (∃ rs, ranges (params ++ additional) = .ok rs ∧ (A.lower = fun k => (rs.getD k.1 (none, none)).1) ∧ A.upper = fun k => (rs.getD k.1 (none, none)).2) ∧
      metropolis (getLogProb v (params.map FitParam.name) T ord) A x.1 x.2 = .ok m ∧
      (rows = m.2.map fun r => (((params ++ additional).map FitParam.name).zip (List.ofFn r.1), r.2)) ∧
      idxmax rows = .ok best ∧ add' = m.1.2 ∧
      s' = (m.1.1.step (.setTrace v (some rows))).step (.setFit v best.1
        (ord ((m.1.1.step (.setTrace v (some rows))).fitCallbacks ((m.1.1.step (.setTrace v (some rows))).dict v) best.1))) := by
  unfold metropolisOn at h
  obtain ⟨rs, h1, h⟩ := bind_ok h
  obtain ⟨x, h2, h⟩ := bind_ok h
  obtain ⟨steps, h3, h⟩ := bind_ok h
  obtain ⟨m, h4, h⟩ := bind_ok h
  obtain ⟨best, h5, h⟩ := bind_ok h
  simp only [pure, Except.pure, Except.ok.injEq, Prod.mk.injEq] at h
  obtain ⟨e1, e2, e3⟩ := h
  refine ⟨x, _, m, best, h2, rfl, rfl, rfl, rfl, ⟨rs, h1, rfl, rfl⟩, h4, e3.symm, by rw [← e3]; exact h5, e2.symm, ?_⟩
  rw [← e1, ← e3]; rfl

end Stat

/-- **C59** for the parameters of a camera or group: each row of the trace of `metropolis` is a position together with the log
probability at this position, as computed from the state before the call, and no row is impossible.
Missing: terms that give `+inf`. -/
theorem C59_camera_partial {v : View} {params additional : List FitParam} {T : List Term} {ord : List Cb → List Cb} (hord : ∀ l, IsOrder (ord l) l)
    {scale iterations burn : ℝ} {R : Rand (params ++ additional).length} {s s' : St} (hr : Reach s) {add add' : ℕ → ℝ} {rows : List Row}
    (h : metropolisOn v params additional T ord scale iterations burn R s add = .ok (s', add', rows)) :
    ∀ row ∈ rows, ∃ pos : Fin (params ++ additional).length → ℝ,
      row.1 = ((params ++ additional).map FitParam.name).zip (List.ofFn pos) ∧
      LogProbAt s.rd (s.dict v) (params.map FitParam.name) T add pos row.2 ∧
      ((∀ t ∈ T, ∀ rd a, t rd a ≠ .pinf) → (∀ i, 0 ≤ R.u i) → row.2 ≠ .ninf) := by
  obtain ⟨x, A, m, best, h2, -, -, -, hu, -, h4, h5, h6, -, -⟩ := metropolisOn_ok h
  have hlen : (params.map FitParam.name).length ≤ (params ++ additional).length := by simp
  have hC := computes (s := s) (add := add) (v := v) hlen T hord
  obtain ⟨hx1, hx2, -⟩ := (C62_start_search_partial hC R.draws (FitInv.init hr add v _ _) _).2 x.1 x.2 h2
  obtain ⟨k1, k2⟩ := C59_rows_partial hC hx1 (s' := m.1) (tr := m.2) h4
  intro row hrow
  rw [h5, List.mem_map] at hrow
  obtain ⟨r, hr', rfl⟩ := hrow
  refine ⟨r.1, rfl, ?_, ?_⟩
  · show IsTotal _ r.2
    rw [k1 r hr']
    exact logProbability_total _
  · intro hT hu'
    refine k2 ?_ (by rw [hu]; exact hu') ?_ r hr'
    · intro pos
      unfold probAt
      have key : ∀ xs : List Num, (∀ y ∈ xs, y ≠ .pinf) → npsum xs ≠ .pinf := by
        intro xs
        induction xs with
        | nil => intro _; simp [npsum]
        | cons y t ih =>
          intro hy e
          have i1 := ih fun z hz => hy z (by simp [hz])
          have i2 := hy y (by simp)
          simp only [npsum] at e
          generalize npsum t = w at *
          cases y <;> cases w <;> simp_all [add_def, Num.add]
      have hk := key (T.map fun t => t (readAfter s.rd (s.dict v) ((params.map FitParam.name).zip (List.ofFn pos))) (rest (params.map FitParam.name).length pos add))
        (by intro y hy; rw [List.mem_map] at hy; obtain ⟨t, ht, rfl⟩ := hy; exact hT t ht _ _)
      unfold logProbability
      simp only
      split_ifs
      · simp
      · exact hk
    · intro e
      apply hx2
      rw [e]; trivial

/-- **C61** After `metropolis` the camera (or group) has the values of a row of maximal probability, and no other parameter
has changed.  Missing: a heading outside [-360, 360] is read modulo 360; the two focal lengths if `focallength_px` is
fitted together with them. -/
theorem C61_most_probable_partial {v : View} {params additional : List FitParam} {T : List Term} {ord : List Cb → List Cb} (hord : ∀ l, IsOrder (ord l) l)
    {scale iterations burn : ℝ} {R : Rand (params ++ additional).length} {s s' : St} (hr : Reach s) {add add' : ℕ → ℝ} {rows : List Row}
    (h : metropolisOn v params additional T ord scale iterations burn R s add = .ok (s', add', rows)) :
    Reach s' ∧ s'.traces v = some rows ∧
    (∃ best ∈ rows, (∀ row ∈ rows, row.2 ≤ best.2) ∧
      ∀ q x, lastOf (s.dict v) best.1 q = some x → (IsTurn q → ¬ Out x) → (∀ p, q = .p p .fx ∨ q = .p p .fy → lastOf (s.dict v) best.1 (.p p .f) = none) →
        s'.rd q = x) ∧
    ∀ q, ¬ Named (s.dict v) ((params ++ additional).map FitParam.name) q → s'.par q = s.par q := by
  obtain ⟨x, A, m, best, h2, -, -, -, hu, -, h4, h5, h6, -, h7⟩ := metropolisOn_ok h
  have hlen : (params.map FitParam.name).length ≤ (params ++ additional).length := by simp
  have hC := computes (s := s) (add := add) (v := v) hlen T hord
  obtain ⟨hx1, hx2, -⟩ := (C62_start_search_partial hC R.draws (FitInv.init hr add v _ _) _).2 x.1 x.2 h2
  obtain ⟨k1, -⟩ := C59_rows_partial hC hx1 (s' := m.1) (tr := m.2) h4
  have hm : FitInv s add v (params.map FitParam.name) (params ++ additional).length m.1 := by
    obtain ⟨c, g1, -⟩ := metropolis_ok (s' := m.1) (tr := m.2) h4
    exact (loop_inv hC (x := ((getLogProb v (params.map FitParam.name) T ord x.1 x.2).1, { pos := x.2, prob := (getLogProb v (params.map FitParam.name) T ord x.1 x.2).2 }))
      ⟨(hC _ _ hx1).1, (hC _ _ hx1).2, by simp⟩ _ _ g1).1
  obtain ⟨b1, b2⟩ := idxmax_ok (l := rows) (by
    intro row hrow
    rw [h5, List.mem_map] at hrow
    obtain ⟨r, hr', rfl⟩ := hrow
    simp only
    rw [k1 r hr']
    exact logProbability_ne_nan _) h6
  set s1 := m.1.1.step (.setTrace v (some rows)) with hs1
  have hr1 : Reach s1 := .step hm.reach trivial
  have hd1 : ∀ w, s1.dict w = s.dict w := fun w => by rw [← hm.dict w]; cases w <;> rfl
  have hok : s1.ok (.setFit v best.1 (ord (s1.fitCallbacks (s1.dict v) best.1))) := hord _
  have hnames : best.1.map Prod.fst = (params ++ additional).map FitParam.name := by
    rw [h5, List.mem_map] at b1
    obtain ⟨r, -, rfl⟩ := b1
    exact zip_fst _ (by simp)
  refine ⟨h7 ▸ .step hr1 hok, ?_, ⟨best, b1, b2, ?_⟩, ?_⟩
  · rw [h7]
    show (St.setFit _ _ _ _).traces v = _
    rw [setFit_traces, hs1]
    simp [St.step]
  · intro q y hq hT hF
    rw [h7, setFit_rd hr1 hok]
    have e : newVal (s1.dict v) best.1 q = some y := by
      rw [hd1]
      cases q with
      | p p f =>
        cases f with
        | fx => simp only [newVal]; rw [hF p (Or.inl rfl), Option.none_or]; exact hq
        | fy => simp only [newVal]; rw [hF p (Or.inr rfl), Option.none_or]; exact hq
        | _ => exact hq
      | _ => exact hq
    unfold readAfter
    rw [e]
    by_cases ht : IsTurn q
    · obtain ⟨o, rfl⟩ := isTurn_iff.1 ht
      simp only [norm360_eq, if_neg (hT ht)]
    · simp only [norm360_not ht]
  · intro q hq
    rw [h7, (C54_set_fit_partial hr1 hok).2.2.1 q (by rw [← named_written, hnames, hd1]; exact hq)]
    have : s1.par q = m.1.1.par q := rfl
    rw [this]
    apply hm.par
    rintro (⟨n, hn, h⟩ | ⟨p, hp, n, hn, h⟩)
    · exact hq (Or.inl ⟨n, by simp at hn ⊢; exact Or.inl hn, h⟩)
    · exact hq (Or.inr ⟨p, hp, n, by simp at hn ⊢; exact Or.inl hn, h⟩)

namespace Stat

theorem idxmax_exists {α : Type} {l : List (α × Num)} (h : l ≠ []) : ∃ b, idxmax l = .ok b := by
  induction l with
  | nil => exact absurd rfl h
  | cons a t ih =>
    cases t with
    | nil => exact ⟨a, rfl⟩
    | cons a' t' =>
      obtain ⟨c, hc⟩ := ih (by simp)
      simp only [idxmax, hc, bind, Except.bind, pure, Except.pure]
      exact ⟨_, rfl⟩

theorem findStart_first {σ P : Type} {lp : σ → P → σ × Num} (draws : ℕ → P) {x : σ} {start : P} (h : ¬ (lp x start).2.IsInf) :
    findStart lp draws x start = .ok ((lp x start).1, start) := by
  unfold findStart
  have : search lp draws x start 0 1000 = ((lp x start).1, start, 0) := by
    rw [show (1000 : ℕ) = 999 + 1 from rfl, search]
    rw [if_neg h]
  simp only [this]
  simp

/-- The call succeeds for parameters without bounds and without terms. -/
theorem metropolisOn_exists (v : View) (ord : List Cb → List Cb) (s : St) (add : ℕ → ℝ) (params : List FitParam)
    (hp : ∀ p ∈ params, p.parents = some (none, none) ∧ 0 < p.step) (R : Rand (params ++ []).length) :
    ∃ r, metropolisOn v params [] [] ord 1 4 0 R s add = .ok r := by
  have hr : ∀ l : List FitParam, (∀ p ∈ l, p.parents = some (none, none) ∧ 0 < p.step) → ranges l = .ok (l.map fun _ => (none, none)) := by
    intro l hl
    induction l with
    | nil => rfl
    | cons a t ih =>
      simp only [ranges, (hl a (by simp)).1, ih fun p hp => hl p (by simp [hp]), bind, Except.bind, pure, Except.pure, List.map_cons]
  have h1 := hr (params ++ []) (by simpa using hp)
  have h2 := findStart_first (lp := getLogProb v (params.map FitParam.name) [] ord) R.draws (x := (s, add))
    (start := fun k => ((params ++ []).get k).value) (by simp [getLogProb, logProbability, npsum, Num.IsInf])
  have h3 : broadcastStep (params.map fun p => 1 * p.step) (params ++ []).length = .ok (params.map fun p => 1 * p.step) := by
    simp [broadcastStep]
  have hmap : ∀ (l : List FitParam) k, (l.map fun _ => ((none, none) : Option ℝ × Option ℝ)).getD k (none, none) = (none, none) := by
    intro l k
    rw [List.getD_eq_getElem?_getD, List.getElem?_map]
    cases l[k]? <;> rfl
  obtain ⟨m, h4⟩ := free_ok (getLogProb v (params.map FitParam.name) [] ord)
    (⟨fun k => (params.map fun p => 1 * p.step).getD k 0, fun k => (((params ++ []).map fun _ => ((none, none) : Option ℝ × Option ℝ)).getD k (none, none)).1,
      fun k => (((params ++ []).map fun _ => ((none, none) : Option ℝ × Option ℝ)).getD k (none, none)).2, 4, 0, R.tn, R.u⟩ : Args (params ++ []).length)
    (fun k => by simp only [hmap]) (fun k => by simp only [hmap])
    (fun k => by
      have hk : k.1 < params.length := lt_of_lt_of_eq k.2 (by simp)
      simp only [List.getD_eq_getElem?_getD, List.getElem?_map, List.getElem?_eq_getElem hk, Option.map_some, Option.getD_some, one_mul]
      exact (hp _ (List.getElem_mem hk)).2)
    (getLogProb v (params.map FitParam.name) [] ord (s, add) fun k => ((params ++ []).get k).value).1 (fun k => ((params ++ []).get k).value)
  have hlen := C58_trace_length (by norm_num) (by norm_num) (s' := m.1) (tr := m.2) h4
  have hne : m.2 ≠ [] := by
    intro e; rw [e] at hlen; norm_num [skipped] at hlen
  obtain ⟨b, h5⟩ := idxmax_exists (l := m.2.map fun r => (((params ++ []).map FitParam.name).zip (List.ofFn r.1), r.2)) (by simpa using hne)
  unfold metropolisOn
  simp only [h1, h2, h3, h4, h5, bind, Except.bind, pure, Except.pure]
  exact ⟨_, rfl⟩

end Stat

example : ∃ (params : List FitParam) (ord : List Cb → List Cb) (R : Rand (params ++ []).length) (r : _), (∀ l, IsOrder (ord l) l) ∧ Reach Ex.s4 ∧
    (∀ i, 0 ≤ R.u i) ∧ metropolisOn (.cam 0) params [] [] ord 1 4 0 R Ex.s4 (fun _ => 0) = .ok r := by
  obtain ⟨r, hr⟩ := metropolisOn_exists (.cam 0) List.dedup Ex.s4 (fun _ => 0) [⟨"tilt_deg", 80, 1, some (none, none)⟩, ⟨"roll_deg", 0, 1, some (none, none)⟩]
    (by simp) ⟨fun _ _ => 0, fun _ _ _ _ => 0, fun _ => 0⟩
  exact ⟨_, List.dedup, _, r, fun l => ⟨List.nodup_dedup _, fun _ => List.mem_dedup⟩, Ex.reachX4.reach, fun _ => le_rfl, hr⟩

/-! ### C88 -/

namespace Stat

theorem evals_inv {σ P : Type} {Inv : σ → Prop} {lp : σ → P → σ × Num} (h : ∀ x p, Inv x → Inv (lp x p).1) {x : σ} (hx : Inv x) (ps : List P) :
    Inv (evals lp x ps) := by
  unfold evals
  induction ps generalizing x with
  | nil => exact hx
  | cons p t ih => exact ih (h x p hx)

/-- The steps of a successful `fit`. -/
theorem fitOn_ok {v : View} {params : List FitParam} {T : List Term} {ord : List Cb → List Cb} {draws : ℕ → Fin params.length → ℝ}
    {ps : (Fin params.length → ℝ) → List (Fin params.length → ℝ)} {result : (Fin params.length → ℝ) → Fin params.length → ℝ} {s s' : St} {add : ℕ → ℝ}
    {x : Fin params.length → ℝ} (h : fitOn v params T ord draws ps result s add = .ok (s', x)) :
    ∃ st, findStart (getLogProb v (params.map FitParam.name) T ord) draws (s, add) (fun k => (params.get k).value) = .ok st ∧
      x = result st.2 ∧ s' = (getLogProb v (params.map FitParam.name) T ord (evals (getLogProb v (params.map FitParam.name) T ord) st.1 (ps st.2)) x).1.1 := by
  unfold fitOn at h
  obtain ⟨rs, h1, h⟩ := bind_ok h
  obtain ⟨st, h2, h⟩ := bind_ok h
  simp only [pure, Except.pure, Except.ok.injEq, Prod.mk.injEq] at h
  exact ⟨st, h2, h.2.symm, by rw [← h.1, ← h.2]⟩

end Stat

/-- **C88** After `fit` the parameters have the values of the result that is returned, whatever positions the optimiser has
tried and whatever it returns, and no other parameter has changed; the start given to the optimiser is possible.
Missing: a heading outside [-360, 360] is read modulo 360; the two focal lengths if `focallength_px` is fitted together
with them. -/
theorem C88_fit_result_partial {v : View} {params : List FitParam} {T : List Term} {ord : List Cb → List Cb} (hord : ∀ l, IsOrder (ord l) l)
    {draws : ℕ → Fin params.length → ℝ} {ps : (Fin params.length → ℝ) → List (Fin params.length → ℝ)}
    {result : (Fin params.length → ℝ) → Fin params.length → ℝ} {s s' : St} (hr : Reach s) {add : ℕ → ℝ} {x : Fin params.length → ℝ}
    (h : fitOn v params T ord draws ps result s add = .ok (s', x)) :
    Reach s' ∧
    (∀ q y, lastOf (s.dict v) ((params.map FitParam.name).zip (List.ofFn x)) q = some y → (IsTurn q → ¬ Out y) →
      (∀ p, q = .p p .fx ∨ q = .p p .fy → ¬ ∃ n ∈ params.map FitParam.name, (s.dict v).lookup n = some (.p p .f)) → s'.rd q = y) ∧
    (∀ q, ¬ Named (s.dict v) (params.map FitParam.name) q → s'.par q = s.par q) ∧
    ∃ start r, x = result start ∧ LogProbAt s.rd (s.dict v) (params.map FitParam.name) T add start r ∧ ¬ r.IsInf := by
  obtain ⟨st, h2, rfl, h3⟩ := fitOn_ok h
  have hlen : (params.map FitParam.name).length ≤ params.length := by simp
  have hC := computes (s := s) (add := add) (v := v) hlen T hord
  obtain ⟨hx1, hx2, -⟩ := (C62_start_search_partial hC draws (FitInv.init hr add v _ _) _).2 st.1 st.2 h2
  have hI := evals_inv (Inv := FitInv s add v (params.map FitParam.name) params.length) (fun x p hx => (hC x p hx).1) hx1 (ps st.2)
  have hI' := (hC _ (result st.2) hI).1
  refine ⟨by rw [h3]; exact hI'.reach, ?_, by rw [h3]; exact hI'.par, st.2, _, rfl, logProbability_total _, hx2⟩
  intro q y hq hT hF
  set z := evals (getLogProb v (params.map FitParam.name) T ord) st.1 (ps st.2)
  have hok : z.1.ok (.setFit v ((params.map FitParam.name).zip (List.ofFn (result st.2)))
    (ord (z.1.fitCallbacks (z.1.dict v) ((params.map FitParam.name).zip (List.ofFn (result st.2)))))) := hord _
  have e := setFit_rd hI.reach hok q
  rw [h3]
  refine e.trans ?_
  have hz := zip_fst (names := params.map FitParam.name) (result st.2) hlen
  have hN : newVal (z.1.dict v) ((params.map FitParam.name).zip (List.ofFn (result st.2))) q = some y := by
    rw [hI.dict]
    have key : ∀ p, (q = .p p .fx ∨ q = .p p .fy) → lastOf (s.dict v) ((params.map FitParam.name).zip (List.ofFn (result st.2))) (.p p .f) = none := by
      intro p hp
      by_contra hne
      obtain ⟨nv, hnv, hl⟩ := lastOf_some.1 hne
      exact hF p hp ⟨nv.1, by rw [← hz]; exact List.mem_map_of_mem hnv, hl⟩
    cases q with
    | p p f =>
      cases f with
      | fx => simp only [newVal]; rw [key p (Or.inl rfl), Option.none_or]; exact hq
      | fy => simp only [newVal]; rw [key p (Or.inr rfl), Option.none_or]; exact hq
      | _ => exact hq
    | _ => exact hq
  unfold readAfter
  rw [hN]
  by_cases ht : IsTurn q
  · obtain ⟨o, rfl⟩ := isTurn_iff.1 ht
    simp only [norm360_eq, if_neg (hT ht)]
  · simp only [norm360_not ht]

example : ∃ (params : List FitParam) (draws : _) (r : _),
    fitOn (.cam 0) params [] List.dedup draws (fun _ => [fun _ => 3, fun _ => 4]) (fun _ _ => 5) Ex.s4 (fun _ => 0) = .ok r := by
  have h2 := findStart_first (lp := getLogProb (.cam 0) (([⟨"tilt_deg", 80, 1, some (none, none)⟩] : List FitParam).map FitParam.name) [] List.dedup) (fun _ _ => 0)
    (x := (Ex.s4, fun _ => 0)) (start := fun k => (([⟨"tilt_deg", 80, 1, some (none, none)⟩] : List FitParam).get k).value)
    (by simp [getLogProb, logProbability, npsum, Num.IsInf])
  refine ⟨[⟨"tilt_deg", 80, 1, some (none, none)⟩], fun _ _ => 0, ?_⟩
  unfold fitOn
  simp only [ranges, h2, bind, Except.bind, pure, Except.pure]
  exact ⟨_, rfl⟩

/-! ### C89 and C90 -/

/-- **C89** is violated: a fit parameter that is made with a distribution of one's own can neither be fitted nor sampled, alone or together
with others: `fit` and `metropolis` raise an AttributeError, whatever the camera, the terms and the other arguments. -/
theorem C89_violated {name : String} {lower upper mean std : Option ℝ} {step value : ℝ} {p : FitParam}
    (hp : FitParam.new name true lower upper step value mean std = .ok p) {params : List FitParam} (v : View) (T : List Term) (ord : List Cb → List Cb) (s : St) (add : ℕ → ℝ) :
    (p ∈ params → ∀ draws ps result, fitOn v params T ord draws ps result s add = .error .attributeError) ∧
    ∀ additional, p ∈ params ++ additional → ∀ scale iterations burn R,
      metropolisOn v params additional T ord scale iterations burn R s add = .error .attributeError := by
  have hp' : p.parents = none := by
    simp only [FitParam.new, if_true, Except.ok.injEq] at hp
    rw [← hp]
  have key : ∀ l : List FitParam, p ∈ l → ranges l = .error .attributeError := by
    intro l hl
    induction l with
    | nil => simp at hl
    | cons a t ih =>
      simp only [ranges]
      cases e : a.parents with
      | none => rfl
      | some r =>
        rw [List.mem_cons] at hl
        rcases hl with rfl | hl
        · rw [hp'] at e; cases e
        · simp only [ih hl]; rfl
  constructor
  · intro h draws ps result
    unfold fitOn
    rw [key _ h]; rfl
  · intro additional h scale iterations burn R
    unfold metropolisOn
    rw [key _ h]; rfl

/-- A fit parameter with bounds, or with mean and standard deviation, has ranges; so the start search is reached. -/
theorem C89_fit_parameters_partial {name : String} {lower upper mean std : Option ℝ} {step value : ℝ} :
    ((∃ p, FitParam.new name false lower upper step value mean std = .ok p) ↔ (lower ≠ none ∧ upper ≠ none) ∨ (mean ≠ none ∧ std ≠ none)) ∧
    (∀ e, FitParam.new name false lower upper step value mean std = .error e → e = .valueError) ∧
    ∀ p, FitParam.new name false lower upper step value mean std = .ok p → p.name = name ∧ p.value = value ∧ p.step = step ∧
      ((lower ≠ none ∧ upper ≠ none ∧ p.parents = some (lower, upper)) ∨ p.parents = some (none, none)) ∧ ∃ r, ranges [p] = .ok r := by
  unfold FitParam.new
  rcases lower with _ | l <;> rcases upper with _ | u <;> rcases mean with _ | m <;> rcases std with _ | d <;>
    simp [ranges, bind, Except.bind, pure, Except.pure]

example : ∃ p, FitParam.new "tilt_deg" true none none 1 80 none none = .ok p ∧ p ∈ [p] := ⟨_, rfl, by simp⟩

/-- **C90** is violated: with two or more fit parameters and at least one additional parameter `metropolis` never succeeds:
it raises, and if the ranges and the start are found it raises a ValueError for the shapes. -/
theorem C90_violated {v : View} {params additional : List FitParam} (hp : 2 ≤ params.length) (ha : additional ≠ []) (T : List Term) (ord : List Cb → List Cb)
    (scale iterations burn : ℝ) (R : Rand (params ++ additional).length) (s : St) (add : ℕ → ℝ) :
    (∃ e, metropolisOn v params additional T ord scale iterations burn R s add = .error e) ∧
    ((∀ p ∈ params ++ additional, p.parents ≠ none) → metropolisOn v params additional T ord scale iterations burn R s add = .error .valueError) := by
  have hb : broadcastStep (params.map fun p => scale * p.step) (params ++ additional).length = .error .valueError := by
    have : 0 < additional.length := List.length_pos_of_ne_nil ha
    unfold broadcastStep
    rw [if_neg (by simp; omega)]
    rcases params with _ | ⟨a, _ | ⟨b, t⟩⟩
    · simp at hp
    · simp at hp
    · rfl
  have key : ∀ rs, ranges (params ++ additional) = .ok rs → metropolisOn v params additional T ord scale iterations burn R s add = .error .valueError := by
    intro rs hrs
    unfold metropolisOn
    simp only [hrs, bind, Except.bind]
    cases e : findStart (getLogProb v (params.map FitParam.name) T ord) R.draws (s, add) (fun k => ((params ++ additional).get k).value) with
    | error er =>
      unfold findStart at e
      simp only at e
      split_ifs at e
      cases e; rfl
    | ok x => simp only [hb]
  constructor
  · cases hrs : ranges (params ++ additional) with
    | error e => exact ⟨e, by unfold metropolisOn; rw [hrs]; rfl⟩
    | ok rs => exact ⟨_, key rs hrs⟩
  · intro h
    have : ∀ l : List FitParam, (∀ p ∈ l, p.parents ≠ none) → ∃ rs, ranges l = .ok rs := by
      intro l hl
      induction l with
      | nil => exact ⟨_, rfl⟩
      | cons a t ih =>
        obtain ⟨rs, hrs⟩ := ih fun p hp => hl p (by simp [hp])
        obtain ⟨r, hr⟩ := Option.ne_none_iff_exists'.1 (hl a (by simp))
        exact ⟨r :: rs, by simp only [ranges, hr, hrs, bind, Except.bind, pure, Except.pure]⟩
    obtain ⟨rs, hrs⟩ := this _ h
    exact key rs hrs

example : ∃ params additional : List FitParam, 2 ≤ params.length ∧ additional ≠ [] ∧ ∀ p ∈ params ++ additional, p.parents ≠ none :=
  ⟨[⟨"tilt_deg", 80, 1, some (none, none)⟩, ⟨"roll_deg", 0, 1, some (none, none)⟩], [⟨"Z0", 0, 1, some (some 0, some 1)⟩], by simp, by simp, by simp⟩
