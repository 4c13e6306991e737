import Verif.Spec.Fridge
import Verif.Props.Fit

/-! # Sampling with `fridge`; the log probability after sampling -/

set_option linter.constructorNameAsVariable false

open Classical Stat Sys

namespace Stat

theorem evalRows_spec {σ P : Type} {Inv : σ → Prop} {lp : σ → P → σ × Num} {F : P → Num}
    (h : ∀ x p, Inv x → Inv (lp x p).1 ∧ (lp x p).2 = F p) {x : σ} (hx : Inv x) (ps : List P) :
    Inv (evalRows lp x ps).1 ∧ (evalRows lp x ps).2 = ps.map fun p => (p, F p) := by
  induction ps generalizing x with
  | nil => exact ⟨hx, rfl⟩
  | cons p t ih =>
    obtain ⟨h1, h2⟩ := h x p hx
    obtain ⟨i1, i2⟩ := ih h1
    exact ⟨i1, by simp only [evalRows, i2, h2, List.map_cons]⟩

theorem evalRows_pos {σ P : Type} (lp : σ → P → σ × Num) (x : σ) (ps : List P) : (evalRows lp x ps).2.map Prod.fst = ps := by
  induction ps generalizing x with
  | nil => rfl
  | cons p t ih => simp only [evalRows, List.map_cons, ih]

/-- The steps of a successful call. -/
theorem fridgeOn_ok {v : View} {params additional : List FitParam} {T : List Term} {ord : List Cb → List Cb} {S : Sampler (params ++ additional).length}
    {s s' : St} {add add' : ℕ → ℝ} {rows : List Row} (h : fridgeOn v params additional T ord S s add = .ok (s', add', rows)) :
    ∃ (m : (St × (ℕ → ℝ)) × List ((Fin (params ++ additional).length → ℝ) × Num)) (best : Row),
      m = evalRows (getLogProb v ((params ++ additional).map FitParam.name) T ord) (s, (S.run params.length s.rd T add).2) (S.run params.length s.rd T add).1 ∧
      (rows = m.2.map fun r => (((params ++ additional).map FitParam.name).zip (List.ofFn r.1), r.2)) ∧
      idxmax rows = .ok best ∧ add' = m.1.2 ∧
      s' = (m.1.1.step (.setTrace v (some rows))).step (.setFit v best.1
        (ord ((m.1.1.step (.setTrace v (some rows))).fitCallbacks ((m.1.1.step (.setTrace v (some rows))).dict v) best.1))) := by
  unfold fridgeOn at h
  obtain ⟨best, h5, h⟩ := bind_ok h
  simp only [pure, Except.pure, Except.ok.injEq, Prod.mk.injEq] at h
  obtain ⟨e1, e2, e3⟩ := h
  refine ⟨_, best, rfl, e3.symm, by rw [← e3]; exact h5, e2.symm, ?_⟩
  rw [← e1, ← e3]; rfl

theorem run_done_add {n : ℕ} (k : ℕ) (rd : Pid → ℝ) (T : List Term) (hk : n ≤ k) (S : Sampler n) (add : ℕ → ℝ) : (S.run k rd T add).2 = add := by
  induction S generalizing add with
  | done l => rfl
  | ask pos next ih =>
    simp only [Sampler.run]
    rw [ih]
    funext j
    rw [dif_neg (by omega)]

theorem run_returns {n : ℕ} (k : ℕ) (rd : Pid → ℝ) (T : List Term) (S : Sampler n) (add : ℕ → ℝ) : S.Returns (S.run k rd T add).1 := by
  induction S generalizing add with
  | done l => rfl
  | ask pos next ih => exact ⟨_, ih _ _⟩

theorem rest_all {n k : ℕ} (hk : n ≤ k) (pos : Fin n → ℝ) (add : ℕ → ℝ) : rest k pos add = add := by
  funext j
  unfold rest
  rw [dif_neg (by omega)]

/-- What is known after the loop over the samples. -/
theorem fridgeOn_spec {v : View} {params additional : List FitParam} {T : List Term} {ord : List Cb → List Cb} (hord : ∀ l, IsOrder (ord l) l)
    {S : Sampler (params ++ additional).length} {s s' : St} (hr : Reach s) {add add' : ℕ → ℝ} {rows : List Row}
    (h : fridgeOn v params additional T ord S s add = .ok (s', add', rows)) :
    add' = (S.run params.length s.rd T add).2 ∧
    (rows = (S.run params.length s.rd T add).1.map fun pos => (((params ++ additional).map FitParam.name).zip (List.ofFn pos),
      logProbability (T.map fun t => t (readAfter s.rd (s.dict v) (((params ++ additional).map FitParam.name).zip (List.ofFn pos))) add'))) ∧
    ∃ best ∈ rows, (∀ row ∈ rows, row.2 ≤ best.2) ∧ s'.traces v = some rows ∧ Reach s' ∧ (∀ w, s'.dict w = s.dict w) ∧
      (∀ q, s'.rd q = readAfter s.rd (s.dict v) best.1 q) ∧
      ∀ q, ¬ Named (s.dict v) ((params ++ additional).map FitParam.name) q → s'.par q = s.par q := by
  obtain ⟨m, best, hm, h5, h6, h8, h7⟩ := fridgeOn_ok h
  set all := (params ++ additional).map FitParam.name with hall
  set d := S.run params.length s.rd T add with hd
  have hlen : all.length ≤ (params ++ additional).length := by simp [hall]
  have hlen' : (params ++ additional).length ≤ all.length := by simp [hall]
  have hC := computes (s := s) (add := d.2) (v := v) hlen T hord
  obtain ⟨k1, k2⟩ := evalRows_spec hC (FitInv.init hr d.2 v _ _) d.1
  rw [← hm] at k1 k2
  have hadd : add' = d.2 := by
    rw [h8]; funext j
    exact k1.rest j (by omega)
  have hrows : rows = d.1.map fun pos => (all.zip (List.ofFn pos), logProbability (T.map fun t => t (readAfter s.rd (s.dict v) (all.zip (List.ofFn pos))) add')) := by
    rw [h5, k2, List.map_map]
    apply List.map_congr_left
    intro pos _
    simp only [Function.comp, probAt, rest_all hlen', hadd]
  obtain ⟨b1, b2⟩ := idxmax_ok (l := rows) (by
    intro row hrow
    rw [hrows, List.mem_map] at hrow
    obtain ⟨r, -, rfl⟩ := hrow
    exact logProbability_ne_nan _) h6
  refine ⟨hadd, hrows, best, b1, b2, ?_⟩
  set s1 := m.1.1.step (.setTrace v (some rows)) with hs1
  have hr1 : Reach s1 := .step k1.reach trivial
  have hd1 : ∀ w, s1.dict w = s.dict w := fun w => by rw [← k1.dict w]; cases w <;> rfl
  have hok : s1.ok (.setFit v best.1 (ord (s1.fitCallbacks (s1.dict v) best.1))) := hord _
  have hnames : best.1.map Prod.fst = all := by
    rw [h5, List.mem_map] at b1
    obtain ⟨r, -, rfl⟩ := b1
    exact zip_fst _ hlen
  refine ⟨?_, h7 ▸ .step hr1 hok, ?_, ?_, ?_⟩
  · rw [h7]
    show (St.setFit _ _ _ _).traces v = _
    rw [setFit_traces, hs1]
    simp [St.step]
  · intro w
    rw [h7]
    exact ((step_pres hr1.struct hok trivial).dict w).trans (hd1 w)
  · intro q
    rw [h7, setFit_rd hr1 hok, hd1]
    refine congrFun (readAfter_congr ?_) q
    intro q hq
    rw [hnames] at hq
    exact rd_eq_of_par (k1.par q hq)
  · intro q hq
    rw [h7, (C54_set_fit_partial hr1 hok).2.2.1 q (by rw [← named_written, hnames, hd1]; exact hq)]
    exact k1.par q hq

end Stat

/-- **C117** `fridge` without additional parameters: the rows are the samples in their order, each with its own log
probability; the camera gets the values of a row of maximal probability and nothing else changes.
Missing: that the samples follow the probability (they do not, see below), and the additional parameters. -/
theorem C117_rows_partial {v : View} {params : List FitParam} {T : List Term} {ord : List Cb → List Cb} (hord : ∀ l, IsOrder (ord l) l)
    {S : Sampler (params ++ []).length} {s s' : St} (hr : Reach s) {add add' : ℕ → ℝ} {rows : List Row}
    (h : fridgeOn v params [] T ord S s add = .ok (s', add', rows)) :
    (∃ samples : List (Fin (params ++ []).length → ℝ), S.Returns samples ∧
      List.Forall₂ (fun row pos => row.1 = (params.map FitParam.name).zip (List.ofFn pos) ∧
        LogProbAt s.rd (s.dict v) (params.map FitParam.name) T add pos row.2) rows samples) ∧
    (∃ best ∈ rows, (∀ row ∈ rows, row.2 ≤ best.2) ∧ s'.traces v = some rows ∧ ∀ q, s'.rd q = readAfter s.rd (s.dict v) best.1 q) ∧
    ∀ q, ¬ Named (s.dict v) (params.map FitParam.name) q → s'.par q = s.par q := by
  obtain ⟨h1, h2, best, hb, hb2, ht, -, -, hrd, hp⟩ := fridgeOn_spec hord hr h
  rw [run_done_add _ _ _ (by simp)] at h1
  refine ⟨⟨(S.run params.length s.rd T add).1, run_returns _ _ _ _ _, ?_⟩, ⟨best, hb, hb2, ht, hrd⟩, by simpa using hp⟩
  · rw [h2, List.forall₂_map_left_iff]
    exact (List.forall₂_same).2 fun pos _ => ⟨by simp, by
      unfold LogProbAt
      rw [rest_all (by simp), h1]
      simp only [List.append_nil]
      exact logProbability_total _⟩

/-- **C117** is violated: the samples drawn by `fridge` have nothing to do with the probability.  For any sampler, any two
sets of terms that agree at the present values of the camera lead to the same samples, however they differ everywhere
else: every value the sampler reads is the log probability of the present camera. -/
theorem C117_violated {v : View} {params : List FitParam} {T T' : List Term} {ord : List Cb → List Cb} (hord : ∀ l, IsOrder (ord l) l)
    {S : Sampler (params ++ []).length} {s : St} (hr : Reach s) {add : ℕ → ℝ} {r r' : St × (ℕ → ℝ) × List Row}
    (hT : logProbability (T.map fun t => t s.rd add) = logProbability (T'.map fun t => t s.rd add))
    (h : fridgeOn v params [] T ord S s add = .ok r) (h' : fridgeOn v params [] T' ord S s add = .ok r') :
    r.2.2.map Prod.fst = r'.2.2.map Prod.fst := by
  obtain ⟨-, h2, -⟩ := fridgeOn_spec hord hr (s' := r.1) (add' := r.2.1) (rows := r.2.2) h
  obtain ⟨-, h2', -⟩ := fridgeOn_spec hord hr (s' := r'.1) (add' := r'.2.1) (rows := r'.2.2) h'
  have hS : (S.run params.length s.rd T add).1 = (S.run params.length s.rd T' add).1 := by
    clear h h' h2 h2'
    induction S with
    | done l => rfl
    | ask pos next ih =>
      simp only [Sampler.run]
      have e : (fun j => if h : params.length + j < (params ++ []).length then pos ⟨params.length + j, h⟩ else add j) = add := by
        funext j; rw [dif_neg (by simp)]
      rw [e, hT]
      exact ih _
  rw [h2, h2', hS, List.map_map, List.map_map]
  rfl

/-- **C117** is violated for additional parameters: the probability in a row is computed with the values that the sampler
has tried last, the same for all rows, and not with those of the row. -/
theorem C117_additional_violated {v : View} {params additional : List FitParam} {T : List Term} {ord : List Cb → List Cb} (hord : ∀ l, IsOrder (ord l) l)
    {S : Sampler (params ++ additional).length} {s s' : St} (hr : Reach s) {add add' : ℕ → ℝ} {rows : List Row}
    (h : fridgeOn v params additional T ord S s add = .ok (s', add', rows)) :
    (∀ row ∈ rows, IsTotal (T.map fun t => t (readAfter s.rd (s.dict v) row.1) add') row.2) ∧
    ∀ row ∈ rows, ∀ row' ∈ rows, (∀ q, newVal (s.dict v) row.1 q = newVal (s.dict v) row'.1 q) → row.2 = row'.2 := by
  obtain ⟨h1, h2, -⟩ := fridgeOn_spec hord hr h
  have key : ∀ row ∈ rows, row.2 = logProbability (T.map fun t => t (readAfter s.rd (s.dict v) row.1) add') := by
    intro row hrow
    rw [h2, List.mem_map] at hrow
    obtain ⟨pos, -, rfl⟩ := hrow
    rfl
  refine ⟨fun row hrow => by rw [key row hrow]; exact logProbability_total _, fun row hrow row' hrow' e => ?_⟩
  rw [key row hrow, key row' hrow']
  have : readAfter s.rd (s.dict v) row.1 = readAfter s.rd (s.dict v) row'.1 := by
    funext q; unfold readAfter; rw [e]
  rw [this]

namespace Stat

theorem fridgeOn_exists (v : View) (ord : List Cb → List Cb) (s : St) (add : ℕ → ℝ) (params additional : List FitParam) (T : List Term)
    (S : Sampler (params ++ additional).length) (hS : (S.run params.length s.rd T add).1 ≠ []) :
    ∃ r, fridgeOn v params additional T ord S s add = .ok r := by
  obtain ⟨b, h5⟩ := idxmax_exists (l := (evalRows (getLogProb v ((params ++ additional).map FitParam.name) T ord) (s, (S.run params.length s.rd T add).2)
    (S.run params.length s.rd T add).1).2.map fun r => (((params ++ additional).map FitParam.name).zip (List.ofFn r.1), r.2)) (by
      intro e
      apply hS
      have := evalRows_pos (getLogProb v ((params ++ additional).map FitParam.name) T ord) (s, (S.run params.length s.rd T add).2) (S.run params.length s.rd T add).1
      rw [← this]
      simpa using e)
  unfold fridgeOn
  simp only [h5, bind, Except.bind, pure, Except.pure]
  exact ⟨_, rfl⟩

/-- Reads the log probability at 70 and 80 and returns the better one. -/
noncomputable def Ex.sampler (n : ℕ) : Sampler n :=
  .ask (fun _ => 70) fun a => .ask (fun _ => 80) fun b => .done [if a ≤ b then fun _ => 80 else fun _ => 70]

theorem Ex.sampler_ne {n : ℕ} (k : ℕ) (rd : Pid → ℝ) (T : List Term) (add : ℕ → ℝ) : ((Ex.sampler n).run k rd T add).1 ≠ [] := by
  simp [Ex.sampler, Sampler.run]

end Stat

example : ∃ (params : List FitParam) (T T' : List Term) (r r' : _), (∀ l, IsOrder (List.dedup l) l) ∧ Reach Sys.Ex.s4 ∧
    logProbability (T.map fun t => t Sys.Ex.s4.rd fun _ => 0) = logProbability (T'.map fun t => t Sys.Ex.s4.rd fun _ => 0) ∧ T ≠ T' ∧
    fridgeOn (.cam 0) params [] T List.dedup (Stat.Ex.sampler _) Sys.Ex.s4 (fun _ => 0) = .ok r ∧
    fridgeOn (.cam 0) params [] T' List.dedup (Stat.Ex.sampler _) Sys.Ex.s4 (fun _ => 0) = .ok r' := by
  have := fun T => fridgeOn_exists (.cam 0) List.dedup Sys.Ex.s4 (fun _ => 0) [⟨"tilt_deg", 80, 1, some (none, none)⟩] [] T (Stat.Ex.sampler _) (Stat.Ex.sampler_ne _ _ _ _)
  obtain ⟨r, hr⟩ := this []
  obtain ⟨r', hr'⟩ := this [fun _ _ => .fin 0]
  exact ⟨_, _, _, r, r', fun l => ⟨List.nodup_dedup _, fun _ => List.mem_dedup⟩, Sys.Ex.reachX4.reach,
    by simp [logProbability, npsum, add_def, Num.add, Num.rv], by simp, hr, hr'⟩

example : ∃ (params additional : List FitParam) (T : List Term) (r : _), additional ≠ [] ∧
    fridgeOn (.cam 0) params additional T List.dedup (Stat.Ex.sampler _) Sys.Ex.s4 (fun _ => 0) = .ok r := by
  obtain ⟨r, hr⟩ := fridgeOn_exists (.cam 0) List.dedup Sys.Ex.s4 (fun _ => 0) [⟨"tilt_deg", 80, 1, some (none, none)⟩] [⟨"sea", 0, 1, some (none, none)⟩]
    [] (Stat.Ex.sampler _) (Stat.Ex.sampler_ne _ _ _ _)
  exact ⟨_, _, _, r, by simp, hr⟩

/-! ### C118 -/

namespace Stat

/-- Setting the values of a row of a trace whose names are all names of fit parameters. -/
theorem set_row {v : View} {s s' : St} (hr' : Reach s') {names : List String}
    (hd : ∀ w, s'.dict w = s.dict w) (hp : ∀ q, ¬ Named (s.dict v) names q → s'.rd q = s.rd q) {vals : List (String × ℝ)} {order : List Cb}
    (hn : vals.map Prod.fst = names) (hok : s'.ok (.setFit v vals order)) :
    (s'.step (.setFit v vals order)).rd = readAfter s.rd (s.dict v) vals := by
  funext q
  rw [setFit_rd hr' hok, hd]
  refine congrFun (readAfter_congr ?_) q
  intro q hq
  rw [hn] at hq
  exact hp q hq

/-- Everything about the final state of `metropolis`. -/
theorem metropolisOn_spec {v : View} {params additional : List FitParam} {T : List Term} {ord : List Cb → List Cb} (hord : ∀ l, IsOrder (ord l) l)
    {scale iterations burn : ℝ} {R : Rand (params ++ additional).length} {s s' : St} (hr : Reach s) {add add' : ℕ → ℝ} {rows : List Row}
    (h : metropolisOn v params additional T ord scale iterations burn R s add = .ok (s', add', rows)) :
    (∀ j, additional.length ≤ j → add' j = add j) ∧
    (∀ row ∈ rows, row.1.map Prod.fst = (params ++ additional).map FitParam.name) ∧
    Reach s' ∧ (∀ w, s'.dict w = s.dict w) ∧ s'.traces v = some rows ∧
    (∀ q, ¬ Named (s.dict v) ((params ++ additional).map FitParam.name) q → s'.rd q = s.rd q) ∧
    ∃ best ∈ rows, (∀ row ∈ rows, row.2 ≤ best.2) ∧ s'.rd = readAfter s.rd (s.dict v) best.1 := by
  obtain ⟨c1, c2, -, c4⟩ := C61_most_probable_partial hord hr h
  obtain ⟨x, A, m, best, h2, -, -, -, hu, -, h4, h5, h6, h8, h7⟩ := metropolisOn_ok h
  have hlen : (params.map FitParam.name).length ≤ (params ++ additional).length := by simp
  have hC := computes (s := s) (add := add) (v := v) hlen T hord
  obtain ⟨hx1, hx2, -⟩ := (C62_start_search_partial hC R.draws (FitInv.init hr add v _ _) _).2 x.1 x.2 h2
  obtain ⟨k1, -⟩ := C59_rows_partial hC hx1 (s' := m.1) (tr := m.2) h4
  have hm : FitInv s add v (params.map FitParam.name) (params ++ additional).length m.1 := by
    obtain ⟨c, g1, -⟩ := metropolis_ok (s' := m.1) (tr := m.2) h4
    exact (loop_inv hC (x := ((getLogProb v (params.map FitParam.name) T ord x.1 x.2).1, { pos := x.2, prob := (getLogProb v (params.map FitParam.name) T ord x.1 x.2).2 }))
      ⟨(hC _ _ hx1).1, (hC _ _ hx1).2, by simp⟩ _ _ g1).1
  have hnames : ∀ row ∈ rows, row.1.map Prod.fst = (params ++ additional).map FitParam.name := by
    intro row hrow
    rw [h5, List.mem_map] at hrow
    obtain ⟨r, -, rfl⟩ := hrow
    exact zip_fst _ (by simp)
  obtain ⟨b1, b2⟩ := idxmax_ok (l := rows) (by
    intro row hrow
    rw [h5, List.mem_map] at hrow
    obtain ⟨r, hr', rfl⟩ := hrow
    simp only
    rw [k1 r hr']
    exact logProbability_ne_nan _) h6
  set s1 := m.1.1.step (.setTrace v (some rows)) with hs1
  have hr1 : Reach s1 := .step hm.reach trivial
  have hd1 : ∀ w, s1.dict w = s.dict w := fun w => by rw [← hm.dict w]; cases w <;> rfl
  have hok : s1.ok (.setFit v best.1 (ord (s1.fitCallbacks (s1.dict v) best.1))) := hord _
  refine ⟨fun j hj => by rw [h8]; exact hm.rest j (by simp; omega), hnames, c1, fun w => ?_, c2, fun q hq => rd_eq_of_par (c4 q hq), best, b1, b2, ?_⟩
  · rw [h7]
    exact ((step_pres hr1.struct hok trivial).dict w).trans (hd1 w)
  · rw [h7]
    apply set_row hr1 hd1 (names := (params ++ additional).map FitParam.name) _ (hnames _ b1) hok
    intro q hq
    have : s1.par q = m.1.1.par q := rfl
    refine rd_eq_of_par (this.trans (hm.par q ?_))
    rintro (⟨n, hn, h⟩ | ⟨p, hp, n, hn, h⟩)
    · exact hq (Or.inl ⟨n, by simp at hn ⊢; exact Or.inl hn, h⟩)
    · exact hq (Or.inr ⟨p, hp, n, by simp at hn ⊢; exact Or.inl hn, h⟩)

end Stat

/-- **C118** After `metropolis` without additional parameters the log probability of the camera is the largest of the
trace, and each time a row is sampled from the trace, the log probability of the camera is the number returned.
Missing: additional parameters. -/
theorem C118_metropolis_partial {v : View} {params : List FitParam} {T : List Term} {ord : List Cb → List Cb} (hord : ∀ l, IsOrder (ord l) l)
    {scale iterations burn : ℝ} {R : Rand (params ++ []).length} {s s' : St} (hr : Reach s) {add add' : ℕ → ℝ} {rows : List Row}
    (h : metropolisOn v params [] T ord scale iterations burn R s add = .ok (s', add', rows)) :
    (∃ best ∈ rows, (∀ row ∈ rows, row.2 ≤ best.2) ∧ IsTotal (T.map fun t => t s'.rd add') best.2) ∧
    ∀ is : List ℕ, (∀ i ∈ is, i < rows.length) → ∀ i, i < rows.length →
      ∃ (s1 s2 : St) (r : Num), is.foldlM (fun s i => do pure (← sampleRow v ord s i).1) s' = .ok s1 ∧
        sampleRow v ord s1 i = .ok (s2, r) ∧ IsTotal (T.map fun t => t s2.rd add') r := by
  obtain ⟨a1, a2, a3, a4, a5, a6, best, b1, b2, b3⟩ := metropolisOn_spec hord hr h
  have hadd : add' = add := funext fun j => a1 j (by simp)
  have hrow : ∀ row ∈ rows, IsTotal (T.map fun t => t (readAfter s.rd (s.dict v) row.1) add') row.2 := by
    intro row hrow
    obtain ⟨pos, e1, e2, -⟩ := C59_camera_partial hord hr h row hrow
    unfold LogProbAt at e2
    rw [rest_all (by simp), ← hadd] at e2
    rw [e1]
    simpa using e2
  refine ⟨⟨best, b1, b2, by rw [b3]; exact hrow _ b1⟩, ?_⟩
  have step : ∀ s1 : St, Reach s1 → (∀ w, s1.dict w = s.dict w) → s1.traces v = some rows →
      (∀ q, ¬ Named (s.dict v) ((params ++ []).map FitParam.name) q → s1.rd q = s.rd q) → ∀ i, i < rows.length →
      ∃ s2 r, sampleRow v ord s1 i = .ok (s2, r) ∧ IsTotal (T.map fun t => t s2.rd add') r ∧ Reach s2 ∧ (∀ w, s2.dict w = s.dict w) ∧ s2.traces v = some rows ∧
        (∀ q, ¬ Named (s.dict v) ((params ++ []).map FitParam.name) q → s2.rd q = s.rd q) := by
    intro s1 c1 c2 c3 c4 i hi
    have hok : s1.ok (.setFit v rows[i].1 (ord (s1.fitCallbacks (s1.dict v) rows[i].1))) := hord _
    have hrd := set_row (v := v) c1 c2 c4 (a2 _ (List.getElem_mem hi)) hok
    refine ⟨s1.step (.setFit v rows[i].1 (ord (s1.fitCallbacks (s1.dict v) rows[i].1))), rows[i].2, ?_, ?_, .step c1 hok, fun w => ?_, ?_, fun q hq => ?_⟩
    · unfold sampleRow
      rw [c3]
      simp only [List.getElem?_eq_getElem hi]
    · rw [hrd]; exact hrow _ (List.getElem_mem hi)
    · exact ((step_pres c1.struct hok trivial).dict w).trans (c2 w)
    · exact (congrFun (setFit_traces _ _ _ _) v).trans c3
    · rw [hrd]
      unfold readAfter
      have : newVal (s.dict v) rows[i].1 q = none := by
        rw [newVal_none, a2 _ (List.getElem_mem hi)]; exact hq
      rw [this]
  intro is his i hi
  have : ∀ s1 : St, Reach s1 → (∀ w, s1.dict w = s.dict w) → s1.traces v = some rows →
      (∀ q, ¬ Named (s.dict v) ((params ++ []).map FitParam.name) q → s1.rd q = s.rd q) →
      ∃ s2, is.foldlM (fun s i => do pure (← sampleRow v ord s i).1) s1 = (.ok s2 : Except Err St) ∧ Reach s2 ∧ (∀ w, s2.dict w = s.dict w) ∧ s2.traces v = some rows ∧
        (∀ q, ¬ Named (s.dict v) ((params ++ []).map FitParam.name) q → s2.rd q = s.rd q) := by
    clear hi
    induction is with
    | nil => intro s1 c1 c2 c3 c4; exact ⟨s1, rfl, c1, c2, c3, c4⟩
    | cons j t ih =>
      intro s1 c1 c2 c3 c4
      obtain ⟨s2, r, e1, -, d1, d2, d3, d4⟩ := step s1 c1 c2 c3 c4 j (his j (by simp))
      obtain ⟨s3, e3, r3⟩ := ih (fun i hi => his i (by simp [hi])) s2 d1 d2 d3 d4
      refine ⟨s3, ?_, r3⟩
      simp only [List.foldlM_cons, e1, bind, Except.bind, pure, Except.pure]
      exact e3
  obtain ⟨s1, e1, d1, d2, d3, d4⟩ := this s' a3 a4 a5 a6
  obtain ⟨s2, r, e2, e3, -⟩ := step s1 d1 d2 d3 d4 i hi
  exact ⟨s1, s2, r, e1, e2, e3⟩

/-- **C118** After `fridge` the log probability of the camera is the largest of the trace. -/
theorem C118_fridge {v : View} {params additional : List FitParam} {T : List Term} {ord : List Cb → List Cb} (hord : ∀ l, IsOrder (ord l) l)
    {S : Sampler (params ++ additional).length} {s s' : St} (hr : Reach s) {add add' : ℕ → ℝ} {rows : List Row}
    (h : fridgeOn v params additional T ord S s add = .ok (s', add', rows)) :
    ∃ best ∈ rows, (∀ row ∈ rows, row.2 ≤ best.2) ∧ IsTotal (T.map fun t => t s'.rd add') best.2 := by
  obtain ⟨-, -, best, b1, b2, -, -, -, b3, -⟩ := fridgeOn_spec hord hr h
  refine ⟨best, b1, b2, ?_⟩
  rw [funext b3]
  exact (C117_additional_violated hord hr h).1 _ b1

/-- **C118** is violated with an additional parameter: it keeps the value that was tried last, even if that was rejected.
For a term that is best at the start value of the additional parameter, and draws that move it and reject all moves: every
row of the trace has log probability 0, but afterwards the log probability of the camera is -1. -/
theorem C118_violated {v : View} {p q : FitParam} {ord : List Cb → List Cb} {scale iterations burn : ℝ}
    {R : Rand ([p] ++ [q]).length} {s s' : St} {add add' : ℕ → ℝ} {rows : List Row} (hp : 0 < p.step) (hs : 0 < scale) (hi : 1 ≤ iterations)
    (hup : ∀ i a b, 0 < R.tn i ⟨1, by simp⟩ a b) (hu : ∀ i, Real.exp (-1) ≤ R.u i)
    (h : metropolisOn v [p] [q] [fun _ a => if a 0 = q.value then .fin 0 else .fin (-1)] ord scale iterations burn R s add = .ok (s', add', rows)) :
    (∀ row ∈ rows, row.2 = .fin 0) ∧ logProbability (([fun _ a => if a 0 = q.value then .fin 0 else .fin (-1)] : List Term).map fun t => t s'.rd add') = .fin (-1) := by
  set T : List Term := [fun _ a => if a 0 = q.value then .fin 0 else .fin (-1)] with hT
  set lp : (St × (ℕ → ℝ)) → (Fin ([p] ++ [q]).length → ℝ) → (St × (ℕ → ℝ)) × Num := getLogProb v ([p].map FitParam.name) T ord with hlp
  have hval : ∀ a rd, logProbability (T.map fun t => t rd a) = if a 0 = q.value then .fin 0 else .fin (-1) := by
    intro a rd
    by_cases e : a 0 = q.value <;> simp [hT, e, logProbability, npsum, add_def, Num.add, Num.rv]
  have hlp2 : ∀ x pos, (lp x pos).2 = if pos ⟨1, by simp⟩ = q.value then .fin 0 else .fin (-1) := fun x pos => (hval _ _).trans rfl
  have hlp1 : ∀ x pos, (lp x pos).1.2 0 = pos ⟨1, by simp⟩ := fun x pos => rfl
  unfold metropolisOn at h
  obtain ⟨rs, h1, h⟩ := bind_ok h
  obtain ⟨x, h2, h⟩ := bind_ok h
  obtain ⟨steps, h3, h⟩ := bind_ok h
  obtain ⟨m, h4, h⟩ := bind_ok h
  obtain ⟨best, h5, h⟩ := bind_ok h
  simp only [pure, Except.pure, Except.ok.injEq, Prod.mk.injEq] at h
  obtain ⟨e1, e2, e3⟩ := h
  have h2' := findStart_first (lp := lp) R.draws (x := (s, add)) (start := fun k => (([p] ++ [q]).get k).value) (by
    rw [hlp2, if_pos (show (([p] ++ [q]).get ⟨1, by simp⟩).value = q.value from rfl)]; simp [Num.IsInf])
  rw [h2'] at h2
  simp only [Except.ok.injEq] at h2
  have hx : x.2 ⟨1, by simp⟩ = q.value := by rw [← h2]; rfl
  simp only [broadcastStep] at h3
  rw [if_neg (by simp)] at h3
  simp only [List.map_cons, List.map_nil, Except.ok.injEq] at h3
  have hst : ∀ k : Fin ([p] ++ [q]).length, steps.getD k 0 = scale * p.step := by
    intro k
    rw [← h3]
    fin_cases k <;> rfl
  obtain ⟨c, g1, g2⟩ := metropolis_ok (s' := m.1) (tr := m.2) h4
  set A : Args ([p] ++ [q]).length := ⟨fun k => steps.getD k 0, fun k => (rs.getD k (none, none)).1, fun k => (rs.getD k (none, none)).2, iterations, burn, R.tn, R.u⟩ with hA
  have hn : 0 < (pyint A.iterations).toNat := by
    have : (1 : ℤ) ≤ pyint iterations := by
      unfold pyint
      rw [if_pos (by linarith)]
      exact Int.le_floor.2 (by simpa using hi)
    show 0 < (pyint iterations).toNat
    omega
  have key : ∀ (i : ℕ) (y : (St × (ℕ → ℝ)) × Chain ([p] ++ [q]).length), loop lp A ((lp x.1 x.2).1, { pos := x.2, prob := (lp x.1 x.2).2 }) i = .ok y →
      y.2.pos = x.2 ∧ y.2.prob = .fin 0 ∧ 0 < y.2.factor ∧ (∀ r ∈ y.2.trace, r.2 = .fin 0) ∧ (0 < i → y.1.2 0 ≠ q.value) := by
    intro i
    induction i with
    | zero =>
      intro y hy
      simp only [loop, Except.ok.injEq] at hy
      subst hy
      refine ⟨rfl, ?_, one_pos, by simp, by simp⟩
      show (lp x.1 x.2).2 = _
      rw [hlp2, if_pos hx]
    | succ i ih =>
      intro y hy
      obtain ⟨z, hz, hy⟩ := loop_succ hy
      obtain ⟨i1, i2, i3, i4, -⟩ := ih z hz
      have hfac := iter_factor hy i3
      obtain ⟨-, e0, e2, e3, -⟩ := iter_ok hy
      have hne : propose A i z.2.factor z.2.pos ⟨1, by simp⟩ ≠ q.value := by
        unfold propose
        rw [i1, hx]
        have : 0 < z.2.factor * A.step ⟨1, by simp⟩ * A.tn i ⟨1, by simp⟩ (truncLo A x.2 ⟨1, by simp⟩) (truncHi A x.2 ⟨1, by simp⟩) :=
          mul_pos (mul_pos i3 (by simp only [hA, hst]; positivity)) (hup _ _ _)
        intro e; linarith
      rw [if_neg] at e2
      · have e5 : y.2.prob = .fin 0 := by rw [e2.2, i2]
        refine ⟨by rw [e2.1, i1], e5, hfac, ?_, fun _ => ?_⟩
        · intro r hr
          rw [e3] at hr
          split_ifs at hr
          · simp only [List.mem_append, List.mem_singleton] at hr
            rcases hr with hr | rfl
            · exact i4 r hr
            · exact e5
          · exact i4 r hr
        · rw [e0, hlp1]; exact hne
      · rw [hlp2, if_neg hne, i2]
        have e : Num.fin (-1) - Num.fin 0 = .fin (-1) := by
          show Num.add _ (Num.neg _) = _
          simp [Num.neg, Num.add, Num.rv]
        unfold Accept
        simp only [Num.IsInf, and_false, if_false, e, Num.exp]
        rintro (h | h)
        · rw [(Num.is_fin 0).le_iff (Num.is_fin (-1))] at h; linarith
        · rw [(Num.is_fin _).lt_iff (Num.is_fin _)] at h
          exact absurd h (not_lt.2 (hu i))
  obtain ⟨-, -, -, k4, k5⟩ := key _ _ g1
  constructor
  · intro row hrow
    rw [← e3, List.mem_map] at hrow
    obtain ⟨r, hr', rfl⟩ := hrow
    exact k4 r (by rw [g2]; exact hr')
  · rw [hval, if_neg]
    rw [← e2]
    exact k5 hn

/-- The hypotheses can be met: two parameters without bounds. -/
example : ∃ (p q : FitParam) (R : Rand ([p] ++ [q]).length) (r : St × (ℕ → ℝ) × List Row), 0 < p.step ∧ (∀ i a b, 0 < R.tn i ⟨1, by simp⟩ a b) ∧ (∀ i, Real.exp (-1) ≤ R.u i) ∧
    metropolisOn (.cam 0) [p] [q] [fun _ a => if a 0 = q.value then .fin 0 else .fin (-1)] List.dedup 1 4 0 R Sys.Ex.s4 (fun _ => 0) = .ok r ∧ r.2.2 ≠ [] := by
  let p : FitParam := ⟨"tilt_deg", 80, 1, some (none, none)⟩
  let q : FitParam := ⟨"sea", 0, 1, some (none, none)⟩
  let R : Rand ([p] ++ [q]).length := ⟨fun _ _ => 0, fun _ _ _ _ => 1, fun _ => 1⟩
  let T : List Term := [fun _ a => if a 0 = q.value then .fin 0 else .fin (-1)]
  have h2 := findStart_first (lp := getLogProb (n := ([p] ++ [q]).length) (.cam 0) ([p].map FitParam.name) T List.dedup) R.draws (x := (Sys.Ex.s4, fun _ => 0))
    (start := fun k => (([p] ++ [q]).get k).value) (by simp [getLogProb, logProbability, npsum, Num.IsInf, T, p, q, add_def, Num.add])
  obtain ⟨m, h4⟩ := free_ok (getLogProb (.cam 0) ([p].map FitParam.name) T List.dedup)
    (⟨fun k => (List.replicate ([p] ++ [q]).length (1 * p.step)).getD k 0, fun k => (([(none, none), (none, none)] : List (Option ℝ × Option ℝ)).getD k (none, none)).1,
      fun k => (([(none, none), (none, none)] : List (Option ℝ × Option ℝ)).getD k (none, none)).2, 4, 0, R.tn, R.u⟩ : Args ([p] ++ [q]).length)
    (fun k => by fin_cases k <;> rfl) (fun k => by fin_cases k <;> rfl)
    (fun k => by fin_cases k <;> simp [p])
    (getLogProb (.cam 0) ([p].map FitParam.name) T List.dedup (Sys.Ex.s4, fun _ => 0) fun k => (([p] ++ [q]).get k).value).1 (fun k => (([p] ++ [q]).get k).value)
  have hlen := C58_trace_length (by norm_num) (by norm_num) (s' := m.1) (tr := m.2) h4
  have hne : m.2 ≠ [] := by
    intro e; rw [e] at hlen; norm_num [skipped] at hlen
  obtain ⟨b, h5⟩ := idxmax_exists (l := m.2.map fun r => ((([p] ++ [q]).map FitParam.name).zip (List.ofFn r.1), r.2)) (by simpa using hne)
  have h1 : ranges ([p] ++ [q]) = .ok [(none, none), (none, none)] := rfl
  have h3 : broadcastStep ([p].map fun p => 1 * p.step) ([p] ++ [q]).length = .ok (List.replicate ([p] ++ [q]).length (1 * p.step)) := by
    simp [broadcastStep]
  refine ⟨p, q, R, ?_⟩
  have : ∃ r, metropolisOn (.cam 0) [p] [q] T List.dedup 1 4 0 R Sys.Ex.s4 (fun _ => 0) = .ok r ∧ r.2.2 ≠ [] := by
    unfold metropolisOn
    simp only [h1, h2, h3, h4, h5, bind, Except.bind, pure, Except.pure]
    exact ⟨_, rfl, by simpa using hne⟩
  obtain ⟨r, hr1, hr2⟩ := this
  exact ⟨r, one_pos, fun _ _ _ => one_pos, fun _ => by simp [R], hr1, hr2⟩
