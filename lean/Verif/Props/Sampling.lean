import Verif.Props.Fit

/-! # When sampling works, and whose step sizes it uses (C89, C90) -/

set_option linter.constructorNameAsVariable false

open Classical Stat Sys

namespace Stat

theorem is_above_ninf {x : Num} {r : ℝ} (h : x.Is r) : Num.ninf < x := by
  cases x <;> simp only [Num.Is] at h
  · exact ⟨by simp, by simp, by simp [Num.ext]⟩
  · exact ⟨by simp, by simp, by simp [Num.ext]⟩

theorem is_below_pinf {x : Num} {r : ℝ} (h : x.Is r) : x < Num.pinf := by
  cases x <;> simp only [Num.Is] at h
  · exact ⟨by simp, by simp, by simp [Num.ext, EReal.coe_lt_top]⟩
  · exact ⟨by simp, by simp, by simp [Num.ext]⟩

theorem sub_fin_lt {a b : Num} {p s : ℝ} (hs : 0 < s) (ha : a = .ninf ∨ ∃ l, a = .fin l) (hb : b = .pinf ∨ ∃ u, b = .fin u)
    (h : ∀ l u, a = .fin l → b = .fin u → l < u) : (a - .fin p) / .fin s < (b - .fin p) / .fin s := by
  have hne : ¬ s < 0 := not_lt.2 hs.le
  have n1 : (Num.ninf - Num.fin p) = .ninf := by
    show Num.add _ (Num.neg _) = _
    unfold Num.neg; simp only; split_ifs <;> rfl
  have n2 : (Num.pinf - Num.fin p) = .pinf := by
    show Num.add _ (Num.neg _) = _
    unfold Num.neg; simp only; split_ifs <;> rfl
  have d1 : Num.ninf / Num.fin s = .ninf := by
    show Num.div _ _ = _
    simp [Num.div, Num.IsInf, Num.signbit, Num.signedInf, hne]
  have d2 : Num.pinf / Num.fin s = .pinf := by
    show Num.div _ _ = _
    simp [Num.div, Num.IsInf, Num.signbit, Num.signedInf, hne]
  have f : ∀ l : ℝ, ((Num.fin l - .fin p) / .fin s).Is ((l - p) / s) := fun l =>
    Num.Is.div ((Num.is_fin l).sub (Num.is_fin p)) (Num.is_fin s) hs.ne'
  rcases ha with rfl | ⟨l, rfl⟩ <;> rcases hb with rfl | ⟨u, rfl⟩
  · rw [n1, n2, d1, d2]
    exact ⟨by simp, by simp, by simp [Num.ext]⟩
  · rw [n1, d1]
    exact is_above_ninf (f u)
  · rw [n2, d2]
    exact is_below_pinf (f l)
  · refine ((f l).lt_iff (f u)).2 ?_
    have := h l u rfl rfl
    gcongr

/-- A run whose bounds are in order never raises. -/
theorem ordered_ok {σ : Type} {n : ℕ} (lp : σ → (Fin n → ℝ) → σ × Num) (A : Args n) (hs : ∀ k, 0 < A.step k)
    (hb : ∀ k l u, A.lower k = some l → A.upper k = some u → l < u) (s : σ) (start : Fin n → ℝ) : ∃ r, metropolis lp A s start = .ok r := by
  have hlt : ∀ pos k, truncLo A pos k < truncHi A pos k := by
    intro pos k
    unfold truncLo truncHi lo hi
    cases e1 : A.lower k with
    | none => cases e2 : A.upper k <;> exact sub_fin_lt (hs k) (by simp) (by simp) (by simp)
    | some l =>
      cases e2 : A.upper k with
      | none => exact sub_fin_lt (hs k) (by simp) (by simp) (by simp)
      | some u => exact sub_fin_lt (hs k) (by simp) (by simp) (by simpa using hb k l u e1 e2)
  have hit : ∀ i x, ∃ y, iter lp A i x = .ok y := by
    intro i x
    unfold iter
    rw [if_neg (by push Not; exact hlt _)]
    exact ⟨_, rfl⟩
  have hl : ∀ i x, ∃ y, loop lp A x i = .ok y := by
    intro i x
    induction i with
    | zero => exact ⟨_, rfl⟩
    | succ i ih =>
      obtain ⟨y, hy⟩ := ih
      obtain ⟨z, hz⟩ := hit i y
      exact ⟨z, by simp only [loop, hy, bind, Except.bind, hz]⟩
  obtain ⟨y, hy⟩ := hl (pyint A.iterations).toNat ((lp s start).1, { pos := start, prob := (lp s start).2 })
  exact ⟨(y.1, y.2.trace), by simp only [metropolis, hy, bind, Except.bind, pure, Except.pure]⟩

/-- The ranges of parameters that have some. -/
theorem ranges_ok {l : List FitParam} {rs : List (Option ℝ × Option ℝ)} (h : l.map FitParam.parents = rs.map some) : ranges l = .ok rs := by
  induction l generalizing rs with
  | nil =>
    cases rs with
    | nil => rfl
    | cons => simp at h
  | cons a t ih =>
    cases rs with
    | nil => simp at h
    | cons r rs =>
      simp only [List.map_cons, List.cons.injEq] at h
      simp only [ranges, h.1, ih h.2, bind, Except.bind, pure, Except.pure]

/-- A fit parameter that can be used: it has ranges, a lower bound is below the upper one, and its step is positive. -/
def Usable (p : FitParam) : Prop := 0 < p.step ∧ ∃ r, p.parents = some r ∧ ∀ l u, r = (some l, some u) → l < u

end Stat

/-- **C89** and **C90**, partial: `metropolis` works if the fit parameters have ranges and positive steps, one of the positions that count
as tried is possible, at least one row is kept, and there is a single fit parameter or there are no additional parameters. -/
theorem C90_works_partial {v : View} {params additional : List FitParam} {T : List Term} {ord : List Cb → List Cb} (hord : ∀ l, IsOrder (ord l) l)
    (hp : ∀ p ∈ params ++ additional, Usable p) (hn : params.length = 1 ∨ additional = []) {scale iterations burn : ℝ} (hsc : 0 < scale)
    (hi : 0 ≤ iterations) (hb : 0 ≤ burn) (hrow : 1 < ⌊iterations⌋ - skipped iterations burn) (R : Rand (params ++ additional).length)
    {s : St} (hr : Reach s) (add : ℕ → ℝ)
    (hstart : ∃ i < 1000, ∀ r, LogProbAt s.rd (s.dict v) (params.map FitParam.name) T add
      (tried (fun k => ((params ++ additional).get k).value) R.draws i) r → ¬ r.IsInf) :
    ∃ r, metropolisOn v params additional T ord scale iterations burn R s add = .ok r := by
  have hlen : (params.map FitParam.name).length ≤ (params ++ additional).length := by simp
  have hC := computes (s := s) (add := add) (v := v) hlen T hord
  obtain ⟨rs, h1⟩ : ∃ rs : List (Option ℝ × Option ℝ), (params ++ additional).map FitParam.parents = rs.map some := by
    refine ⟨(params ++ additional).map fun p => p.parents.getD (none, none), ?_⟩
    rw [List.map_map]
    refine List.map_congr_left fun p hpm => ?_
    obtain ⟨-, r, e, -⟩ := hp p hpm
    simp [e]
  obtain ⟨x, h2⟩ : ∃ x, findStart (getLogProb v (params.map FitParam.name) T ord) R.draws (s, add) (fun k => ((params ++ additional).get k).value) = .ok x := by
    cases e : findStart (getLogProb v (params.map FitParam.name) T ord) R.draws (s, add) (fun k => ((params ++ additional).get k).value) with
    | ok x => exact ⟨x, rfl⟩
    | error er =>
      have her : er = .valueError := by
        unfold findStart at e
        simp only at e
        split_ifs at e
        cases e; rfl
      rw [her] at e
      have := (C62_start_search_partial hC R.draws (FitInv.init hr add v _ _) _).1.1 e
      obtain ⟨i, hi', hgood⟩ := hstart
      exact absurd (this i hi') (hgood _ (logProbability_total _))
  obtain ⟨steps, h3, h3'⟩ : ∃ steps, broadcastStep (params.map fun p => scale * p.step) (params ++ additional).length = .ok steps ∧
      ∀ k < (params ++ additional).length, 0 < steps.getD k 0 := by
    rcases hn with hn | rfl
    · obtain ⟨p, rfl⟩ := List.length_eq_one_iff.1 hn
      refine ⟨List.replicate ([p] ++ additional).length (scale * p.step), ?_, fun k hk => ?_⟩
      · cases additional with
        | nil => simp [broadcastStep]
        | cons a t => simp [broadcastStep]
      · rw [List.getD_eq_getElem?_getD, List.getElem?_replicate, if_pos hk]
        exact mul_pos hsc (hp p (by simp)).1
    · refine ⟨params.map fun p => scale * p.step, by simp [broadcastStep], fun k hk => ?_⟩
      rw [List.append_nil] at hk hp
      rw [List.getD_eq_getElem?_getD, List.getElem?_map, List.getElem?_eq_getElem hk]
      exact mul_pos hsc (hp _ (List.getElem_mem hk)).1
  have hrs : ∀ k : Fin (params ++ additional).length, ∀ l u, (rs.getD k (none, none)).1 = some l → (rs.getD k (none, none)).2 = some u → l < u := by
    intro k l u e1 e2
    have hk : (k : ℕ) < rs.length := by
      have := congrArg List.length h1
      simp only [List.length_map] at this
      rw [← this]; exact k.2
    have hget := congrArg (fun l => l[(k : ℕ)]?) h1
    simp only [List.getElem?_map, List.getElem?_eq_getElem k.2, List.getElem?_eq_getElem hk, Option.map_some, Option.some.injEq] at hget
    obtain ⟨-, r, e, hlu⟩ := hp _ (List.getElem_mem k.2)
    rw [e, Option.some.injEq] at hget
    rw [List.getD_eq_getElem?_getD, List.getElem?_eq_getElem hk, Option.getD_some, ← hget] at e1 e2
    exact hlu l u (Prod.ext e1 e2)
  obtain ⟨m, h4⟩ := ordered_ok (getLogProb v (params.map FitParam.name) T ord)
    (⟨fun k => steps.getD k 0, fun k => (rs.getD k (none, none)).1, fun k => (rs.getD k (none, none)).2, iterations, burn, R.tn, R.u⟩ :
      Args (params ++ additional).length) (fun k => h3' k k.2) hrs x.1 x.2
  have hne : m.2 ≠ [] := by
    have := C58_trace_length (lp := getLogProb v (params.map FitParam.name) T ord) (A := ⟨fun k => steps.getD k 0, fun k => (rs.getD k (none, none)).1, fun k => (rs.getD k (none, none)).2, iterations, burn, R.tn, R.u⟩) hi hb
      (s' := m.1) (tr := m.2) h4
    intro e
    rw [e] at this
    simp only [List.length_nil, Nat.cast_zero] at this
    have h0 := le_max_right 0 (⌊iterations⌋ - skipped iterations burn - 1)
    omega
  obtain ⟨b, h5⟩ := idxmax_exists (l := m.2.map fun r => (((params ++ additional).map FitParam.name).zip (List.ofFn r.1), r.2)) (by simpa using hne)
  unfold metropolisOn
  simp only [ranges_ok h1, h2, h3, h4, h5, bind, Except.bind, pure, Except.pure]
  exact ⟨_, rfl⟩

namespace Stat

/-- The call of `metropolis`, given the number of parameters and what it uses of them. -/
noncomputable def onCore (v : View) (names all : List String) (rs : Except Err (List (Option ℝ × Option ℝ))) (steps : List ℝ) (T : List Term)
    (ord : List Cb → List Cb) (iterations burn : ℝ) (n : ℕ) (value : Fin n → ℝ) (R : Rand n) (s : St) (add : ℕ → ℝ) :
    Except Err (St × (ℕ → ℝ) × List Row) := do
  let rs ← rs
  let f : (St × (ℕ → ℝ)) → (Fin n → ℝ) → (St × (ℕ → ℝ)) × Num := getLogProb v names T ord
  let x ← findStart f R.draws (s, add) value
  let steps ← broadcastStep steps n
  let m ← metropolis f
    { step := fun k => steps.getD k 0
      lower := fun k => (rs.getD k (none, none)).1
      upper := fun k => (rs.getD k (none, none)).2
      iterations := iterations
      burn := burn
      tn := R.tn
      u := R.u } x.1 x.2
  let rows : List Row := m.2.map fun r => (all.zip (List.ofFn r.1), r.2)
  let best ← idxmax rows
  let s := m.1.1.step (.setTrace v (some rows))
  pure (s.setFit (s.dict v) best.1 (ord (s.fitCallbacks (s.dict v) best.1)), m.1.2, rows)

theorem onCore_eq (v : View) (params additional : List FitParam) (T : List Term) (ord : List Cb → List Cb) (scale iterations burn : ℝ)
    (R : Rand (params ++ additional).length) (s : St) (add : ℕ → ℝ) :
    metropolisOn v params additional T ord scale iterations burn R s add =
      onCore v (params.map FitParam.name) ((params ++ additional).map FitParam.name) (ranges (params ++ additional))
        (params.map fun p => scale * p.step) T ord iterations burn _ (fun k => ((params ++ additional).get k).value) R s add := rfl

theorem onCore_cast {v : View} {names all : List String} {rs : Except Err (List (Option ℝ × Option ℝ))} {steps : List ℝ} {T : List Term}
    {ord : List Cb → List Cb} {iterations burn : ℝ} {n m : ℕ} (h : m = n) (value : Fin n → ℝ) (R : Rand n) (s : St) (add : ℕ → ℝ) :
    onCore v names all rs steps T ord iterations burn m (fun k => value (k.cast h))
      ⟨fun i k => R.draws i (k.cast h), fun i k => R.tn i (k.cast h), R.u⟩ s add =
    onCore v names all rs steps T ord iterations burn n value R s add := by
  subst h
  rfl

theorem ranges_congr : ∀ {l l' : List FitParam}, l.map FitParam.parents = l'.map FitParam.parents → ranges l = ranges l'
  | [], [], _ => rfl
  | [], _ :: _, h => by simp at h
  | _ :: _, [], h => by simp at h
  | a :: t, b :: t', h => by
    simp only [List.map_cons, List.cons.injEq] at h
    simp only [ranges, h.1, ranges_congr h.2]

end Stat

/-- **C90 violated.**  The additional parameters do not move with their own steps: whatever steps they are given, the outcome is the same. -/
theorem C90_steps_violated {v : View} {params additional : List FitParam} (T : List Term) (ord : List Cb → List Cb) (scale iterations burn : ℝ)
    (step : FitParam → ℝ) (R : Rand (params ++ additional).length) (s : St) (add : ℕ → ℝ) :
    metropolisOn v params (additional.map fun p => { p with step := step p }) T ord scale iterations burn
      ⟨fun i k => R.draws i (k.cast (by simp)), fun i k => R.tn i (k.cast (by simp)), R.u⟩ s add =
    metropolisOn v params additional T ord scale iterations burn R s add := by
  set f : FitParam → FitParam := fun p => { p with step := step p }
  rw [onCore_eq, onCore_eq]
  have e1 : (params ++ additional.map f).map FitParam.name = (params ++ additional).map FitParam.name := by
    simp [Function.comp_def, f]
  have e2 : ranges (params ++ additional.map f) = ranges (params ++ additional) :=
    ranges_congr (by simp [Function.comp_def, f])
  have e3 : ∀ k : Fin (params ++ additional.map f).length,
      ((params ++ additional.map f).get k).value = ((params ++ additional).get (k.cast (by simp))).value := by
    intro k
    simp only [List.get_eq_getElem, List.getElem_append, List.getElem_map, Fin.val_cast]
    split_ifs <;> rfl
  rw [e1, e2, funext e3]
  exact onCore_cast (by simp) (fun k => ((params ++ additional).get k).value) R s add

/-- A call that works: a tilt angle with bounds and an additional parameter. -/
example : ∃ params additional : List FitParam, params.length = 1 ∧ additional ≠ [] ∧ (∀ p ∈ params ++ additional, Usable p) ∧ Reach Ex.s4 ∧
    (1 : ℤ) < ⌊(4 : ℝ)⌋ - skipped 4 0 ∧
    ∀ r, LogProbAt Ex.s4.rd (Ex.s4.dict (.cam 0)) (params.map FitParam.name) [] (fun _ => 0)
      (tried (fun k => ((params ++ additional).get k).value) (fun _ _ => 0) 0) r → ¬ r.IsInf := by
  refine ⟨[⟨"tilt_deg", 80, 1, some (some 0, some 90)⟩], [⟨"Z0", 0, 1, some (none, none)⟩], rfl, by simp, ?_, Ex.reachX4.reach, ?_, ?_⟩
  · intro p hp
    simp only [List.cons_append, List.nil_append, List.mem_cons, List.not_mem_nil, or_false] at hp
    rcases hp with rfl | rfl
    · exact ⟨one_pos, _, rfl, by rintro l u h; simp only [Prod.mk.injEq, Option.some.injEq] at h; rw [← h.1, ← h.2]; norm_num⟩
    · exact ⟨one_pos, _, rfl, by simp⟩
  · norm_num [skipped]
  · intro r hr
    have := hr.1 [] (by simp)
    cases r <;> simp_all [Num.Is, Num.IsInf]
