import Verif.Props.Fit

/-! # What is read after fitting and sampling, in all cases (C61, C88) -/

set_option linter.constructorNameAsVariable false

open Classical Stat Sys

/-- **C61** For every parameter, named or not: what is read after `metropolis` is what follows from the best row; headings are read modulo
360, focal lengths follow `focallength_px` if it is sampled too. -/
theorem C61_exact_partial {v : View} {params additional : List FitParam} {T : List Term} {ord : List Cb → List Cb} (hord : ∀ l, IsOrder (ord l) l)
    {scale iterations burn : ℝ} {R : Rand (params ++ additional).length} {s s' : St} (hr : Reach s) {add add' : ℕ → ℝ} {rows : List Row}
    (h : metropolisOn v params additional T ord scale iterations burn R s add = .ok (s', add', rows)) :
    ∃ best ∈ rows, (∀ row ∈ rows, row.2 ≤ best.2) ∧ ∀ q, s'.rd q = readAfter s.rd (s.dict v) best.1 q := by
  obtain ⟨x, A, m, best, h2, -, -, -, hu, -, h4, h5, h6, -, h7⟩ := metropolisOn_ok h
  have hlen : (params.map FitParam.name).length ≤ (params ++ additional).length := by simp
  have hC := computes (s := s) (add := add) (v := v) hlen T hord
  obtain ⟨hx1, hx2, -⟩ := (C62_start_search_partial hC R.draws (FitInv.init hr add v _ _) _).2 x.1 x.2 h2
  obtain ⟨k1, -⟩ := C59_rows_partial hC hx1 (s' := m.1) (tr := m.2) h4
  have hm : FitInv s add v (params.map FitParam.name) (params ++ additional).length m.1 := by
    obtain ⟨c, g1, -⟩ := metropolis_ok (s' := m.1) (tr := m.2) h4
    exact (loop_inv hC (x := ((getLogProb v (params.map FitParam.name) T ord x.1 x.2).1, { pos := x.2, prob := (getLogProb v (params.map FitParam.name) T ord x.1 x.2).2 }))
      ⟨(hC _ _ hx1).1, (hC _ _ hx1).2, by simp⟩ _ _ g1).1
  obtain ⟨b1, b2⟩ := idxmax_ok (l := rows) (by
    intro row hrow
    rw [h5, List.mem_map] at hrow
    obtain ⟨r, hr', rfl⟩ := hrow
    simp only
    rw [k1 r hr']
    exact logProbability_ne_nan _) h6
  set s1 := m.1.1.step (.setTrace v (some rows)) with hs1
  have hr1 : Reach s1 := .step hm.reach trivial
  have hd1 : ∀ w, s1.dict w = s.dict w := fun w => by rw [← hm.dict w]; cases w <;> rfl
  have hok : s1.ok (.setFit v best.1 (ord (s1.fitCallbacks (s1.dict v) best.1))) := hord _
  have hnames : best.1.map Prod.fst = (params ++ additional).map FitParam.name := by
    rw [h5, List.mem_map] at b1
    obtain ⟨r, -, rfl⟩ := b1
    exact zip_fst _ (by simp)
  refine ⟨best, b1, b2, fun q => ?_⟩
  rw [h7]
  refine (setFit_rd hr1 hok q).trans ?_
  rw [hd1]
  refine congrFun (readAfter_congr fun q hq => ?_) q
  have e : s1.par q = s.par q := by
    have : s1.par q = m.1.1.par q := rfl
    rw [this]
    apply hm.par
    rw [hnames] at hq
    rintro (⟨n, hn, h⟩ | ⟨p, hp, n, hn, h⟩)
    · exact hq (Or.inl ⟨n, by simp at hn ⊢; exact Or.inl hn, h⟩)
    · exact hq (Or.inr ⟨p, hp, n, by simp at hn ⊢; exact Or.inl hn, h⟩)
  exact rd_eq_of_par e

/-- **C88** For every parameter, named or not: what is read after `fit` is what follows from the returned values; headings are read modulo
360, focal lengths follow `focallength_px` if it is fitted too. -/
theorem C88_exact_partial {v : View} {params : List FitParam} {T : List Term} {ord : List Cb → List Cb} (hord : ∀ l, IsOrder (ord l) l)
    {draws : ℕ → Fin params.length → ℝ} {ps : (Fin params.length → ℝ) → List (Fin params.length → ℝ)}
    {result : (Fin params.length → ℝ) → Fin params.length → ℝ} {s s' : St} (hr : Reach s) {add : ℕ → ℝ} {x : Fin params.length → ℝ}
    (h : fitOn v params T ord draws ps result s add = .ok (s', x)) (q : Pid) :
    s'.rd q = readAfter s.rd (s.dict v) ((params.map FitParam.name).zip (List.ofFn x)) q := by
  obtain ⟨st, h2, rfl, h3⟩ := fitOn_ok h
  have hlen : (params.map FitParam.name).length ≤ params.length := by simp
  have hC := computes (s := s) (add := add) (v := v) hlen T hord
  obtain ⟨hx1, hx2, -⟩ := (C62_start_search_partial hC draws (FitInv.init hr add v _ _) _).2 st.1 st.2 h2
  have hI := evals_inv (Inv := FitInv s add v (params.map FitParam.name) params.length) (fun x p hx => (hC x p hx).1) hx1 (ps st.2)
  set z := evals (getLogProb v (params.map FitParam.name) T ord) st.1 (ps st.2)
  have hok : z.1.ok (.setFit v ((params.map FitParam.name).zip (List.ofFn (result st.2)))
    (ord (z.1.fitCallbacks (z.1.dict v) ((params.map FitParam.name).zip (List.ofFn (result st.2)))))) := hord _
  have hz := zip_fst (names := params.map FitParam.name) (result st.2) hlen
  rw [h3]
  refine (setFit_rd hI.reach hok q).trans ?_
  rw [hI.dict]
  refine congrFun (readAfter_congr fun q hq => ?_) q
  rw [hz] at hq
  exact rd_eq_of_par (hI.par q hq)

namespace Stat

/-- The two ways in which a parameter is not read as the value it was given. -/
theorem readAfter_turn {rd : Pid → ℝ} {d : Dict} {vals : List (String × ℝ)} {o : ℕ} {y : ℝ} (h : lastOf d vals (.o o .turn) = some y) (hy : Out y) :
    readAfter rd d vals (.o o .turn) = y - 360 * ⌊y / 360⌋ ∧ readAfter rd d vals (.o o .turn) ≠ y := by
  have e : readAfter rd d vals (.o o .turn) = y - 360 * ⌊y / 360⌋ := by
    have hn : newVal d vals (.o o .turn) = some y := h
    unfold readAfter
    rw [hn]
    simp only [norm360_eq, if_pos hy]
  refine ⟨e, ?_⟩
  rw [e]
  intro h0
  have h1 : ((⌊y / 360⌋ : ℤ) : ℝ) = 0 := by linarith
  have h2 : ⌊y / 360⌋ = 0 := by exact_mod_cast h1
  rw [Int.floor_eq_zero_iff] at h2
  obtain ⟨a, b⟩ := h2
  rw [le_div_iff₀ (by norm_num)] at a
  rw [div_lt_iff₀ (by norm_num)] at b
  rcases hy with hy | hy <;> linarith

theorem readAfter_focal {rd : Pid → ℝ} {d : Dict} {vals : List (String × ℝ)} {p : ℕ} {y : ℝ} (h : lastOf d vals (.p p .f) = some y) :
    readAfter rd d vals (.p p .fx) = y ∧ readAfter rd d vals (.p p .fy) = y := by
  simp [readAfter, newVal, h, norm360]

end Stat

/-- **C88 is violated** for a heading (or pitch) outside [-360, 360] in the result of the optimiser: it is read modulo 360. -/
theorem C88_turn_violated {v : View} {params : List FitParam} {T : List Term} {ord : List Cb → List Cb} (hord : ∀ l, IsOrder (ord l) l)
    {draws : ℕ → Fin params.length → ℝ} {ps : (Fin params.length → ℝ) → List (Fin params.length → ℝ)}
    {result : (Fin params.length → ℝ) → Fin params.length → ℝ} {s s' : St} (hr : Reach s) {add : ℕ → ℝ} {x : Fin params.length → ℝ}
    (h : fitOn v params T ord draws ps result s add = .ok (s', x)) {o : ℕ} {y : ℝ}
    (hq : lastOf (s.dict v) ((params.map FitParam.name).zip (List.ofFn x)) (.o o .turn) = some y) (hy : Out y) :
    s'.rd (.o o .turn) = y - 360 * ⌊y / 360⌋ ∧ s'.rd (.o o .turn) ≠ y := by
  rw [C88_exact_partial hord hr h]
  exact readAfter_turn hq hy

/-- **C88 is violated** for a focal length that is fitted together with `focallength_px`: it is read as the latter. -/
theorem C88_focal_violated {v : View} {params : List FitParam} {T : List Term} {ord : List Cb → List Cb} (hord : ∀ l, IsOrder (ord l) l)
    {draws : ℕ → Fin params.length → ℝ} {ps : (Fin params.length → ℝ) → List (Fin params.length → ℝ)}
    {result : (Fin params.length → ℝ) → Fin params.length → ℝ} {s s' : St} (hr : Reach s) {add : ℕ → ℝ} {x : Fin params.length → ℝ}
    (h : fitOn v params T ord draws ps result s add = .ok (s', x)) {p : ℕ} {y z : ℝ}
    (hf : lastOf (s.dict v) ((params.map FitParam.name).zip (List.ofFn x)) (.p p .f) = some y)
    (hx : lastOf (s.dict v) ((params.map FitParam.name).zip (List.ofFn x)) (.p p .fx) = some z) (hyz : y ≠ z) :
    s'.rd (.p p .fx) = y ∧ s'.rd (.p p .fx) ≠ z := by
  rw [C88_exact_partial hord hr h]
  have e := (readAfter_focal (rd := s.rd) hf).1
  exact ⟨e, e ▸ hyz⟩

/-- **C61 is violated** for a heading (or pitch) outside [-360, 360] in the best row, which is read modulo 360, and for a focal length that
is sampled together with `focallength_px`, which is read as the latter. -/
theorem C61_violated {v : View} {params additional : List FitParam} {T : List Term} {ord : List Cb → List Cb} (hord : ∀ l, IsOrder (ord l) l)
    {scale iterations burn : ℝ} {R : Rand (params ++ additional).length} {s s' : St} (hr : Reach s) {add add' : ℕ → ℝ} {rows : List Row}
    (h : metropolisOn v params additional T ord scale iterations burn R s add = .ok (s', add', rows)) :
    ∃ best ∈ rows, (∀ row ∈ rows, row.2 ≤ best.2) ∧
      (∀ o y, lastOf (s.dict v) best.1 (.o o .turn) = some y → Out y → s'.rd (.o o .turn) = y - 360 * ⌊y / 360⌋ ∧ s'.rd (.o o .turn) ≠ y) ∧
      ∀ p y z, lastOf (s.dict v) best.1 (.p p .f) = some y → lastOf (s.dict v) best.1 (.p p .fx) = some z → y ≠ z →
        s'.rd (.p p .fx) = y ∧ s'.rd (.p p .fx) ≠ z := by
  obtain ⟨best, hb, hm, he⟩ := C61_exact_partial hord hr h
  refine ⟨best, hb, hm, fun o y h1 h2 => ?_, fun p y z h1 h2 h3 => ?_⟩
  · rw [he]
    exact readAfter_turn h1 h2
  · rw [he]
    have e := (readAfter_focal (rd := s.rd) h1).1
    exact ⟨e, e ▸ h3⟩

namespace Stat

theorem fitOn_free (v : View) (ord : List Cb → List Cb) (s : St) (add : ℕ → ℝ) (params : List FitParam) (hp : ∀ p ∈ params, p.parents = some (none, none))
    (result : (Fin params.length → ℝ) → Fin params.length → ℝ) :
    ∃ s', fitOn v params [] ord (fun _ _ => 0) (fun _ => []) result s add = .ok (s', result fun k => (params.get k).value) := by
  have hr : ∀ l : List FitParam, (∀ p ∈ l, p.parents = some (none, none)) → ranges l = .ok (l.map fun _ => (none, none)) := by
    intro l hl
    induction l with
    | nil => rfl
    | cons a t ih =>
      simp only [ranges, hl a (by simp), ih fun p hp => hl p (by simp [hp]), bind, Except.bind, pure, Except.pure, List.map_cons]
  have h2 := findStart_first (lp := getLogProb v (params.map FitParam.name) [] ord) (fun _ _ => 0) (x := (s, add))
    (start := fun k => (params.get k).value) (by simp [getLogProb, logProbability, npsum, Num.IsInf])
  unfold fitOn
  simp only [hr params hp, h2, bind, Except.bind, pure, Except.pure]
  exact ⟨_, rfl⟩

theorem orderEx (l : List Cb) : IsOrder (List.dedup l) l := ⟨List.nodup_dedup _, fun _ => List.mem_dedup⟩

end Stat

/-- The optimiser returns a heading of 400 degrees: 40 is read. -/
example : ∃ s', fitOn (.cam 0) [⟨"heading_deg", 0, 1, some (none, none)⟩] [] List.dedup (fun _ _ => 0) (fun _ => []) (fun _ _ => 400) Ex.s4 (fun _ => 0) =
    .ok (s', fun _ => 400) ∧ s'.rd (.o 0 .turn) = 400 - 360 * ⌊(400 : ℝ) / 360⌋ := by
  obtain ⟨s', h⟩ := fitOn_free (.cam 0) List.dedup Ex.s4 (fun _ => 0) [⟨"heading_deg", 0, 1, some (none, none)⟩] (by simp) (fun _ _ => 400)
  obtain ⟨C, hC, hp, ho, hl⟩ := Ex.s4_cams
  obtain ⟨O, hO, hk⟩ := Ex.s4_orients
  have := cam_lookup_o Ex.run4.reach.dicts hC (by rw [ho]; exact hO) .turn
  rw [hk, ho] at this
  simp only [OField.name] at this
  exact ⟨s', h, (C88_turn_violated orderEx Ex.run4.reach h (o := 0) (y := 400) (by simp [lastOf, this]) (Or.inr (by norm_num))).1⟩

/-- The optimiser returns 10 for `focallength_px` and 20 for `focallength_x_px`: 10 is read. -/
example : ∃ s', fitOn (.cam 0) [⟨"focallength_px", 1, 1, some (none, none)⟩, ⟨"focallength_x_px", 1, 1, some (none, none)⟩] [] List.dedup (fun _ _ => 0)
      (fun _ => []) (fun _ => ![10, 20]) Ex.s4 (fun _ => 0) = .ok (s', ![10, 20]) ∧ s'.rd (.p 0 .fx) = 10 := by
  obtain ⟨s', h⟩ := fitOn_free (.cam 0) List.dedup Ex.s4 (fun _ => 0)
    [⟨"focallength_px", 1, 1, some (none, none)⟩, ⟨"focallength_x_px", 1, 1, some (none, none)⟩] (by simp) (fun _ => ![10, 20])
  obtain ⟨C, hC, hp, ho, hl⟩ := Ex.s4_cams
  have h1 := cam_lookup_p Ex.run4.reach.dicts hC .f
  have h2 := cam_lookup_p Ex.run4.reach.dicts hC .fx
  simp only [PField.name, hp] at h1 h2
  exact ⟨s', h, (C88_focal_violated orderEx Ex.run4.reach h (p := 0) (y := 10) (z := 20) (by simp [lastOf, h1, h2]) (by simp [lastOf, h1, h2])
    (by norm_num)).1⟩

example : ∃ (params : List FitParam) (R : Rand (params ++ []).length) (r : St × (ℕ → ℝ) × List Row),
    metropolisOn (.cam 0) params [] [] List.dedup 1 4 0 R Ex.s4 (fun _ => 0) = .ok r ∧
    ∃ best ∈ r.2.2, ∀ q, r.1.rd q = readAfter Ex.s4.rd (Ex.s4.dict (.cam 0)) best.1 q := by
  obtain ⟨⟨s', a, rows⟩, hr⟩ := metropolisOn_exists (.cam 0) List.dedup Ex.s4 (fun _ => 0) [⟨"heading_deg", 800, 1, some (none, none)⟩]
    (by simp) ⟨fun _ _ => 0, fun _ _ _ _ => 0, fun _ => 0⟩
  obtain ⟨best, h1, -, h2⟩ := C61_exact_partial orderEx Ex.run4.reach hr
  exact ⟨_, _, _, hr, best, h1, h2⟩
