import Verif.Props.Fridge

/-! # Additional parameters in groups and in `fit` (C127) -/

set_option linter.constructorNameAsVariable false

open Classical Sys Stat

/-- **C127** (partial: the object itself has to be sampled, not its group.)  Each row of the trace has a value for every fit
parameter and every additional parameter of the sampled object, and its probability is the total of the terms when the parameters
and the additional parameters have these values. -/
theorem C127_own_partial {v : View} {params additional : List FitParam} {T : List Term} {ord : List Cb → List Cb} (hord : ∀ l, IsOrder (ord l) l)
    {scale iterations burn : ℝ} {R : Rand (params ++ additional).length} {s s' : St} (hr : Reach s) {add add' : ℕ → ℝ} {rows : List Row}
    (h : metropolisOn v params additional T ord scale iterations burn R s add = .ok (s', add', rows)) :
    ∀ row ∈ rows, ∃ (xs ys : List ℝ), xs.length = params.length ∧ ys.length = additional.length ∧
      row.1 = (params.map FitParam.name).zip xs ++ (additional.map FitParam.name).zip ys ∧
      IsTotal (T.map fun t => t (readAfter s.rd (s.dict v) ((params.map FitParam.name).zip xs)) fun j => ys.getD j (add j)) row.2 := by
  intro row hrow
  obtain ⟨pos, e1, e2, -⟩ := C59_camera_partial hord hr h row hrow
  have hlen : (List.ofFn pos).length = params.length + additional.length := by simp
  refine ⟨(List.ofFn pos).take params.length, (List.ofFn pos).drop params.length, by simp, by simp, ?_, ?_⟩
  · rw [e1, List.map_append]
    conv_lhs => rw [← List.take_append_drop params.length (List.ofFn pos)]
    rw [List.zip_append (by simp)]
  · unfold LogProbAt at e2
    have hz : (params.map FitParam.name).zip (List.ofFn pos) = (params.map FitParam.name).zip ((List.ofFn pos).take params.length) := by
      conv_lhs => rw [← List.take_append_drop params.length (List.ofFn pos), ← List.append_nil (params.map FitParam.name)]
      rw [List.zip_append (by simp)]
      simp
    have hr : rest (params.map FitParam.name).length pos add = fun j => ((List.ofFn pos).drop params.length).getD j (add j) := by
      funext j
      unfold rest
      rw [List.getD_eq_getElem?_getD, List.getElem?_drop]
      simp only [List.length_map]
      by_cases hj : params.length + j < (params ++ additional).length
      · rw [dif_pos hj, List.getElem?_eq_getElem (by simpa using hj)]
        simp
      · rw [dif_neg hj, List.getElem?_eq_none (by simpa using hj)]
        rfl
    rw [hz, hr] at e2
    exact e2

/-- **C127** is violated: `metropolis` of a group leaves the additional parameters of its cameras alone.  There is no column for them, and
the probability of every row is the total of the terms of the group and of the cameras with the values that the additional parameters had
before. -/
theorem C127_violated {v : View} {params : List FitParam} {own : List Term} {cams : List (List Term)} {ord : List Cb → List Cb} (hord : ∀ l, IsOrder (ord l) l)
    {scale iterations burn : ℝ} {R : Rand (params ++ []).length} {s s' : St} (hr : Reach s) {add add' : ℕ → ℝ} {rows : List Row}
    (h : metropolisOn v params [] (own ++ cams.flatten) ord scale iterations burn R s add = .ok (s', add', rows)) :
    add' = add ∧ ∀ row ∈ rows, row.1.map Prod.fst = params.map FitParam.name ∧
      IsTotal ((own ++ cams.flatten).map fun t => t (readAfter s.rd (s.dict v) row.1) add) row.2 := by
  obtain ⟨a1, a2, -⟩ := metropolisOn_spec hord hr h
  refine ⟨funext fun j => a1 j (by simp), fun row hrow => ⟨by rw [a2 row hrow, List.append_nil], ?_⟩⟩
  obtain ⟨xs, ys, -, hy, e1, e2⟩ := C127_own_partial hord hr h row hrow
  rw [List.length_nil, List.length_eq_zero_iff] at hy
  subst hy
  rw [e1]
  simpa using e2

/-- **C127** is violated: whatever positions `fit` tries, the additional parameters keep their values, and the probability is the one
with these values. -/
theorem C127_fit_violated {v : View} {params : List FitParam} {T : List Term} {ord : List Cb → List Cb} (hord : ∀ l, IsOrder (ord l) l)
    {s : St} (hr : Reach s) (add : ℕ → ℝ) (ps : List (Fin params.length → ℝ)) (pos : Fin params.length → ℝ) :
    (evals (getLogProb v (params.map FitParam.name) T ord) (s, add) ps).2 = add ∧
    IsTotal (T.map fun t => t (readAfter s.rd (s.dict v) ((params.map FitParam.name).zip (List.ofFn pos))) add)
      (getLogProb v (params.map FitParam.name) T ord (evals (getLogProb v (params.map FitParam.name) T ord) (s, add) ps) pos).2 := by
  have hC := computes (s := s) (add := add) (v := v) (names := params.map FitParam.name) (n := params.length) (by simp) T hord
  have hI := evals_inv (Inv := FitInv s add v (params.map FitParam.name) params.length) (fun x p h => (hC x p h).1) (FitInv.init hr add v _ _) ps
  refine ⟨funext fun j => hI.rest j (by simp), ?_⟩
  rw [(hC _ pos hI).2]
  unfold probAt
  rw [rest_all (by simp)]
  exact logProbability_total _

example : ∃ (params : List FitParam) (ord : List Cb → List Cb) (R : Rand (params ++ []).length) (r : _), (∀ l, IsOrder (ord l) l) ∧ Reach Ex.s4 ∧
    metropolisOn (.cam 0) params [] ([] ++ [].flatten) ord 1 4 0 R Ex.s4 (fun _ => 0) = .ok r := by
  obtain ⟨r, hr⟩ := metropolisOn_exists (.cam 0) List.dedup Ex.s4 (fun _ => 0) [⟨"tilt_deg", 80, 1, some (none, none)⟩, ⟨"roll_deg", 0, 1, some (none, none)⟩]
    (by simp) ⟨fun _ _ => 0, fun _ _ _ _ => 0, fun _ => 0⟩
  exact ⟨_, List.dedup, _, r, fun l => ⟨List.nodup_dedup _, fun _ => List.mem_dedup⟩, Ex.reachX4.reach, hr⟩
