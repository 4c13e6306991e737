import Verif.Model.Summary
import Verif.Spec.Summary
import Verif.Proofs.Statistic

/-! # The summary of a trace -/

open Classical Stat

namespace Stat

theorem roundHalfEven_near (x : ℝ) : |(roundHalfEven x : ℝ) - x| ≤ 1 / 2 := by
  have h0 := Int.floor_le x
  have h1 := Int.lt_floor_add_one x
  unfold roundHalfEven
  split_ifs <;> rw [abs_le] <;> push_cast <;> constructor <;> linarith

theorem roundHalfEven_tie {x : ℝ} (h : |(roundHalfEven x : ℝ) - x| = 1 / 2) : Even (roundHalfEven x) := by
  have h0 := Int.floor_le x
  have h1 := Int.lt_floor_add_one x
  unfold roundHalfEven at h ⊢
  split_ifs at h ⊢ with a b c
  · rw [abs_of_nonpos (by linarith)] at h; linarith
  · push_cast at h; rw [abs_of_nonneg (by linarith)] at h; linarith
  · exact c
  · exact (Int.not_even_iff_odd.1 c).add_one

theorem pyround_rounded (x : ℝ) (k : ℤ) : RoundedAt x (pyround x (-k)) k := by
  have hp : (0 : ℝ) < 10 ^ k := zpow_pos (by norm_num) k
  have e : pyround x (-k) = roundHalfEven (x / 10 ^ k) * 10 ^ k := by
    unfold pyround; rw [zpow_neg, div_inv_eq_mul, div_eq_mul_inv]
  have h := roundHalfEven_near (x / 10 ^ k)
  have : (roundHalfEven (x / 10 ^ k) : ℝ) * 10 ^ k - x = ((roundHalfEven (x / 10 ^ k) : ℝ) - x / 10 ^ k) * 10 ^ k := by
    field_simp
  refine ⟨_, e, ?_, fun ht => roundHalfEven_tie ?_⟩
  · rw [e, this, abs_mul, abs_of_pos hp]
    nlinarith
  · rw [e, this, abs_mul, abs_of_pos hp] at ht
    have := mul_right_cancel₀ hp.ne' (ht.trans (by ring : (10 : ℝ) ^ k / 2 = 1 / 2 * 10 ^ k))
    exact this

theorem mean_is {l : List ℝ} (h : l ≠ []) : IsMean l (mean l) := by
  refine ⟨h, ?_⟩
  have hs : ∀ (l : List ℝ) (m : ℝ), (l.map fun x => x - m).sum = l.sum - l.length * m := by
    intro l m
    induction l with
    | nil => simp
    | cons a t ih => simp only [List.map_cons, List.sum_cons, ih, List.length_cons]; push_cast; ring
  have : (l.length : ℝ) ≠ 0 := by
    have := List.length_pos_of_ne_nil h
    positivity
  rw [hs]; unfold mean; field_simp; ring

theorem std_is {l : List ℝ} (h : l ≠ []) : IsStd l (std l) := by
  refine ⟨Real.sqrt_nonneg _, mean l, mean_is h, ?_⟩
  have hl : (0 : ℝ) < l.length := by
    have := List.length_pos_of_ne_nil h
    positivity
  have hnn : 0 ≤ (l.map fun x => (x - mean l) ^ 2).sum := List.sum_nonneg (by
    intro y hy; rw [List.mem_map] at hy; obtain ⟨x, -, rfl⟩ := hy; positivity)
  unfold std
  simp only [sq_abs]
  rw [Real.sq_sqrt, mean]
  · rw [List.length_map]; field_simp
  · rw [mean]; exact div_nonneg hnn (by simp)

theorem std_zero {l : List ℝ} {s : ℝ} (h : IsStd l s) : s = 0 ↔ ∀ x ∈ l, ∀ y ∈ l, x = y := by
  obtain ⟨-, m, ⟨hne, hm⟩, h⟩ := h
  have hl : (0 : ℝ) < l.length := by
    have := List.length_pos_of_ne_nil hne
    positivity
  constructor
  · rintro rfl
    have h0 : (l.map fun x => (x - m) ^ 2).sum = 0 := by rw [← h]; ring
    have : ∀ x ∈ l, x = m := by
      intro x hx
      have hle := List.single_le_sum (l := l.map fun x => (x - m) ^ 2)
        (by intro y hy; rw [List.mem_map] at hy; obtain ⟨x, -, rfl⟩ := hy; positivity) _ (List.mem_map_of_mem hx)
      rw [h0] at hle
      have h2 : (x - m) ^ 2 = 0 := le_antisymm hle (sq_nonneg _)
      have := pow_eq_zero_iff (two_ne_zero) |>.1 h2
      linarith
    intro x hx y hy
    rw [this x hx, this y hy]
  · intro hc
    obtain ⟨a, ha⟩ := List.exists_mem_of_ne_nil l hne
    have hr : l = List.replicate l.length a := List.eq_replicate_iff.2 ⟨rfl, fun x hx => hc x hx a ha⟩
    have ham : a = m := by
      rw [hr, List.map_replicate, List.sum_replicate, nsmul_eq_mul] at hm
      have := (mul_eq_zero.1 hm).resolve_left hl.ne'
      linarith
    have : (l.map fun x => (x - m) ^ 2).sum = 0 := by
      rw [hr, List.map_replicate, List.sum_replicate, ham]; simp
    rw [this] at h
    have := (mul_eq_zero.1 h).resolve_right hl.ne'
    exact pow_eq_zero_iff two_ne_zero |>.1 this

theorem IsMean.unique {l : List ℝ} {m m' : ℝ} (h : IsMean l m) (h' : IsMean l m') : m = m' := by
  have hs : ∀ (l : List ℝ) (m : ℝ), (l.map fun x => x - m).sum = l.sum - l.length * m := by
    intro l m
    induction l with
    | nil => simp
    | cons a t ih => simp only [List.map_cons, List.sum_cons, ih, List.length_cons]; push_cast; ring
  have hl : (0 : ℝ) < l.length := by
    have := List.length_pos_of_ne_nil h.1
    positivity
  have h1 := h.2
  have h2 := h'.2
  rw [hs] at h1 h2
  have : (l.length : ℝ) * m = l.length * m' := by linarith
  exact mul_left_cancel₀ hl.ne' this

end Stat

/-- **C120** The printed mean is the mean rounded at the leading digit of the standard deviation, the printed standard
deviation has one digit more; a standard deviation of zero raises a ValueError. -/
theorem C120_numbers (m s : ℝ) :
    (s ≠ 0 → ∃ pm ps, printMeanStd m s = .ok (pm, ps) ∧ Printed m s pm ps ∧ |pm - m| ≤ |s| / 2 ∧ |ps - s| ≤ |s| / 20) ∧
    (s = 0 → printMeanStd m s = .error .valueError) := by
  constructor
  · intro hs
    have hpos : 0 < |s| := abs_pos.2 hs
    set k := ⌊Real.logb 10 |s|⌋ with hk
    have h1 : (10 : ℝ) ^ k ≤ |s| := by
      have h := Int.floor_le (Real.logb 10 |s|)
      rw [← Real.rpow_intCast, ← Real.le_logb_iff_rpow_le (by norm_num) hpos]
      exact h
    have h2 : |s| < (10 : ℝ) ^ (k + 1) := by
      have h := Int.lt_floor_add_one (Real.logb 10 |s|)
      rw [← Real.rpow_intCast, ← Real.logb_lt_iff_lt_rpow (by norm_num) hpos]
      push_cast
      exact h
    have e : (1 : ℤ) + -k = -(k - 1) := by ring
    have r1 := pyround_rounded m k
    have r2 := pyround_rounded s (k - 1)
    refine ⟨pyround m (-k), pyround s (-(k - 1)), ?_, ⟨k, h1, h2, r1, r2⟩, ?_, ?_⟩
    · unfold printMeanStd
      rw [if_neg hpos.ne']
      simp only [← hk, e]
    · obtain ⟨-, -, h, -⟩ := r1; linarith
    · obtain ⟨-, -, h, -⟩ := r2
      rw [zpow_sub_one₀ (by norm_num)] at h
      have : (10 : ℝ) ^ k * 10⁻¹ / 2 = 10 ^ k / 20 := by ring
      rw [this] at h
      linarith
  · rintro rfl
    unfold printMeanStd
    rw [if_pos abs_zero]

example : ∃ s : ℝ, s ≠ 0 := ⟨1, one_ne_zero⟩

/-- **C120** If every column except the last has at least two different values, the summary has an entry for each of
these columns, in their order, with the numbers for its mean and standard deviation (those of the exponentials for logarithmic
columns).  Missing: columns with a single value. -/
theorem C120_summary_partial (columns : List (String × List ℝ)) (logarithmic : ℕ → Bool)
    (h : ∀ c ∈ columns.dropLast, ∃ x ∈ c.2, ∃ y ∈ c.2, x ≠ y) :
    ∃ out, printTraceSummary columns logarithmic = .ok out ∧ out.length = columns.length - 1 ∧
      ∀ i (hi : i < out.length) (hc : i < columns.length), out[i].1 = columns[i].1 ∧
        ∃ m s, IsMean (if logarithmic i then columns[i].2.map Real.exp else columns[i].2) m ∧
          IsStd (if logarithmic i then columns[i].2.map Real.exp else columns[i].2) s ∧ s ≠ 0 ∧ Printed m s out[i].2.1 out[i].2.2 := by
  set f : (String × List ℝ) × ℕ → Except Err (String × ℝ × ℝ) := fun c => do
    let data := if logarithmic c.2 then c.1.2.map Real.exp else c.1.2
    if data = [] then .error .valueError
    else
      let r ← printMeanStd (mean data) (std data)
      pure (c.1.1, r) with hf
  have key : ∀ (L : List ((String × List ℝ) × ℕ)), (∀ c ∈ L, ∃ x ∈ c.1.2, ∃ y ∈ c.1.2, x ≠ y) →
      ∃ out, L.mapM f = .ok out ∧ List.Forall₂ (fun c (o : String × ℝ × ℝ) => o.1 = c.1.1 ∧
        ∃ m s, IsMean (if logarithmic c.2 then c.1.2.map Real.exp else c.1.2) m ∧
          IsStd (if logarithmic c.2 then c.1.2.map Real.exp else c.1.2) s ∧ s ≠ 0 ∧ Printed m s o.2.1 o.2.2) L out := by
    intro L hL
    induction L with
    | nil => exact ⟨[], rfl, .nil⟩
    | cons c t ih =>
      obtain ⟨out, h1, h2⟩ := ih fun c hc => hL c (by simp [hc])
      obtain ⟨x, hx, y, hy, hxy⟩ := hL c (by simp)
      set data := if logarithmic c.2 then c.1.2.map Real.exp else c.1.2 with hd
      have hdata : ∃ x ∈ data, ∃ y ∈ data, x ≠ y := by
        rw [hd]
        split_ifs
        · exact ⟨_, List.mem_map_of_mem hx, _, List.mem_map_of_mem hy, fun e => hxy (Real.exp_injective e)⟩
        · exact ⟨x, hx, y, hy, hxy⟩
      have hne : data ≠ [] := by
        obtain ⟨x, hx, -⟩ := hdata
        exact List.ne_nil_of_mem hx
      have hs : std data ≠ 0 := by
        rw [Ne, std_zero (std_is hne)]
        obtain ⟨x, hx, y, hy, hxy⟩ := hdata
        exact fun h => hxy (h x hx y hy)
      obtain ⟨pm, ps, e1, e2, -⟩ := (C120_numbers (mean data) (std data)).1 hs
      have efc : f c = .ok (c.1.1, pm, ps) := by
        rw [hf]
        simp only [← hd, if_neg hne, e1, bind, Except.bind, pure, Except.pure]
      refine ⟨(c.1.1, pm, ps) :: out, ?_, .cons ⟨rfl, mean data, std data, mean_is hne, std_is hne, hs, e2⟩ h2⟩
      rw [List.mapM_cons, efc, h1]; rfl
  obtain ⟨out, h1, h2⟩ := key columns.dropLast.zipIdx (by
    intro c hc
    exact h c.1 (List.fst_mem_of_mem_zipIdx hc))
  have hlen : out.length = columns.length - 1 := by
    rw [← h2.length_eq, List.length_zipIdx, List.length_dropLast]
  refine ⟨out, h1, hlen, fun i hi hc => ?_⟩
  have hi' : i < columns.dropLast.zipIdx.length := by rw [h2.length_eq]; exact hi
  have := (List.forall₂_iff_get.1 h2).2 i hi' hi
  simpa using this

/-- **C120** is violated: if some column except the last has a single value in all rows, for example if the trace has one row
or no proposal was accepted, nothing can be printed: a ValueError is raised. -/
theorem C120_violated (columns : List (String × List ℝ)) (logarithmic : ℕ → Bool)
    (h : ∃ c ∈ columns.dropLast, ∀ x ∈ c.2, ∀ y ∈ c.2, x = y) : printTraceSummary columns logarithmic = .error .valueError := by
  set f : (String × List ℝ) × ℕ → Except Err (String × ℝ × ℝ) := fun c => do
    let data := if logarithmic c.2 then c.1.2.map Real.exp else c.1.2
    if data = [] then .error .valueError
    else
      let r ← printMeanStd (mean data) (std data)
      pure (c.1.1, r) with hf
  have herr : ∀ c e, f c = .error e → e = .valueError := by
    intro c e he
    rw [hf] at he
    simp only at he
    set data := if logarithmic c.2 then c.1.2.map Real.exp else c.1.2
    by_cases hne : data = []
    · rw [if_pos hne] at he; cases he; rfl
    · rw [if_neg hne] at he
      by_cases hs : std data = 0
      · rw [(C120_numbers _ _).2 hs] at he; cases he; rfl
      · obtain ⟨pm, ps, e1, -⟩ := (C120_numbers (mean data) (std data)).1 hs
        rw [e1] at he
        simp [bind, Except.bind, pure, Except.pure] at he
  have key : ∀ (L : List ((String × List ℝ) × ℕ)), (∃ c ∈ L, ∀ x ∈ c.1.2, ∀ y ∈ c.1.2, x = y) → L.mapM f = .error .valueError := by
    intro L hL
    induction L with
    | nil => simp at hL
    | cons c t ih =>
      rw [List.mapM_cons]
      cases hc : f c with
      | error e => rw [herr c e hc]; rfl
      | ok o =>
        obtain ⟨c', hc', hx⟩ := hL
        rcases List.mem_cons.1 hc' with rfl | hc'
        · exfalso
          rw [hf] at hc
          simp only at hc
          set data := if logarithmic c'.2 then c'.1.2.map Real.exp else c'.1.2 with hd
          by_cases hne : data = []
          · rw [if_pos hne] at hc; cases hc
          · rw [if_neg hne] at hc
            have hs : std data = 0 := by
              rw [std_zero (std_is hne), hd]
              split_ifs
              · intro x hx' y hy'
                rw [List.mem_map] at hx' hy'
                obtain ⟨a, ha, rfl⟩ := hx'
                obtain ⟨b, hb, rfl⟩ := hy'
                rw [hx a ha b hb]
              · exact hx
            rw [(C120_numbers _ _).2 hs] at hc
            cases hc
        · rw [ih ⟨c', hc', hx⟩]; rfl
  obtain ⟨c, hc, hx⟩ := h
  obtain ⟨i, hi, rfl⟩ := List.mem_iff_getElem.1 hc
  refine key _ ⟨(columns.dropLast[i], i), ?_, hx⟩
  rw [List.mem_iff_getElem]
  exact ⟨i, by simpa using hi, by simp⟩

example : ∃ columns : List (String × List ℝ), ∃ c ∈ columns.dropLast, ∀ x ∈ c.2, ∀ y ∈ c.2, x = y :=
  ⟨[("tilt_deg", [80]), ("probability", [0])], ("tilt_deg", [80]), by simp, by simp⟩

example : ∃ columns : List (String × List ℝ), columns.dropLast ≠ [] ∧ ∀ c ∈ columns.dropLast, ∃ x ∈ c.2, ∃ y ∈ c.2, x ≠ y :=
  ⟨[("tilt_deg", [80, 81]), ("probability", [0, 1])], by simp, by simp⟩
