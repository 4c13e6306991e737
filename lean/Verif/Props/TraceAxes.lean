import Verif.Props.TracePlot

/-! # C146: traces plotted into given axes -/

namespace TracePlot

/-- Enough axes for the columns that are shown, and a trace with at least one row. -/
def Given (c : Call) (l : List Ax) : Prop :=
  c.axes = some l ∧ l.Nodup ∧ 2 * min c.rows c.cols.length ≤ l.length ∧ 1 ≤ c.skip ∧
    ∃ n, 1 ≤ n ∧ (∀ x ∈ c.cols, x.2.length = n) ∧ ∀ p, c.prob = some p → p.length = n ∧ ∀ v ∈ p, v ≠ Num.nan

theorem column_given {kde : List ℝ → Bool} {fig : Fig} {c : Call} {l : List Ax} (ha : c.axes = some l) (hs : 1 ≤ c.skip) {best : ℕ}
    (hbest : BestRow c.prob best) {x : String × List ℝ} (hlen : best < x.2.length) {k : ℕ} (hk : k < c.rows) {a b : Ax}
    (h1 : l[2 * k]? = some a) (h2 : l[2 * k + 1]? = some b) (hab : a ≠ b) :
    ∃ fig', column kde c best fig (x, k) = .ok fig' ∧ fig'.dict = fig.dict ∧
      (∃ L, ShowsDist kde c x.2 L ∧ fig'.arts a = fig.arts a ++ L) ∧
      (c.just = false → ∃ L, ShowsSeries c x.2 L ∧ fig'.arts b = fig.arts b ++ L) ∧ (c.just = true → fig'.arts b = fig.arts b) ∧
      ∀ y, y ≠ a → y ≠ b → fig'.arts y = fig.arts y := by
  have hne : x.2 ≠ [] := by
    intro h
    rw [h] at hlen
    simp at hlen
  have hget : x.2[best]? = some x.2[best] := List.getElem?_eq_getElem hlen
  have hskip : c.skip ≠ 0 := by omega
  set l1 : List Art := (if kde (every c.skip x.2) = true then [.density (listMin x.2) (listMax x.2) (every c.skip x.2)] else []) ++
    if c.meanMedian then [.vline true x.2[best], .vline false (Stat.mean x.2)] else [] with hl1
  set l2 : List Art := .series c.skip (every c.skip x.2) :: if c.meanMedian then [.hline true x.2[best], .hline false (Stat.mean x.2)] else [] with hl2
  have hD : ShowsDist kde c x.2 l1 :=
    ⟨_, (listMin_spec hne).1, _, (listMax_spec hne).1, fun y hy => ⟨(listMin_spec hne).2 y hy, (listMax_spec hne).2 y hy⟩, _, every_thinned hs _,
      best, _, _, hbest, hget, Stat.mean_is hne, rfl⟩
  have hS : ShowsSeries c x.2 l2 := ⟨_, every_thinned hs _, best, _, _, hbest, hget, Stat.mean_is hne, rfl⟩
  rw [mul_comm] at h1 h2
  unfold column axesFor
  simp only [ha]
  rw [if_neg (by omega)]
  cases hj : c.just
  · simp only [if_false, Bool.false_eq_true, h1, h2, bind, Except.bind, usable, hne, hget, hskip, ne_eq, not_false_eq_true, true_and, draw_draw]
    refine ⟨_, rfl, rfl, ⟨l1, hD, ?_⟩, fun _ => ⟨l2, hS, ?_⟩, by simp, ?_⟩
    · simp [Fig.draw, Function.update, hab, hl1]
    · simp [Fig.draw, Function.update, Ne.symm hab, hl2]
    · intro y hya hyb
      simp [Fig.draw, Function.update, hya, hyb]
  · simp only [if_true, h1, bind, Except.bind, usable, hne, if_false, hget, hskip, ne_eq, not_false_eq_true, true_and, draw_draw]
    refine ⟨_, rfl, rfl, ⟨l1, hD, ?_⟩, by simp, fun _ => ?_, ?_⟩
    · simp [Fig.draw, Function.update, hl1]
    · simp [Fig.draw, Function.update, Ne.symm hab]
    · intro y hya _
      simp [Fig.draw, Function.update, hya]

theorem columns_given {kde : List ℝ → Bool} {c : Call} {l : List Ax} (ha : c.axes = some l) (hnd : l.Nodup) (hs : 1 ≤ c.skip) {best : ℕ}
    (hbest : BestRow c.prob best) : ∀ (xs : List (String × List ℝ)) (k : ℕ) (fig : Fig), (∀ x ∈ xs, best < x.2.length) →
      2 * min c.rows (k + xs.length) ≤ l.length →
      ∃ fig', (xs.zipIdx k).foldlM (column kde c best) fig = .ok fig' ∧ fig'.dict = fig.dict ∧
        (∀ i x a, k + i < c.rows → xs[i]? = some x → l[2 * (k + i)]? = some a →
          ∃ L, ShowsDist kde c x.2 L ∧ fig'.arts a = fig.arts a ++ L) ∧
        (∀ i x b, k + i < c.rows → xs[i]? = some x → l[2 * (k + i) + 1]? = some b →
          (c.just = false → ∃ L, ShowsSeries c x.2 L ∧ fig'.arts b = fig.arts b ++ L) ∧ (c.just = true → fig'.arts b = fig.arts b)) ∧
        ∀ y, (∀ j, k ≤ j → j < min c.rows (k + xs.length) → l[2 * j]? ≠ some y ∧ l[2 * j + 1]? ≠ some y) → fig'.arts y = fig.arts y := by
  intro xs
  induction xs with
  | nil =>
    intro k fig _ _
    exact ⟨fig, rfl, rfl, by simp, by simp, fun _ _ => rfl⟩
  | cons x xs ih =>
    intro k fig hx hlen
    rw [List.zipIdx_cons, List.foldlM_cons]
    rw [List.length_cons] at hlen
    have hinj : ∀ {i j : ℕ} {y : Ax}, l[i]? = some y → l[j]? = some y → i = j := by
      intro i j y hi hj
      exact (List.getElem?_inj (List.getElem?_eq_some_iff.1 hi).1 hnd).1 (hi.trans hj.symm)
    by_cases hk : k < c.rows
    · have h1 : 2 * k < l.length := by omega
      have h2 : 2 * k + 1 < l.length := by omega
      have e1 : l[2 * k]? = some l[2 * k] := List.getElem?_eq_getElem h1
      have e2 : l[2 * k + 1]? = some l[2 * k + 1] := List.getElem?_eq_getElem h2
      have hab : l[2 * k] ≠ l[2 * k + 1] := by
        intro h
        have := hinj e1 (h ▸ e2)
        omega
      obtain ⟨f1, c1, c2, c3, c4, c5, c6⟩ := column_given (kde := kde) (fig := fig) ha hs hbest (hx x (by simp)) hk e1 e2 hab
      obtain ⟨f2, d1, d2, d3, d4, d5⟩ := ih (k + 1) f1 (fun y hy => hx y (by simp [hy])) (by rw [show k + 1 + xs.length = k + (xs.length + 1) by omega]; exact hlen)
      have hsame : ∀ y, (∀ j, k + 1 ≤ j → l[2 * j]? ≠ some y ∧ l[2 * j + 1]? ≠ some y) → f2.arts y = f1.arts y :=
        fun y hy => d5 y fun j hj _ => hy j hj
      have ha1 : f2.arts l[2 * k] = f1.arts l[2 * k] := hsame _ fun j hj =>
        ⟨fun h => by have := hinj e1 h; omega, fun h => by have := hinj e1 h; omega⟩
      have hb1 : f2.arts l[2 * k + 1] = f1.arts l[2 * k + 1] := hsame _ fun j hj =>
        ⟨fun h => by have := hinj e2 h; omega, fun h => by have := hinj e2 h; omega⟩
      have hold : ∀ {j : ℕ} {y : Ax}, l[j]? = some y → j ≠ 2 * k → j ≠ 2 * k + 1 → f1.arts y = fig.arts y := by
        intro j y hj n1 n2
        exact c6 y (fun h => n1 (hinj hj (h ▸ e1))) (fun h => n2 (hinj hj (h ▸ e2)))
      refine ⟨f2, by rw [c1]; exact d1, d2.trans c2, ?_, ?_, ?_⟩
      · intro i z a hi hz hla
        cases i with
        | zero =>
          simp only [List.getElem?_cons_zero, Option.some.injEq] at hz
          subst hz
          rw [Nat.add_zero, e1, Option.some.injEq] at hla
          subst hla
          rw [ha1]
          exact c3
        | succ i =>
          rw [List.getElem?_cons_succ] at hz
          rw [show k + (i + 1) = k + 1 + i by omega] at hi hla
          obtain ⟨L, hL, hL'⟩ := d3 i z a hi hz hla
          exact ⟨L, hL, by rw [hL', hold hla (by omega) (by omega)]⟩
      · intro i z b hi hz hlb
        cases i with
        | zero =>
          simp only [List.getElem?_cons_zero, Option.some.injEq] at hz
          subst hz
          rw [show 2 * (k + 0) + 1 = 2 * k + 1 by omega, e2, Option.some.injEq] at hlb
          subst hlb
          rw [hb1]
          exact ⟨c4, c5⟩
        | succ i =>
          rw [List.getElem?_cons_succ] at hz
          rw [show k + (i + 1) = k + 1 + i by omega] at hi hlb
          have := d4 i z b hi hz hlb
          rwa [hold hlb (by omega) (by omega)] at this
      · intro y hy
        rw [d5 y fun j hj hj' => hy j (by omega) (by rw [List.length_cons]; omega)]
        have := hy k le_rfl (by rw [List.length_cons]; omega)
        exact c6 y (fun h => this.1 (h ▸ e1)) (fun h => this.2 (h ▸ e2))
    · obtain ⟨f2, d1, d2, d3, d4, d5⟩ := ih (k + 1) fig (fun y hy => hx y (by simp [hy])) (by rw [show k + 1 + xs.length = k + (xs.length + 1) by omega]; exact hlen)
      have hc : column kde c best fig (x, k) = .ok fig := by
        unfold column
        simp only
        rw [if_pos (by omega)]
      refine ⟨f2, by rw [hc]; exact d1, d2, fun i _ _ hi => by omega, fun i _ _ hi => by omega, fun y _ => d5 y fun j hj hj' => by omega⟩

end TracePlot

open TracePlot

/-- **C146** A trace plotted into given axes: two axes for every parameter that is shown, the first for its distribution, the second for the sampled values
(or untouched, if only distributions are plotted); other axes are not touched. -/
theorem C146_axes (kde : List ℝ → Bool) (fig : Fig) (c : Call) (l : List Ax) (hc : Given c l) :
    ∃ fig', plotTrace kde fig c = .ok fig' ∧
      (∀ i e a, (shown c)[i]? = some e → l[2 * i]? = some a → ∃ L, ShowsDist kde c e.2.2 L ∧ fig'.arts a = fig.arts a ++ L) ∧
      (∀ i e b, (shown c)[i]? = some e → l[2 * i + 1]? = some b →
        (c.just = false → ∃ L, ShowsSeries c e.2.2 L ∧ fig'.arts b = fig.arts b ++ L) ∧ (c.just = true → fig'.arts b = fig.arts b)) ∧
      (∀ y, (∀ j, j < (shown c).length → l[2 * j]? ≠ some y ∧ l[2 * j + 1]? ≠ some y) → fig'.arts y = fig.arts y) ∧
      fig'.dict = fig.dict := by
  obtain ⟨h1, h2, h3, h4, n, h5, h6, h7⟩ := hc
  obtain ⟨best, b1, b2, b3⟩ := mostProbable_spec h5 h7
  obtain ⟨f, g1, g2, g3, g4, g5⟩ := columns_given (kde := kde) h1 h2 h4 b2 c.cols 0 fig (fun x hx => by rw [h6 x hx]; exact b3) (by simpa using h3)
  have hsh : ∀ {i : ℕ} {e : Call × String × List ℝ}, (shown c)[i]? = some e → i < c.rows ∧ c.cols[i]? = some e.2 := by
    intro i e he
    simp only [shown, List.getElem?_map, Option.map_eq_some_iff] at he
    obtain ⟨x, hx, rfl⟩ := he
    rw [List.getElem?_take] at hx
    split_ifs at hx with hi
    exact ⟨hi, hx⟩
  refine ⟨f, ?_, ?_, ?_, ?_, g2⟩
  · unfold plotTrace
    rw [b1]
    exact g1
  · intro i e a he ha
    obtain ⟨k1, k2⟩ := hsh he
    exact g3 i e.2 a (by omega) k2 (by simpa using ha)
  · intro i e b he hb
    obtain ⟨k1, k2⟩ := hsh he
    exact g4 i e.2 b (by omega) k2 (by simpa using hb)
  · intro y hy
    refine g5 y fun j _ hj => hy j ?_
    simp only [shown, List.length_map, List.length_take]
    omega

example : Given ⟨[("a", [1, 2]), ("b", [3, 4])], none, none, true, some [(1, 4, 1), (1, 4, 2), (1, 4, 3), (1, 4, 4)], false, 1⟩
    [(1, 4, 1), (1, 4, 2), (1, 4, 3), (1, 4, 4)] :=
  ⟨rfl, by decide, by simp [Call.rows], le_rfl, 2, by norm_num, by simp, by simp⟩

/-- **C146** A trace without rows is not plotted: ValueError, whether or not it has a column of probabilities, unless there is nothing to show. -/
theorem C146_no_rows (kde : List ℝ → Bool) (fig : Fig) (c : Call) (l : List Ax) :
    (c.prob = some [] → plotTrace kde fig c = .error .value) ∧
    (c.prob = none → c.axes = some l → 2 ≤ l.length → 1 ≤ c.rows → ∀ n rest, c.cols = (n, []) :: rest → plotTrace kde fig c = .error .value) := by
  refine ⟨fun h => ?_, fun h ha hl hr n rest hc => ?_⟩
  · simp [plotTrace, mostProbable, h, Stat.idxmax, bind, Except.bind]
  · have h0 : l[0]? = some l[0] := List.getElem?_eq_getElem (by omega)
    have h1 : l[1]? = some l[1] := List.getElem?_eq_getElem (by omega)
    have hcol : column kde c 0 fig ((n, []), 0) = .error .value := by
      unfold column axesFor
      simp only [ha]
      rw [if_neg (by omega)]
      cases hj : c.just <;> simp [h0, h1, bind, Except.bind, usable]
    simp only [plotTrace, mostProbable, h, hc, List.zipIdx_cons, List.foldlM_cons, bind, Except.bind, hcol]

example : (⟨[("a", [])], none, none, true, some [(1, 4, 1), (1, 4, 2)], false, 1⟩ : Call).cols = [("a", [])] := rfl
