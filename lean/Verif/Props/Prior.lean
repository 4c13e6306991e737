import Verif.Model.Prior
import Verif.Props.Balance

/-! # The Metropolis sampler with a prior trace (C126) -/

open Classical Prior

namespace Prior

variable {σ : Type} {n : ℕ} {lp : σ → List ℝ → σ × Num} {A : Stat.Args n} {prior : Option Table}

theorem loop_succ {d : ℕ → ℕ} {x y : σ × Chain n} {i : ℕ} (h : loop lp A prior d x (i + 1) = .ok y) :
    ∃ z, loop lp A prior d x i = .ok z ∧ iter lp A prior (d i) i z = .ok y := by
  unfold loop at h
  cases e : loop lp A prior d x i with
  | error e' => rw [e] at h; cases h
  | ok z => rw [e] at h; exact ⟨z, rfl, h⟩

theorem iter_ok {d i : ℕ} {x y : σ × Chain n} (h : iter lp A prior d i x = .ok y) :
    ∃ p, draw prior d = .ok p ∧
      y.2.pos = (if Stat.Accept x.2.prob (lp x.1 (List.ofFn (Stat.propose A i x.2.factor x.2.pos) ++ p)).2 (A.u i)
        then Stat.propose A i x.2.factor x.2.pos else x.2.pos) ∧
      y.2.prob = (if Stat.Accept x.2.prob (lp x.1 (List.ofFn (Stat.propose A i x.2.factor x.2.pos) ++ p)).2 (A.u i)
        then (lp x.1 (List.ofFn (Stat.propose A i x.2.factor x.2.pos) ++ p)).2 else x.2.prob) ∧
      y.2.trace = if (i : ℤ) > Stat.effBurn A.iterations A.burn then x.2.trace ++ [(List.ofFn y.2.pos ++ p, y.2.prob)] else x.2.trace := by
  unfold iter at h
  cases e : draw prior d with
  | error e' => rw [e] at h; cases h
  | ok p =>
    rw [e] at h
    simp only [bind, Except.bind] at h
    split at h
    · cases h
    · simp only [pure, Except.pure, Except.ok.injEq] at h
      subst h
      refine ⟨p, rfl, ?_⟩
      by_cases ha : Stat.Accept x.2.prob (lp x.1 (List.ofFn (Stat.propose A i x.2.factor x.2.pos) ++ p)).2 (A.u i)
      · simp only [if_pos ha]
        split_ifs <;> simp
      · simp only [if_neg ha]
        split_ifs <;> simp

end Prior

/-- **C126** Without a prior trace the sampler is the one of C58-C63: the same positions, probabilities and errors. -/
theorem C126_without_prior {σ : Type} {n : ℕ} (lp : σ → List ℝ → σ × Num) (A : Stat.Args n) (d0 : ℕ) (d : ℕ → ℕ) (s : σ) (start : Fin n → ℝ) :
    metropolis lp A none d0 d s start = match Stat.metropolis (fun s p => lp s (List.ofFn p)) A s start with
      | .ok r => .ok (r.1, r.2.map fun row => (List.ofFn row.1, row.2))
      | .error _ => .error .value := by
  let conv : Stat.Chain n → Chain n := fun c =>
    ⟨c.pos, c.prob, c.accepted, c.rejected, c.factor, c.trace.map fun row => (List.ofFn row.1, row.2)⟩
  have hi : ∀ (i d : ℕ) (x : σ × Stat.Chain n), iter lp A none d i (x.1, conv x.2) =
      match Stat.iter (fun s p => lp s (List.ofFn p)) A i x with
      | .ok y => .ok (y.1, conv y.2)
      | .error _ => .error .value := by
    intro i d x
    unfold iter Stat.iter
    simp only [draw, bind, Except.bind, List.append_nil]
    by_cases h : ∃ k, ¬ Stat.truncLo A x.2.pos k < Stat.truncHi A x.2.pos k
    · rw [if_pos (by exact h), if_pos h]
    · rw [if_neg (by exact h), if_neg h]
      by_cases ha : Stat.Accept x.2.prob (lp x.1 (List.ofFn (Stat.propose A i x.2.factor x.2.pos))).2 (A.u i)
      · have ha' : Stat.Accept (conv x.2).prob (lp x.1 (List.ofFn (Stat.propose A i (conv x.2).factor (conv x.2).pos))).2 (A.u i) := ha
        simp only [if_pos ha, if_pos ha']
        split_ifs <;> simp [conv, pure, Except.pure]
      · have ha' : ¬ Stat.Accept (conv x.2).prob (lp x.1 (List.ofFn (Stat.propose A i (conv x.2).factor (conv x.2).pos))).2 (A.u i) := ha
        simp only [if_neg ha, if_neg ha']
        split_ifs <;> simp [conv, pure, Except.pure]
  have hl : ∀ (x : σ × Stat.Chain n) (i : ℕ), loop lp A none d (x.1, conv x.2) i =
      match Stat.loop (fun s p => lp s (List.ofFn p)) A x i with
      | .ok y => .ok (y.1, conv y.2)
      | .error _ => .error .value := by
    intro x i
    induction i with
    | zero => rfl
    | succ i ih =>
      unfold loop Stat.loop
      rw [ih]
      cases Stat.loop (fun s p => lp s (List.ofFn p)) A x i with
      | error e => rfl
      | ok y => exact hi i (d i) y
  unfold metropolis Stat.metropolis
  simp only [draw, bind, Except.bind, List.append_nil]
  have := hl ((lp s (List.ofFn start)).1, { pos := start, prob := (lp s (List.ofFn start)).2 }) (Stat.pyint A.iterations).toNat
  simp only [conv, List.map_nil] at this
  rw [this]
  cases Stat.loop (fun s p => lp s (List.ofFn p)) A ((lp s (List.ofFn start)).1, { pos := start, prob := (lp s (List.ofFn start)).2 })
    (Stat.pyint A.iterations).toNat <;> rfl

/-- **C126** (partial: the probability of a row is that of its own values only under a further condition, see the second part and
`C126_violated`.)  Every row of the trace consists of a position and of a row of the prior trace without its last column; the
probability beside it is the one of this position with a row of the prior trace, but maybe with another one.  If all rows of the
prior trace agree in all columns but the last, the probability is the one of the row. -/
theorem C126_rows_partial {σ : Type} {n : ℕ} {lp : σ → List ℝ → σ × Num} {P : List ℝ → Num} (hP : ∀ s v, (lp s v).2 = P v) {A : Stat.Args n}
    {prior : Table} {d0 : ℕ} {d : ℕ → ℕ} {s : σ} {start : Fin n → ℝ} {r : σ × List (List ℝ × Num)}
    (h : metropolis lp A (some prior) d0 d s start = .ok r) :
    (∀ row ∈ r.2, ∃ (pos : Fin n → ℝ) (k l : ℕ × List ℝ), k ∈ prior ∧ l ∈ prior ∧ row.1 = List.ofFn pos ++ k.2.dropLast ∧
      row.2 = P (List.ofFn pos ++ l.2.dropLast)) ∧
    ((∀ k ∈ prior, ∀ l ∈ prior, k.2.dropLast = l.2.dropLast) → ∀ row ∈ r.2, row.2 = P row.1) := by
  have hd : ∀ d p, draw (some prior) d = .ok p → ∃ k ∈ prior, p = k.2.dropLast := by
    intro d p h
    cases prior with
    | nil => cases h
    | cons a t =>
      simp only [draw] at h
      cases e : (a :: t).lookup d with
      | none => rw [e] at h; cases h
      | some q =>
        rw [e] at h
        cases h
        obtain ⟨l1, l2, e', -⟩ := List.lookup_eq_some_iff.1 e
        exact ⟨(d, q), by rw [e']; simp, rfl⟩
  have key : ∀ row ∈ r.2, ∃ (pos : Fin n → ℝ) (k l : ℕ × List ℝ), k ∈ prior ∧ l ∈ prior ∧ row.1 = List.ofFn pos ++ k.2.dropLast ∧
      row.2 = P (List.ofFn pos ++ l.2.dropLast) := by
    unfold metropolis at h
    cases e0 : draw (some prior) d0 with
    | error e => rw [e0] at h; cases h
    | ok p0 =>
      rw [e0] at h
      simp only [bind, Except.bind] at h
      obtain ⟨k0, hk0, rfl⟩ := hd _ _ e0
      have hl : ∀ (i : ℕ) (y : σ × Chain n), loop lp A (some prior) d ((lp s (List.ofFn start ++ k0.2.dropLast)).1,
          { pos := start, prob := (lp s (List.ofFn start ++ k0.2.dropLast)).2 }) i = .ok y →
          (∃ l ∈ prior, y.2.prob = P (List.ofFn y.2.pos ++ l.2.dropLast)) ∧
          ∀ row ∈ y.2.trace, ∃ (pos : Fin n → ℝ) (k l : ℕ × List ℝ), k ∈ prior ∧ l ∈ prior ∧ row.1 = List.ofFn pos ++ k.2.dropLast ∧
            row.2 = P (List.ofFn pos ++ l.2.dropLast) := by
        intro i
        induction i with
        | zero =>
          intro y hy
          simp only [loop, Except.ok.injEq] at hy
          subst hy
          exact ⟨⟨k0, hk0, hP _ _⟩, by simp⟩
        | succ i ih =>
          intro y hy
          obtain ⟨z, hz, hy⟩ := loop_succ hy
          obtain ⟨⟨l, hl, e⟩, ht⟩ := ih z hz
          obtain ⟨p, hp, e1, e2, e3⟩ := iter_ok hy
          obtain ⟨k, hk, rfl⟩ := hd _ _ hp
          have hy' : ∃ l ∈ prior, y.2.prob = P (List.ofFn y.2.pos ++ l.2.dropLast) := by
            rw [e1, e2]
            split_ifs
            · exact ⟨k, hk, hP _ _⟩
            · exact ⟨l, hl, e⟩
          refine ⟨hy', ?_⟩
          rw [e3]
          split_ifs
          · intro row hrow
            rcases List.mem_append.1 hrow with h' | h'
            · exact ht row h'
            · rw [List.mem_singleton] at h'
              subst h'
              obtain ⟨l', hl', e'⟩ := hy'
              exact ⟨_, k, l', hk, hl', rfl, e'⟩
          · exact ht
      cases e : loop lp A (some prior) d ((lp s (List.ofFn start ++ k0.2.dropLast)).1,
          { pos := start, prob := (lp s (List.ofFn start ++ k0.2.dropLast)).2 }) (Stat.pyint A.iterations).toNat with
      | error e' => rw [e] at h; cases h
      | ok y =>
        rw [e] at h
        cases h
        exact (hl _ _ e).2
  refine ⟨key, fun hall row hrow => ?_⟩
  obtain ⟨pos, k, l, hk, hl, e1, e2⟩ := key row hrow
  rw [e1, e2, hall k hk l hl]

/-- **C126** is violated at every rejected proposal: the row has the values of the newly drawn row of the prior trace, but the probability with the
row that was drawn at the last acceptance. -/
theorem C126_violated {σ : Type} {n : ℕ} {lp : σ → List ℝ → σ × Num} {P : List ℝ → Num} (hP : ∀ s v, (lp s v).2 = P v) {A : Stat.Args n}
    {prior : Option Table} {d i : ℕ} {p0 p : List ℝ} {x y : σ × Chain n} (h : iter lp A prior d i x = .ok y) (hp : draw prior d = .ok p)
    (hx : x.2.prob = P (List.ofFn x.2.pos ++ p0)) (hi : (i : ℤ) > Stat.effBurn A.iterations A.burn)
    (hr : ¬ Stat.Accept x.2.prob (P (List.ofFn (Stat.propose A i x.2.factor x.2.pos) ++ p)) (A.u i)) :
    y.2.trace = x.2.trace ++ [(List.ofFn x.2.pos ++ p, P (List.ofFn x.2.pos ++ p0))] ∧ y.2.pos = x.2.pos ∧ y.2.prob = x.2.prob := by
  obtain ⟨p', hp', e1, e2, e3⟩ := iter_ok h
  rw [hp] at hp'; cases hp'
  rw [hP, if_neg hr] at e1 e2
  rw [e3, if_pos hi, e1, e2, hx]
  exact ⟨rfl, rfl, rfl⟩

/-- **C126** The rows of accepted proposals have the probability of their own values. -/
theorem C126_accepted_partial {σ : Type} {n : ℕ} {lp : σ → List ℝ → σ × Num} {P : List ℝ → Num} (hP : ∀ s v, (lp s v).2 = P v) {A : Stat.Args n}
    {prior : Option Table} {d i : ℕ} {p : List ℝ} {x y : σ × Chain n} (h : iter lp A prior d i x = .ok y) (hp : draw prior d = .ok p)
    (hi : (i : ℤ) > Stat.effBurn A.iterations A.burn)
    (hr : Stat.Accept x.2.prob (P (List.ofFn (Stat.propose A i x.2.factor x.2.pos) ++ p)) (A.u i)) :
    ∃ v, y.2.trace = x.2.trace ++ [(v, P v)] := by
  obtain ⟨p', hp', e1, e2, e3⟩ := iter_ok h
  rw [hp] at hp'; cases hp'
  rw [hP, if_pos hr] at e1 e2
  exact ⟨_, by rw [e3, if_pos hi, e1, e2]⟩

/-- The hypotheses can be met with two different rows: the row of the trace has the values (0, 1) and the probability of (0, 0). -/
example : ∃ (A : Stat.Args 1) (P : List ℝ → Num) (prior : Table) (x y : Unit × Chain 1), iter (fun s v => (s, P v)) A (some prior) 1 1 x = .ok y ∧
    draw (some prior) 1 = .ok [1] ∧ x.2.prob = P (List.ofFn x.2.pos ++ [0]) ∧ ((1 : ℕ) : ℤ) > Stat.effBurn A.iterations A.burn ∧
    ¬ Stat.Accept x.2.prob (P (List.ofFn (Stat.propose A 1 x.2.factor x.2.pos) ++ [1])) (A.u 1) ∧
    P (List.ofFn x.2.pos ++ [1]) ≠ P (List.ofFn x.2.pos ++ [0]) := by
  let A : Stat.Args 1 := ⟨fun _ => 1, fun _ => none, fun _ => none, 2, 0, fun _ _ _ _ => 1, fun _ => 1⟩
  let P : List ℝ → Num := fun v => .fin (-v.sum)
  let x : Unit × Chain 1 := ((), { pos := fun _ => 0, prob := P [0, 0] })
  have hlt : ¬ ∃ k, ¬ Stat.truncLo A x.2.pos k < Stat.truncHi A x.2.pos k := by
    push Not
    exact Stat.free_lt (fun _ => rfl) (fun _ => rfl) (fun _ => one_pos) _
  have hb : ((1 : ℕ) : ℤ) > Stat.effBurn A.iterations A.burn := by
    simp [Stat.effBurn, Stat.pyint, A]
  have hd : draw (some [(0, [0, 9]), (1, [1, 9])]) 1 = .ok [1] := by simp [draw, List.lookup]
  obtain ⟨y, hy⟩ : ∃ y, iter (fun s v => (s, P v)) A (some [(0, [0, 9]), (1, [1, 9])]) 1 1 x = .ok y := by
    unfold iter
    rw [hd]
    simp only [bind, Except.bind]
    rw [if_neg hlt]
    exact ⟨_, rfl⟩
  refine ⟨A, P, _, x, y, hy, hd, by simp [x], hb, ?_, by simp [P, x]⟩
  have e : P (List.ofFn (Stat.propose A 1 x.2.factor x.2.pos) ++ [1]) = .fin (-2) := by
    simp [P, A, x, Stat.propose]; norm_num
  rw [e]
  have h0 : x.2.prob = .fin 0 := by simp [x, P]
  rw [h0]
  rw [Stat.accept_iff (Num.is_fin 0) (Num.is_fin (-2))]
  rintro (h | h)
  · norm_num at h
  · exact absurd h (not_lt.2 (Real.exp_le_one_iff.2 (by norm_num)))

/-- **C126** If the labels of the prior trace are 0, 1, 2, ..., as in every trace of `metropolis`, no row is missing. -/
theorem C126_labels_partial {σ : Type} {n : ℕ} (lp : σ → List ℝ → σ × Num) (A : Stat.Args n) {prior : Table} (hl : prior.map Prod.fst = List.range prior.length)
    {d0 : ℕ} {d : ℕ → ℕ} (h0 : d0 < prior.length) (hd : ∀ i, d i < prior.length) (s : σ) (start : Fin n → ℝ) :
    metropolis lp A (some prior) d0 d s start ≠ .error .key := by
  have hk : ∀ j, j < prior.length → ∃ p, draw (some prior) j = .ok p := by
    intro j hj
    unfold draw
    split
    · exact ⟨_, rfl⟩
    · rename_i h; cases h; simp at hj
    · rename_i t ht
      cases ht
      cases e : prior.lookup j with
      | some q => exact ⟨_, rfl⟩
      | none =>
        rw [List.lookup_eq_none_iff] at e
        have : j ∈ prior.map Prod.fst := by rw [hl]; exact List.mem_range.2 hj
        obtain ⟨k, hk, rfl⟩ := List.mem_map.1 this
        simpa using e k hk
  have hi : ∀ i x, iter lp A (some prior) (d i) i x ≠ .error .key := by
    intro i x h
    obtain ⟨p, hp⟩ := hk _ (hd i)
    unfold iter at h
    rw [hp] at h
    simp only [bind, Except.bind] at h
    split at h
    · cases h
    · cases h
  have hloop : ∀ x i, loop lp A (some prior) d x i ≠ .error .key := by
    intro x i
    induction i with
    | zero => simp [loop]
    | succ i ih =>
      intro h
      unfold loop at h
      cases e : loop lp A (some prior) d x i with
      | error e' => rw [e] at h; cases h; exact ih e
      | ok y => rw [e] at h; exact hi _ _ h
  intro h
  obtain ⟨p, hp⟩ := hk _ h0
  unfold metropolis at h
  rw [hp] at h
  simp only [bind, Except.bind] at h
  cases e : loop lp A (some prior) d ((lp s (List.ofFn start ++ p)).1, { pos := start, prob := (lp s (List.ofFn start ++ p)).2 }) (Stat.pyint A.iterations).toNat with
  | error e' => rw [e] at h; cases h; exact hloop _ _ e
  | ok y => rw [e] at h; cases h

/-- **C126** is violated for traces with other labels, for example those that are left after dropping rows: a draw of a number that
is no label raises a KeyError. -/
theorem C126_labels_violated {σ : Type} {n : ℕ} (lp : σ → List ℝ → σ × Num) (A : Stat.Args n) {prior : Table} (hne : prior ≠ [])
    {d0 : ℕ} (h0 : d0 ∉ prior.map Prod.fst) (d : ℕ → ℕ) (s : σ) (start : Fin n → ℝ) :
    metropolis lp A (some prior) d0 d s start = .error .key := by
  have : draw (some prior) d0 = .error .key := by
    unfold draw
    split
    · rename_i h; cases h
    · rename_i h; cases h; exact absurd rfl hne
    · rename_i t ht
      cases ht
      rw [List.lookup_eq_none_iff.2 fun k hk => by
        simp only [ne_eq, bne_iff_ne]
        rintro rfl
        exact h0 (List.mem_map.2 ⟨k, hk, rfl⟩)]
  unfold metropolis
  rw [this]
  rfl

example : ∃ prior : Table, prior ≠ [] ∧ 0 < prior.length ∧ 0 ∉ prior.map Prod.fst := ⟨[(1, [2, 3])], by simp, by simp, by simp⟩

example : ∃ prior : Table, prior.map Prod.fst = List.range prior.length ∧ 1 < prior.length := ⟨[(0, [2, 3]), (1, [4, 5])], rfl, by simp⟩
