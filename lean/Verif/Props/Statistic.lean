import Verif.Proofs.Statistic

/-! # The Metropolis sampler, the start search and the log probability -/

set_option linter.constructorNameAsVariable false

open Classical Stat

/-! ### C58 -/

theorem Stat.pyint_nonneg {x : ℝ} (h : 0 ≤ x) : pyint x = ⌊x⌋ := if_pos h

theorem Stat.effBurn_eq {it b : ℝ} (hi : 0 ≤ it) (hb : 0 ≤ b) : effBurn it b = skipped it b ∧ 0 ≤ skipped it b := by
  unfold effBurn skipped
  split_ifs
  · exact ⟨pyint_nonneg (mul_nonneg hi hb), Int.floor_nonneg.2 (mul_nonneg hi hb)⟩
  · exact ⟨pyint_nonneg hb, Int.floor_nonneg.2 hb⟩

/-- **C58** Whenever `metropolis` returns, the trace has exactly `max(0, n - b - 1)` rows, for `n` iterations of which
`b` are skipped. -/
theorem C58_trace_length {σ : Type} {n : ℕ} {lp : σ → (Fin n → ℝ) → σ × Num} {A : Args n} (hi : 0 ≤ A.iterations) (hb : 0 ≤ A.burn)
    {s s' : σ} {start : Fin n → ℝ} {tr : List ((Fin n → ℝ) × Num)} (h : metropolis lp A s start = .ok (s', tr)) :
    (tr.length : ℤ) = max 0 (⌊A.iterations⌋ - skipped A.iterations A.burn - 1) := by
  obtain ⟨c, h1, rfl⟩ := metropolis_ok h
  obtain ⟨eb, hb0⟩ := effBurn_eq hi hb
  have key : ∀ (i : ℕ) (y : σ × Chain n), loop lp A ((lp s start).1, { pos := start, prob := (lp s start).2 }) i = .ok y →
      (y.2.trace.length : ℤ) = max 0 ((i : ℤ) - skipped A.iterations A.burn - 1) := by
    intro i
    induction i with
    | zero =>
      intro y hy
      simp only [loop, Except.ok.injEq] at hy
      subst hy
      simp; omega
    | succ i ih =>
      intro y hy
      obtain ⟨z, hz, hy⟩ := loop_succ hy
      obtain ⟨-, -, -, ht, -⟩ := iter_ok hy
      have := ih z hz
      rw [ht, eb]
      split_ifs with hc
      · simp only [List.length_append, List.length_singleton]; push_cast; omega
      · push_cast; omega
  have h2 := key _ _ h1
  simp only at h2
  rw [h2, pyint_nonneg hi]
  have : ((⌊A.iterations⌋.toNat : ℕ) : ℤ) = ⌊A.iterations⌋ := Int.toNat_of_nonneg (Int.floor_nonneg.2 hi)
  rw [this]

/-- Without bounds the arguments of `truncnorm` are in order. -/
theorem Stat.free_lt {n : ℕ} {A : Args n} (h1 : ∀ k, A.lower k = none) (h2 : ∀ k, A.upper k = none)
    (h3 : ∀ k, 0 < A.step k) (pos : Fin n → ℝ) (k : Fin n) : truncLo A pos k < truncHi A pos k := by
  have e1 : truncLo A pos k = .ninf := by
    have hne : ¬ A.step k < 0 := not_lt.2 (h3 k).le
    have : (Num.ninf - Num.fin (pos k)) = .ninf := by
      show Num.add _ (Num.neg _) = _
      unfold Num.neg; simp only; split_ifs <;> rfl
    unfold truncLo lo; rw [h1]; simp only; rw [this]
    show Num.div _ _ = _
    simp [Num.div, Num.IsInf, Num.signbit, Num.signedInf, hne]
  have e2 : truncHi A pos k = .pinf := by
    have hne : ¬ A.step k < 0 := not_lt.2 (h3 k).le
    have : (Num.pinf - Num.fin (pos k)) = .pinf := by
      show Num.add _ (Num.neg _) = _
      unfold Num.neg; simp only; split_ifs <;> rfl
    unfold truncHi hi; rw [h2]; simp only; rw [this]
    show Num.div _ _ = _
    simp [Num.div, Num.IsInf, Num.signbit, Num.signedInf, hne]
  rw [e1, e2]
  exact ⟨by simp, by simp, by simp [Num.ext]⟩

/-- A run without bounds never raises. -/
theorem Stat.free_ok {σ : Type} {n : ℕ} (lp : σ → (Fin n → ℝ) → σ × Num) (A : Args n) (h1 : ∀ k, A.lower k = none) (h2 : ∀ k, A.upper k = none)
    (h3 : ∀ k, 0 < A.step k) (s : σ) (start : Fin n → ℝ) : ∃ r, metropolis lp A s start = .ok r := by
  have hlt : ∀ pos k, truncLo A pos k < truncHi A pos k := free_lt h1 h2 h3
  have hit : ∀ i x, ∃ y, iter lp A i x = .ok y := by
    intro i x
    unfold iter
    rw [if_neg (by push Not; exact hlt _)]
    exact ⟨_, rfl⟩
  have hl : ∀ i x, ∃ y, loop lp A x i = .ok y := by
    intro i x
    induction i with
    | zero => exact ⟨_, rfl⟩
    | succ i ih =>
      obtain ⟨y, hy⟩ := ih
      obtain ⟨z, hz⟩ := hit i y
      exact ⟨z, by simp only [loop, hy, bind, Except.bind, hz]⟩
  obtain ⟨y, hy⟩ := hl (pyint A.iterations).toNat ((lp s start).1, { pos := start, prob := (lp s start).2 })
  exact ⟨(y.1, y.2.trace), by simp only [metropolis, hy, bind, Except.bind, pure, Except.pure]⟩

example : ∃ (A : Args 2) (s' : Unit) (tr : _), 0 ≤ A.iterations ∧ 0 ≤ A.burn ∧
    metropolis (fun (_ : Unit) p => ((), .fin (p 0))) A () (fun _ => 0) = .ok (s', tr) := by
  obtain ⟨r, hr⟩ := free_ok (fun (_ : Unit) (p : Fin 2 → ℝ) => ((), Num.fin (p 0))) ⟨fun _ => 1, fun _ => none, fun _ => none, 1000, 0.1, fun _ _ _ _ => 0, fun _ => 0⟩
    (fun _ => rfl) (fun _ => rfl) (fun _ => one_pos) () (fun _ => 0)
  exact ⟨_, r.1, r.2, by norm_num, by norm_num, hr⟩

/-! ### C59 -/

/-- `getLogProb` gives `P pos` for the position `pos`, in all states with the property `Inv`, which it keeps. -/
def Stat.Computes {σ : Type} {n : ℕ} (Inv : σ → Prop) (lp : σ → (Fin n → ℝ) → σ × Num) (P : (Fin n → ℝ) → Num) : Prop :=
  ∀ s pos, Inv s → Inv (lp s pos).1 ∧ (lp s pos).2 = P pos

/-- The probability of the chain belongs to its position. -/
theorem Stat.loop_inv {σ : Type} {n : ℕ} {Inv : σ → Prop} {lp : σ → (Fin n → ℝ) → σ × Num} {P : (Fin n → ℝ) → Num} (hP : Computes Inv lp P)
    {A : Args n} {x : σ × Chain n} (hx : Inv x.1 ∧ x.2.prob = P x.2.pos ∧ ∀ r ∈ x.2.trace, r.2 = P r.1) (i : ℕ) (y : σ × Chain n)
    (h : loop lp A x i = .ok y) : Inv y.1 ∧ y.2.prob = P y.2.pos ∧ ∀ r ∈ y.2.trace, r.2 = P r.1 := by
  induction i generalizing y with
  | zero => simp only [loop, Except.ok.injEq] at h; exact h ▸ hx
  | succ i ih =>
    obtain ⟨z, hz, h⟩ := loop_succ h
    obtain ⟨h1, h2, h3⟩ := ih z hz
    obtain ⟨-, e1, e2, e3, -⟩ := iter_ok h
    have hprob : y.2.prob = P y.2.pos := by
      split_ifs at e2
      · rw [e2.1, e2.2]; exact (hP _ _ h1).2
      · rw [e2.1, e2.2]; exact h2
    refine ⟨by rw [e1]; exact (hP _ _ h1).1, hprob, ?_⟩
    intro r hr
    rw [e3] at hr
    split_ifs at hr
    · simp only [List.mem_append, List.mem_singleton] at hr
      rcases hr with hr | rfl
      · exact h3 r hr
      · exact hprob
    · exact h3 r hr

theorem Stat.not_accept {last next : Num} (hl : last ≠ .ninf) (hl' : last ≠ .pinf) (hn : next = .ninf) {r : ℝ} (hr : 0 ≤ r) : ¬ Accept last next r := by
  subst hn
  unfold Accept
  cases last with
  | ninf => exact absurd rfl hl
  | pinf => exact absurd rfl hl'
  | nan =>
    have : Num.ninf - Num.nan = .nan := Num.sub_nan _
    simp [Num.IsInf, this, Num.exp]
  | fin x =>
    have : Num.ninf - Num.fin x = .ninf := by
      show Num.add _ (Num.neg _) = _
      unfold Num.neg; simp only; split_ifs <;> rfl
    simp only [Num.IsInf, and_false, if_false, this, Num.exp]
    rw [(Num.is_fin r).lt_iff (Num.is_fin 0)]
    rintro (h | h)
    · have := h.2.2; simp [Num.ext] at this
    · exact absurd h (not_lt.2 hr)
  | nzero =>
    have : Num.ninf - Num.nzero = .ninf := rfl
    simp only [Num.IsInf, and_false, if_false, this, Num.exp]
    rw [(Num.is_fin r).lt_iff (Num.is_fin 0)]
    rintro (h | h)
    · have := h.2.2; simp [Num.ext] at this
    · exact absurd h (not_lt.2 hr)

/-- **C59** Each row of the trace is a position with its own log probability; if the start is possible, so is every row.
Missing: log probabilities of `+inf`. -/
theorem C59_rows_partial {σ : Type} {n : ℕ} {Inv : σ → Prop} {lp : σ → (Fin n → ℝ) → σ × Num} {P : (Fin n → ℝ) → Num} (hP : Computes Inv lp P)
    {A : Args n} {s s' : σ} (hs : Inv s) {start : Fin n → ℝ} {tr : List ((Fin n → ℝ) × Num)} (h : metropolis lp A s start = .ok (s', tr)) :
    (∀ r ∈ tr, r.2 = P r.1) ∧
    ((∀ pos, P pos ≠ .pinf) → (∀ i, 0 ≤ A.u i) → P start ≠ .ninf → ∀ r ∈ tr, r.2 ≠ .ninf) := by
  obtain ⟨c, h1, rfl⟩ := metropolis_ok h
  have hx := loop_inv hP (A := A) (x := ((lp s start).1, { pos := start, prob := (lp s start).2 }))
    ⟨(hP s start hs).1, (hP s start hs).2, by simp⟩
  refine ⟨(hx _ _ h1).2.2, ?_⟩
  intro hpi hu h0
  have key : ∀ (i : ℕ) (y : σ × Chain n), loop lp A ((lp s start).1, { pos := start, prob := (lp s start).2 }) i = .ok y →
      y.2.prob ≠ .ninf ∧ ∀ r ∈ y.2.trace, r.2 ≠ .ninf := by
    intro i
    induction i with
    | zero =>
      intro y hy
      simp only [loop, Except.ok.injEq] at hy
      subst hy
      refine ⟨?_, by simp⟩
      simp only
      rw [(hP s start hs).2]; exact h0
    | succ i ih =>
      intro y hy
      obtain ⟨z, hz, hy⟩ := loop_succ hy
      obtain ⟨i1, i2⟩ := ih z hz
      obtain ⟨-, -, e2, e3, -⟩ := iter_ok hy
      have hp : y.2.prob ≠ .ninf := by
        by_cases ha : Accept z.2.prob (lp z.1 (propose A i z.2.factor z.2.pos)).2 (A.u i)
        · rw [if_pos ha] at e2
          rw [e2.2]
          intro hn
          exact not_accept i1 (by rw [(hx _ _ hz).2.1]; exact hpi _) hn (hu i) ha
        · rw [if_neg ha] at e2
          rw [e2.2]; exact i1
      refine ⟨hp, ?_⟩
      intro r hr
      rw [e3] at hr
      split_ifs at hr
      · simp only [List.mem_append, List.mem_singleton] at hr
        rcases hr with hr | rfl
        · exact i2 r hr
        · exact hp
      · exact i2 r hr
  exact (key _ _ h1).2

example : ∃ (A : Args 2) (s' : Unit) (tr : _), Computes (fun _ : Unit => True) (fun _ p => ((), .fin (p 0))) (fun p : Fin 2 → ℝ => .fin (p 0)) ∧
    (∀ pos : Fin 2 → ℝ, Num.fin (pos 0) ≠ .pinf) ∧ (∀ i, 0 ≤ A.u i) ∧
    metropolis (fun (_ : Unit) p => ((), .fin (p 0))) A () (fun _ => 0) = .ok (s', tr) := by
  obtain ⟨r, hr⟩ := free_ok (fun (_ : Unit) (p : Fin 2 → ℝ) => ((), Num.fin (p 0))) ⟨fun _ => 1, fun _ => none, fun _ => none, 1000, 0.1, fun _ _ _ _ => 0, fun _ => 0⟩
    (fun _ => rfl) (fun _ => rfl) (fun _ => one_pos) () (fun _ => 0)
  exact ⟨_, r.1, r.2, fun _ _ _ => ⟨trivial, rfl⟩, by simp, by simp, hr⟩

theorem Stat.accept_inf {last next : Num} (h1 : last.IsInf) (h2 : next.IsInf) (r : ℝ) : Accept last next r := by
  unfold Accept
  simp only [h1, h2, and_self, if_true]
  exact Or.inl ⟨by simp, by simp, le_refl _⟩

theorem Stat.adapt_pos {rate f : ℝ} (h : 0 < f) : 0 < adapt rate f := by
  unfold adapt; split_ifs <;> first | exact h | (apply mul_pos h; norm_num)

theorem Stat.iter_factor {σ : Type} {n : ℕ} {lp : σ → (Fin n → ℝ) → σ × Num} {A : Args n} {i : ℕ} {x y : σ × Chain n} (h : iter lp A i x = .ok y)
    (hx : 0 < x.2.factor) : 0 < y.2.factor := by
  unfold iter at h
  simp only at h
  split at h
  · cases h
  · simp only [Except.ok.injEq] at h
    subst h
    split_ifs <;> first | exact hx | exact adapt_pos hx

/-- **C59** is violated for log probabilities of `+inf`: with them every proposal of probability zero is accepted.
If the first proposal has log probability `+inf`, every other position but the start has probability zero, and some
component always moves up, then all rows of the trace are impossible, whatever the other random numbers are. -/
theorem C59_violated_infinite {σ : Type} {n : ℕ} {lp : σ → (Fin n → ℝ) → σ × Num} {A : Args n} {s s' : σ} {start : Fin n → ℝ}
    {tr : List ((Fin n → ℝ) × Num)} (h : metropolis lp A s start = .ok (s', tr)) {m : ℝ} (hstart : ∀ s, (lp s start).2 = .fin m)
    (hfirst : ∀ s, (lp s (propose A 0 1 start)).2 = .pinf)
    (hrest : ∀ s pos, pos ≠ start → pos ≠ propose A 0 1 start → (lp s pos).2 = .ninf)
    (k : Fin n) (hk : 0 < A.step k) (hup : ∀ i a b, 0 < A.tn i k a b) (hb : 0 ≤ A.burn) (hi : 0 ≤ A.iterations) : ∀ r ∈ tr, r.2 = .ninf := by
  obtain ⟨c, h1, rfl⟩ := metropolis_ok h
  obtain ⟨eb, hb0⟩ := effBurn_eq hi hb
  have hmove : ∀ i f pos, 0 < f → pos k < propose A i f pos k := by
    intro i f pos hf
    unfold propose
    have := mul_pos (mul_pos hf hk) (hup i (truncLo A pos k) (truncHi A pos k))
    linarith
  have key : ∀ (i : ℕ) (y : σ × Chain n), loop lp A ((lp s start).1, { pos := start, prob := (lp s start).2 }) i = .ok y →
      (i = 0 → y.2.prob = .fin m ∧ y.2.pos = start ∧ y.2.factor = 1 ∧ y.2.trace = []) ∧
      (i = 1 → y.2.prob = .pinf ∧ y.2.trace = []) ∧ (1 < i → y.2.prob = .ninf) ∧
      (0 < i → propose A 0 1 start k ≤ y.2.pos k) ∧ 0 < y.2.factor ∧ ∀ r ∈ y.2.trace, r.2 = .ninf := by
    intro i
    induction i with
    | zero =>
      intro y hy
      simp only [loop, Except.ok.injEq] at hy
      subst hy
      simp [hstart]
    | succ i ih =>
      intro y hy
      obtain ⟨z, hz, hy⟩ := loop_succ hy
      obtain ⟨i1, i2, i3, i5, i6, i4⟩ := ih z hz
      have hfac := iter_factor hy i6
      obtain ⟨-, -, e2, e3, -⟩ := iter_ok hy
      rcases Nat.eq_zero_or_pos i with rfl | hpos
      · obtain ⟨j1, j2, j3, j4⟩ := i1 rfl
        rw [if_pos] at e2
        · have e4 : y.2.trace = [] := by
            rw [e3, if_neg (by rw [eb]; push_cast; omega), j4]
          have e5 : y.2.prob = .pinf := by rw [e2.2, j3, j2, hfirst]
          refine ⟨by omega, fun _ => ⟨e5, e4⟩, by omega, fun _ => ?_, hfac, by simp [e4]⟩
          rw [e2.1, j2, j3]
        · rw [j1, j2, j3, hfirst]
          have : Num.pinf - Num.fin m = .pinf := by
            show Num.add _ (Num.neg _) = _
            unfold Num.neg; simp only; split_ifs <;> rfl
          unfold Accept
          simp only [Num.IsInf, and_false, if_false, this]
          exact Or.inl ⟨by simp, by simp, by simp [Num.ext]⟩
      · have g1 := hmove i z.2.factor z.2.pos i6
        have g2 := i5 hpos
        have g3 := hmove 0 1 start one_pos
        have hni : (lp z.1 (propose A i z.2.factor z.2.pos)).2 = .ninf := by
          apply hrest
          · intro e; rw [e] at g1; linarith
          · intro e; rw [e] at g1; linarith
        have hzinf : z.2.prob.IsInf := by
          rcases Nat.lt_or_ge 1 i with hj | hj
          · rw [i3 hj]; trivial
          · rw [(i2 (by omega)).1]; trivial
        rw [if_pos (accept_inf hzinf (by rw [hni]; trivial) _)] at e2
        have e5 : y.2.prob = .ninf := by rw [e2.2, hni]
        refine ⟨by omega, by omega, fun _ => e5, fun _ => ?_, hfac, ?_⟩
        · rw [e2.1]; linarith
        · intro r hr
          rw [e3] at hr
          split_ifs at hr
          · simp only [List.mem_append, List.mem_singleton] at hr
            rcases hr with hr | rfl
            · exact i4 r hr
            · exact e5
          · exact i4 r hr
  exact (key _ _ h1).2.2.2.2.2

/-- The hypotheses can be met and the trace is not empty: a density with a pole at 1, positions 0, 1, 2, 3, …. -/
example : ∃ (A : Args 1) (lp : Unit → (Fin 1 → ℝ) → Unit × Num) (r : _), metropolis lp A () (fun _ => 0) = .ok r ∧ 2 ≤ r.2.length ∧
    ∀ x ∈ r.2, x.2 = Num.ninf := by
  let A : Args 1 := ⟨fun _ => 1, fun _ => none, fun _ => none, 4, 0, fun _ _ _ _ => 1, fun _ => 0⟩
  let lp : Unit → (Fin 1 → ℝ) → Unit × Num := fun _ p => ((), if p 0 = 0 then .fin 0 else if p 0 = 1 then .pinf else .ninf)
  obtain ⟨r, hr⟩ := free_ok lp A (fun _ => rfl) (fun _ => rfl) (fun _ => one_pos) () (fun _ => 0)
  have hp : propose A 0 1 (fun _ => 0) = fun _ => 1 := by funext k; simp [propose, A]
  refine ⟨A, lp, r, hr, ?_, ?_⟩
  · have := C58_trace_length (A := A) (by norm_num [A]) (by norm_num [A]) (s' := r.1) (tr := r.2) hr
    norm_num [A, skipped] at this
    omega
  · refine C59_violated_infinite (A := A) (lp := lp) (s := ()) (s' := r.1) hr (m := 0) ?_ ?_ ?_ 0 one_pos (fun _ _ _ => one_pos) (by norm_num [A]) (by norm_num [A])
    · intro s; simp [lp]
    · intro s; rw [hp]; simp [lp]
    · intro s pos h1 h2
      rw [hp] at h2
      have g1 : pos 0 ≠ 0 := fun e => h1 (by funext k; rw [Subsingleton.elim k 0]; exact e)
      have g2 : pos 0 ≠ 1 := fun e => h2 (by funext k; rw [Subsingleton.elim k 0]; exact e)
      simp [lp, g1, g2]

/-! ### C60 -/

theorem Stat.lo_le {n : ℕ} {A : Args n} {pos : Fin n → ℝ} {k : Fin n} {l z : ℝ} (hs : 0 < A.step k) (hl : A.lower k = some l)
    (h : truncLo A pos k ≤ Num.fin z) : l ≤ pos k + A.step k * z := by
  have : (truncLo A pos k).Is ((l - pos k) / A.step k) := by
    unfold truncLo lo; rw [hl]
    exact (Num.Is.sub (Num.is_fin _) (Num.is_fin _)).div (Num.is_fin _) hs.ne'
  rw [this.le_iff (Num.is_fin z), div_le_iff₀ hs] at h
  linarith

theorem Stat.le_hi {n : ℕ} {A : Args n} {pos : Fin n → ℝ} {k : Fin n} {l z : ℝ} (hs : 0 < A.step k) (hl : A.upper k = some l)
    (h : Num.fin z ≤ truncHi A pos k) : pos k + A.step k * z ≤ l := by
  have : (truncHi A pos k).Is ((l - pos k) / A.step k) := by
    unfold truncHi hi; rw [hl]
    exact (Num.Is.sub (Num.is_fin _) (Num.is_fin _)).div (Num.is_fin _) hs.ne'
  rw [(Num.is_fin z).le_iff this, le_div_iff₀ hs] at h
  linarith

/-- A proposal with a factor of at most 1 stays inside the bounds. -/
theorem Stat.propose_inBounds {n : ℕ} {A : Args n} (hf : Fair A.tn A.u) (hs : ∀ k, 0 < A.step k) {pos : Fin n → ℝ} (hp : InBounds A.lower A.upper pos)
    (hlt : ∀ k, truncLo A pos k < truncHi A pos k) {f : ℝ} (h0 : 0 ≤ f) (h1 : f ≤ 1) (i : ℕ) : InBounds A.lower A.upper (propose A i f pos) := by
  intro k
  obtain ⟨g1, g2⟩ := hf.1 i k _ _ (hlt k)
  refine ⟨fun l hl => ?_, fun h hh => ?_⟩
  · have e1 := lo_le (hs k) hl g1
    have e2 := (hp k).1 l hl
    unfold propose
    nlinarith
  · have e1 := le_hi (hs k) hh g2
    have e2 := (hp k).2 h hh
    unfold propose
    nlinarith

/-- **C60** All positions in the trace lie inside the bounds, if the start does.
Missing: 200 or more skipped iterations (then the proposals can be scaled up). -/
theorem C60_bounds_partial {σ : Type} {n : ℕ} {lp : σ → (Fin n → ℝ) → σ × Num} {A : Args n} (hf : Fair A.tn A.u) (hs : ∀ k, 0 < A.step k)
    (hi : 0 ≤ A.iterations) (hb : 0 ≤ A.burn) (hburn : skipped A.iterations A.burn < 200)
    {s s' : σ} {start : Fin n → ℝ} (h0 : InBounds A.lower A.upper start) {tr : List ((Fin n → ℝ) × Num)} (h : metropolis lp A s start = .ok (s', tr)) :
    ∀ r ∈ tr, InBounds A.lower A.upper r.1 := by
  obtain ⟨c, h1, rfl⟩ := metropolis_ok h
  obtain ⟨eb, hb0⟩ := effBurn_eq hi hb
  have key : ∀ (i : ℕ) (y : σ × Chain n), loop lp A ((lp s start).1, { pos := start, prob := (lp s start).2 }) i = .ok y →
      y.2.factor = 1 ∧ InBounds A.lower A.upper y.2.pos ∧ ∀ r ∈ y.2.trace, InBounds A.lower A.upper r.1 := by
    intro i
    induction i with
    | zero =>
      intro y hy
      simp only [loop, Except.ok.injEq] at hy
      subst hy
      exact ⟨rfl, h0, by simp⟩
    | succ i ih =>
      intro y hy
      obtain ⟨z, hz, hy⟩ := loop_succ hy
      obtain ⟨i1, i2, i3⟩ := ih z hz
      obtain ⟨hlt, -, e2, e3, e4, -⟩ := iter_ok hy
      have hfac : y.2.factor = 1 := by
        rw [e4, i1]
        rw [eb]
        by_cases hc : (i : ℤ) > skipped A.iterations A.burn
        · exact Or.inl hc
        · right; omega
      have hpos : InBounds A.lower A.upper y.2.pos := by
        split_ifs at e2
        · rw [e2.1, i1]; exact propose_inBounds hf hs i2 hlt zero_le_one le_rfl i
        · rw [e2.1]; exact i2
      refine ⟨hfac, hpos, ?_⟩
      intro r hr
      rw [e3] at hr
      split_ifs at hr
      · simp only [List.mem_append, List.mem_singleton] at hr
        rcases hr with hr | rfl
        · exact i3 r hr
        · exact hpos
      · exact i3 r hr
  exact (key _ _ h1).2.2

/-- The rows of the trace stay. -/
theorem Stat.loop_trace {σ : Type} {n : ℕ} {lp : σ → (Fin n → ℝ) → σ × Num} {A : Args n} {x : σ × Chain n} {i j : ℕ} {y z : σ × Chain n}
    (h1 : loop lp A x i = .ok y) (h2 : loop lp A x (i + j) = .ok z) : ∀ r ∈ y.2.trace, r ∈ z.2.trace := by
  induction j generalizing z with
  | zero => rw [Nat.add_zero, h1] at h2; cases h2; exact fun r h => h
  | succ j ih =>
    obtain ⟨w, hw, hz⟩ := loop_succ h2
    obtain ⟨-, -, -, e, -⟩ := iter_ok hz
    intro r hr
    have := ih hw r hr
    rw [e]
    split_ifs
    · simp [this]
    · exact this

theorem Stat.iter_exists {σ : Type} {n : ℕ} (lp : σ → (Fin n → ℝ) → σ × Num) {A : Args n} (i : ℕ) (x : σ × Chain n)
    (h : ∀ k, truncLo A x.2.pos k < truncHi A x.2.pos k) : ∃ y, iter lp A i x = .ok y := by
  unfold iter
  rw [if_neg (by push Not; exact h)]
  exact ⟨_, rfl⟩

/-- With proper bounds the arguments of `truncnorm` are in order. -/
theorem Stat.trunc_lt {n : ℕ} {A : Args n} {k : Fin n} (hs : 0 < A.step k) (h : ∀ l u, A.lower k = some l → A.upper k = some u → l < u) (pos : Fin n → ℝ) :
    truncLo A pos k < truncHi A pos k := by
  have hne : ¬ A.step k < 0 := not_lt.2 hs.le
  have e1 : A.lower k = none → truncLo A pos k = .ninf := by
    intro h1
    have : (Num.ninf - Num.fin (pos k)) = .ninf := by
      show Num.add _ (Num.neg _) = _
      unfold Num.neg; simp only; split_ifs <;> rfl
    unfold truncLo lo; rw [h1]; simp only; rw [this]
    show Num.div _ _ = _
    simp [Num.div, Num.IsInf, Num.signbit, Num.signedInf, hne]
  have e2 : A.upper k = none → truncHi A pos k = .pinf := by
    intro h2
    have : (Num.pinf - Num.fin (pos k)) = .pinf := by
      show Num.add _ (Num.neg _) = _
      unfold Num.neg; simp only; split_ifs <;> rfl
    unfold truncHi hi; rw [h2]; simp only; rw [this]
    show Num.div _ _ = _
    simp [Num.div, Num.IsInf, Num.signbit, Num.signedInf, hne]
  have f1 : ∀ l, A.lower k = some l → (truncLo A pos k).Is ((l - pos k) / A.step k) := by
    intro l hl
    unfold truncLo lo; rw [hl]
    exact (Num.Is.sub (Num.is_fin _) (Num.is_fin _)).div (Num.is_fin _) hs.ne'
  have f2 : ∀ l, A.upper k = some l → (truncHi A pos k).Is ((l - pos k) / A.step k) := by
    intro l hl
    unfold truncHi hi; rw [hl]
    exact (Num.Is.sub (Num.is_fin _) (Num.is_fin _)).div (Num.is_fin _) hs.ne'
  cases h1 : A.lower k with
  | none =>
    rw [e1 h1]
    cases h2 : A.upper k with
    | none => rw [e2 h2]; exact ⟨by simp, by simp, by simp [Num.ext]⟩
    | some u => exact ⟨by simp, (f2 u h2).ne_nan, by rw [(f2 u h2).ext_eq]; exact EReal.bot_lt_coe _⟩
  | some l =>
    cases h2 : A.upper k with
    | none => rw [e2 h2]; exact ⟨(f1 l h1).ne_nan, by simp, by rw [(f1 l h1).ext_eq]; exact EReal.coe_lt_top _⟩
    | some u =>
      rw [(f1 l h1).lt_iff (f2 u h2)]
      exact div_lt_div_of_pos_right (by linarith [h l u h1 h2]) hs

theorem Stat.loop_exists {σ : Type} {n : ℕ} (lp : σ → (Fin n → ℝ) → σ × Num) {A : Args n} (hs : ∀ k, 0 < A.step k)
    (h : ∀ k l u, A.lower k = some l → A.upper k = some u → l < u) (x : σ × Chain n) (i : ℕ) : ∃ y, loop lp A x i = .ok y := by
  induction i with
  | zero => exact ⟨_, rfl⟩
  | succ i ih =>
    obtain ⟨y, hy⟩ := ih
    obtain ⟨z, hz⟩ := iter_exists lp i y fun k => trunc_lt (hs k) (h k) _
    exact ⟨z, by simp only [loop, hy, bind, Except.bind, hz]⟩

/-- Draws that keep the position for the first `B + 1` iterations, and then go to the upper bound. -/
noncomputable def Stat.badDraw {n : ℕ} (B : ℤ) (i : ℕ) (_ : Fin n) (a b : Num) : ℝ :=
  if (i : ℤ) ≤ B ∧ a ≤ Num.fin 0 ∧ Num.fin 0 ≤ b then 0
  else if b = .pinf then (if a = .ninf then 0 else a.rv) else b.rv

theorem Stat.badDraw_fair {n : ℕ} (B : ℤ) : Fair (badDraw (n := n) B) fun _ => 0 := by
  refine ⟨?_, fun _ => le_rfl⟩
  intro i k a b hab
  unfold badDraw
  by_cases hc : (i : ℤ) ≤ B ∧ a ≤ Num.fin 0 ∧ Num.fin 0 ≤ b
  · rw [if_pos hc]; exact hc.2
  · rw [if_neg hc]
    obtain ⟨h1, h2, h3⟩ := hab
    clear hc
    simp only [Num.le_def]
    cases a <;> cases b <;> simp_all [Num.rv, Num.ext] <;> exact le_of_lt (by exact_mod_cast h3)

example : ∃ (A : Args 1) (lp : Unit → (Fin 1 → ℝ) → Unit × Num), Fair A.tn A.u ∧ (∀ k, 0 < A.step k) ∧ 0 ≤ A.iterations ∧ 0 ≤ A.burn ∧
    skipped A.iterations A.burn < 200 ∧ InBounds A.lower A.upper (fun _ => 0) ∧ ∃ r, metropolis lp A () (fun _ => 0) = .ok r := by
  let A : Args 1 := ⟨fun _ => 1, fun _ => none, fun _ => none, 1000, 0.1, badDraw 0, fun _ => 0⟩
  obtain ⟨r, hr⟩ := free_ok (fun (_ : Unit) (p : Fin 1 → ℝ) => ((), Num.fin (p 0))) A (fun _ => rfl) (fun _ => rfl) (fun _ => one_pos) () (fun _ => 0)
  refine ⟨A, _, badDraw_fair 0, fun _ => one_pos, by norm_num [A], by norm_num [A], ?_, ?_, r, hr⟩
  · norm_num [A, skipped]
  · intro k; simp [A]

/-- **C60** is violated: with at least 200 skipped iterations, for every start inside the bounds and below an upper bound,
and every constant log probability, there are draws within the bounds of `truncnorm` such that the trace leaves the bounds. -/
theorem C60_violated {n : ℕ} {A : Args n} (hs : ∀ k, 0 < A.step k) (hlu : ∀ k l u, A.lower k = some l → A.upper k = some u → l < u)
    {σ : Type} {lp : σ → (Fin n → ℝ) → σ × Num} {m : ℝ} (hlp : ∀ s pos, (lp s pos).2 = .fin m)
    (hi : 0 ≤ A.iterations) (hb : 0 ≤ A.burn) (h200 : 200 ≤ skipped A.iterations A.burn) (hit : skipped A.iterations A.burn + 2 ≤ ⌊A.iterations⌋)
    {start : Fin n → ℝ} (h0 : InBounds A.lower A.upper start) {k : Fin n} {u : ℝ} (hu : A.upper k = some u) (hsu : start k < u) (s : σ) :
    ∃ tn u, Fair tn u ∧ ∃ r, metropolis lp { A with tn := tn, u := u } s start = .ok r ∧ ∃ row ∈ r.2, ¬ InBounds A.lower A.upper row.1 := by
  set B := skipped A.iterations A.burn with hB
  obtain ⟨eb, -⟩ := effBurn_eq hi hb
  refine ⟨badDraw B, fun _ => 0, badDraw_fair B, ?_⟩
  set A' : Args n := { A with tn := badDraw B, u := fun _ => 0 } with hA'
  have hlt : ∀ pos k, truncLo A' pos k < truncHi A' pos k := fun pos k => trunc_lt (A := A') (hs k) (hlu k) pos
  set x0 : σ × Chain n := ((lp s start).1, { pos := start, prob := (lp s start).2 }) with hx0
  have hacc : Accept (.fin m) (.fin m) 0 := by
    unfold Accept
    simp only [Num.IsInf, and_self, if_false]
    left
    rw [(Num.is_fin 0).le_iff (Num.Is.sub (Num.is_fin m) (Num.is_fin m))]; simp
  -- the truncation bounds at the start contain 0
  have hz : ∀ k, truncLo A' start k ≤ Num.fin 0 ∧ Num.fin 0 ≤ truncHi A' start k := by
    intro k
    constructor
    · cases h1 : A.lower k with
      | none =>
        have hne : ¬ A.step k < 0 := not_lt.2 (hs k).le
        have e : truncLo A' start k = .ninf := by
          have : (Num.ninf - Num.fin (start k)) = .ninf := by
            show Num.add _ (Num.neg _) = _
            unfold Num.neg; simp only; split_ifs <;> rfl
          unfold truncLo lo
          rw [show A'.lower k = none from h1]; simp only; rw [this]
          show Num.div _ _ = _
          simp [Num.div, Num.IsInf, Num.signbit, Num.signedInf, hA', hne]
        rw [e]; exact ⟨by simp, by simp, by simp [Num.ext]⟩
      | some l =>
        have : (truncLo A' start k).Is ((l - start k) / A.step k) := by
          unfold truncLo lo; rw [show A'.lower k = some l from h1]
          exact (Num.Is.sub (Num.is_fin _) (Num.is_fin _)).div (Num.is_fin _) (hs k).ne'
        rw [this.le_iff (Num.is_fin 0)]
        exact div_nonpos_of_nonpos_of_nonneg (by linarith [(h0 k).1 l h1]) (hs k).le
    · cases h1 : A.upper k with
      | none =>
        have hne : ¬ A.step k < 0 := not_lt.2 (hs k).le
        have e : truncHi A' start k = .pinf := by
          have : (Num.pinf - Num.fin (start k)) = .pinf := by
            show Num.add _ (Num.neg _) = _
            unfold Num.neg; simp only; split_ifs <;> rfl
          unfold truncHi Stat.hi
          rw [show A'.upper k = none from h1]; simp only; rw [this]
          show Num.div _ _ = _
          simp [Num.div, Num.IsInf, Num.signbit, Num.signedInf, hA', hne]
        rw [e]; exact ⟨by simp, by simp, by simp [Num.ext]⟩
      | some l =>
        have : (truncHi A' start k).Is ((l - start k) / A.step k) := by
          unfold truncHi Stat.hi; rw [show A'.upper k = some l from h1]
          exact (Num.Is.sub (Num.is_fin _) (Num.is_fin _)).div (Num.is_fin _) (hs k).ne'
        rw [(Num.is_fin 0).le_iff this]
        exact div_nonneg (by linarith [(h0 k).2 l h1]) (hs k).le
  have hstay : ∀ (i : ℕ) f, (i : ℤ) ≤ B → propose A' i f start = start := by
    intro i f hiB
    funext k
    have : A'.tn i k (truncLo A' start k) (truncHi A' start k) = 0 := by
      show badDraw B i k _ _ = 0
      unfold badDraw; rw [if_pos ⟨hiB, hz k⟩]
    unfold propose; rw [this]; ring
  have key : ∀ (i : ℕ) (y : σ × Chain n), (i : ℤ) ≤ B + 1 → loop lp A' x0 i = .ok y →
      y.2.pos = start ∧ y.2.prob = .fin m ∧ y.2.rejected = 0 ∧ 1 ≤ y.2.factor ∧ y.2.trace = [] ∧ (200 < i → 10 ≤ y.2.factor) := by
    intro i
    induction i with
    | zero =>
      intro y _ hy
      simp only [loop, Except.ok.injEq] at hy
      subst hy
      exact ⟨rfl, hlp _ _, rfl, le_rfl, rfl, by omega⟩
    | succ i ih =>
      intro y hiB hy
      obtain ⟨z, hz', hy⟩ := loop_succ hy
      obtain ⟨i1, i2, i3, i4, i5, i6⟩ := ih z (by push_cast at hiB; omega) hz'
      obtain ⟨-, -, e2, e3, e4, e5⟩ := iter_ok hy
      have hiB' : (i : ℤ) ≤ B := by push_cast at hiB; omega
      have hburn : ¬ (i : ℤ) > effBurn A'.iterations A'.burn := by show ¬ (i : ℤ) > effBurn A.iterations A.burn; rw [eb]; omega
      have ha : Accept z.2.prob (lp z.1 (propose A' i z.2.factor z.2.pos)).2 (A'.u i) := by
        rw [i2, hlp]; exact hacc
      rw [if_pos ha] at e2
      rw [if_neg hburn] at e3
      have e5' := e5 ha
      rw [i3] at e5'
      have hrate : ∀ (j : ℕ) f, adapt ((j + 1 : ℕ) / ((j + 1 : ℕ) + ((0 : ℕ) : ℝ))) f = f * 10 := by
        intro j f
        have : ((j + 1 : ℕ) / ((j + 1 : ℕ) + ((0 : ℕ) : ℝ)) : ℝ) = 1 := by
          rw [Nat.cast_zero, add_zero]; exact div_self (by positivity)
        rw [this]; unfold adapt; norm_num
      refine ⟨?_, ?_, ?_, ?_, ?_, ?_⟩
      · rw [e2.1, i1]; exact hstay i _ hiB'
      · rw [e2.2, hlp]
      · split_ifs at e5'
        · exact e5'.2
        · exact e5'.2.2
      · by_cases hc : (i : ℤ) > effBurn A'.iterations A'.burn ∨ ¬ (i > 100 ∧ i % 100 = 0)
        · rw [e4 hc]; exact i4
        · rw [if_neg hc] at e5'
          rw [e5'.1, hrate]; linarith
      · rw [e3, i5]
      · intro h200'
        by_cases hc : (i : ℤ) > effBurn A'.iterations A'.burn ∨ ¬ (i > 100 ∧ i % 100 = 0)
        · rw [e4 hc]
          apply i6
          by_contra hle
          have : i = 200 := by omega
          subst this
          rcases hc with h | h
          · exact hburn h
          · exact h ⟨by norm_num, by norm_num⟩
        · rw [if_neg hc] at e5'
          rw [e5'.1, hrate]; linarith
  obtain ⟨b, hb'⟩ : ∃ b : ℕ, (b : ℤ) = B + 1 := ⟨(B + 1).toNat, by omega⟩
  obtain ⟨y, hy⟩ := loop_exists lp (A := A') hs hlu x0 b
  obtain ⟨k1, k2, k3, k4, k5, k6⟩ := key b y hb'.le hy
  obtain ⟨z, hz'⟩ := iter_exists lp (A := A') b y fun k => hlt _ k
  have hz2 : loop lp A' x0 (b + 1) = .ok z := by simp only [loop, hy, bind, Except.bind, hz']
  obtain ⟨-, -, e2, e3, -⟩ := iter_ok hz'
  have ha : Accept y.2.prob (lp y.1 (propose A' b y.2.factor y.2.pos)).2 (A'.u b) := by rw [k2, hlp]; exact hacc
  rw [if_pos ha] at e2
  rw [if_pos (by show (b : ℤ) > effBurn A.iterations A.burn; rw [eb]; omega)] at e3
  have hout : u < z.2.pos k := by
    have hI : (truncHi A' start k).Is ((u - start k) / A.step k) := by
      unfold truncHi Stat.hi; rw [show A'.upper k = some u from hu]
      exact (Num.Is.sub (Num.is_fin _) (Num.is_fin _)).div (Num.is_fin _) (hs k).ne'
    have hd : A'.tn b k (truncLo A' start k) (truncHi A' start k) = (u - start k) / A.step k := by
      show badDraw B b k _ _ = _
      unfold badDraw
      rw [if_neg (by rintro ⟨h, -⟩; omega), if_neg, hI.rv_eq]
      intro e; rw [e] at hI; exact hI
    rw [e2.1, k1]
    unfold propose
    rw [hd]
    have h10 := k6 (by omega)
    have e : start k + y.2.factor * A'.step k * ((u - start k) / A.step k) = start k + y.2.factor * (u - start k) := by
      show start k + y.2.factor * A.step k * ((u - start k) / A.step k) = _
      have := (hs k).ne'
      field_simp
    rw [e]
    nlinarith
  obtain ⟨w, hw⟩ := loop_exists lp (A := A') hs hlu x0 (pyint A.iterations).toNat
  refine ⟨(w.1, w.2.trace), ?_, (z.2.pos, z.2.prob), ?_, ?_⟩
  · show (do
      let r := lp s start
      let x ← loop lp A' (r.1, { pos := start, prob := r.2 }) (pyint A.iterations).toNat
      pure (x.1, x.2.trace)) = _
    simp only [← hx0]
    rw [hw]; rfl
  · obtain ⟨j, hj⟩ : ∃ j, (pyint A.iterations).toNat = b + 1 + j := by
      rw [pyint_nonneg hi]
      exact ⟨⌊A.iterations⌋.toNat - (b + 1), by omega⟩
    rw [hj] at hw
    refine loop_trace hz2 hw _ ?_
    rw [e3, k5]; simp
  · intro hin
    exact absurd ((hin k).2 u hu) (not_le.2 hout)

example : ∃ (A : Args 1) (start : Fin 1 → ℝ) (u : ℝ), (∀ k, 0 < A.step k) ∧ (∀ k l u, A.lower k = some l → A.upper k = some u → l < u) ∧
    0 ≤ A.iterations ∧ 0 ≤ A.burn ∧ 200 ≤ skipped A.iterations A.burn ∧ skipped A.iterations A.burn + 2 ≤ ⌊A.iterations⌋ ∧
    InBounds A.lower A.upper start ∧ A.upper 0 = some u ∧ start 0 < u := by
  refine ⟨⟨fun _ => 1, fun _ => some 0, fun _ => some 90, 1e5, 0.1, fun _ _ _ _ => 0, fun _ => 0⟩, fun _ => 45, 90, fun _ => one_pos, ?_, by norm_num, by norm_num,
    ?_, ?_, ?_, rfl, by norm_num⟩
  · rintro k l u ⟨⟩ ⟨⟩; norm_num
  · norm_num [skipped]
  · norm_num [skipped]
  · intro k; simp; norm_num

/-! ### C62 -/

/-- The positions that are tried: the start and then the draws. -/
def Stat.tried {P : Type} (start : P) (draws : ℕ → P) : ℕ → P
  | 0 => start
  | i + 1 => draws i

theorem Stat.search_spec {σ P : Type} {Inv : σ → Prop} {lp : σ → P → σ × Num} {F : P → Num}
    (hF : ∀ s p, Inv s → Inv (lp s p).1 ∧ (lp s p).2 = F p) (draws : ℕ → P) (fuel : ℕ) : ∀ (s : σ) (start : P) (t : ℕ), Inv s →
    (search lp draws s start t fuel).2.2 ≤ t + fuel ∧ Inv (search lp draws s start t fuel).1 ∧
    ((search lp draws s start t fuel).2.2 = t + fuel ↔ ∀ i < fuel, (F (tried start (fun j => draws (t + j)) i)).IsInf) ∧
    (∀ i, t + i = (search lp draws s start t fuel).2.2 →
      (search lp draws s start t fuel).2.1 = tried start (fun j => draws (t + j)) i ∧ (i < fuel → ¬ (F (search lp draws s start t fuel).2.1).IsInf)) := by
  induction fuel with
  | zero =>
    intro s start t hs
    refine ⟨by simp [search], (hF s start hs).1, by simp [search], ?_⟩
    intro i hi
    simp only [search] at hi ⊢
    have : i = 0 := by omega
    subst this
    exact ⟨rfl, by omega⟩
  | succ fuel ih =>
    intro s start t hs
    simp only [search]
    rw [(hF s start hs).2]
    by_cases hc : (F start).IsInf
    · rw [if_pos hc]
      obtain ⟨h1, h2, h3, h4⟩ := ih (lp s start).1 (draws t) (t + 1) (hF s start hs).1
      have ht : ∀ i, tried (draws t) (fun j => draws (t + 1 + j)) i = tried start (fun j => draws (t + j)) (i + 1) := by
        intro i
        cases i with
        | zero => rfl
        | succ i => show draws (t + 1 + i) = draws (t + (i + 1)); congr 1; omega
      refine ⟨by omega, h2, ?_, ?_⟩
      · rw [show t + (fuel + 1) = t + 1 + fuel by omega, h3]
        constructor
        · intro h i hi
          cases i with
          | zero => exact hc
          | succ i => rw [← ht]; exact h i (by omega)
        · intro h i hi
          rw [ht]; exact h (i + 1) (by omega)
      · intro i hi
        have hge : t + 1 ≤ (search lp draws (lp s start).1 (draws t) (t + 1) fuel).2.2 := by
          have : ∀ fuel s p t, t ≤ (search lp draws s p t fuel).2.2 := by
            intro fuel
            induction fuel with
            | zero => intro s p t; simp [search]
            | succ f ih =>
              intro s p t
              simp only [search]
              split_ifs
              · exact le_trans (Nat.le_succ t) (ih _ _ (t + 1))
              · exact le_rfl
          exact this _ _ _ _
        cases i with
        | zero => omega
        | succ i =>
          obtain ⟨g1, g2⟩ := h4 i (by omega)
          exact ⟨by rw [g1, ht], fun h => g2 (by omega)⟩
    · rw [if_neg hc]
      refine ⟨by simp, (hF s start hs).1, ?_, ?_⟩
      · simp only
        constructor
        · intro h; omega
        · intro h; exact absurd (h 0 (by omega)) hc
      · intro i hi
        simp only at hi ⊢
        have : i = 0 := by omega
        subst this
        exact ⟨rfl, fun _ => hc⟩

/-- **C62** The search for a start raises ValueError exactly if the first 1000 positions (the given start and 999 draws)
all have an infinite log probability; otherwise it gives one of these with a finite one.
Missing: the 1000th draw, which is tried as well; log probabilities of `+inf` count as impossible. -/
theorem C62_start_search_partial {σ P : Type} {Inv : σ → Prop} {lp : σ → P → σ × Num} {F : P → Num}
    (hF : ∀ s p, Inv s → Inv (lp s p).1 ∧ (lp s p).2 = F p) (draws : ℕ → P) {s : σ} (hs : Inv s) (start : P) :
    (findStart lp draws s start = .error .valueError ↔ ∀ i < 1000, (F (tried start draws i)).IsInf) ∧
    ∀ s' p, findStart lp draws s start = .ok (s', p) → Inv s' ∧ ¬ (F p).IsInf ∧ ∃ i < 1000, p = tried start draws i := by
  obtain ⟨h1, h2, h3, h4⟩ := search_spec hF draws 1000 s start 0 hs
  simp only [zero_add] at h1 h3 h4
  unfold findStart
  constructor
  · rw [← h3]
    simp only
    split_ifs with hc
    · simp; omega
    · simp; omega
  · intro s' p h
    simp only at h
    split_ifs at h with hc
    simp only [Except.ok.injEq, Prod.mk.injEq] at h
    obtain ⟨rfl, rfl⟩ := h
    obtain ⟨g1, g2⟩ := h4 _ rfl
    push Not at hc
    exact ⟨h2, g2 hc, _, hc, g1⟩

example : ∃ (lp : Unit → ℝ → Unit × Num) (F : ℝ → Num), ∀ s p, True → True ∧ (lp s p).2 = F p :=
  ⟨fun _ p => ((), .fin p), fun p => .fin p, fun _ _ _ => ⟨trivial, rfl⟩⟩

/-- **C62** is violated: if the 1000th draw is the first possible position, the search has tried it (it has evaluated its
log probability last) and raises. -/
theorem C62_violated {σ P : Type} {Inv : σ → Prop} {lp : σ → P → σ × Num} {F : P → Num}
    (hF : ∀ s p, Inv s → Inv (lp s p).1 ∧ (lp s p).2 = F p) (draws : ℕ → P) {s : σ} (hs : Inv s) (start : P)
    (hbad : ∀ i < 1000, (F (tried start draws i)).IsInf) (hgood : ¬ (F (draws 999)).IsInf) :
    findStart lp draws s start = .error .valueError ∧ (search lp draws s start 0 1000).2.1 = draws 999 ∧
      ∃ s0, Inv s0 ∧ (search lp draws s start 0 1000).1 = (lp s0 (draws 999)).1 ∧ ¬ (lp s0 (draws 999)).2.IsInf := by
  refine ⟨(C62_start_search_partial hF draws hs start).1.2 hbad, ?_⟩
  obtain ⟨h1, h2, h3, h4⟩ := search_spec hF draws 1000 s start 0 hs
  simp only [zero_add] at h1 h3 h4
  refine ⟨(h4 1000 (h3.2 hbad).symm).1, ?_⟩
  have hlast : ∀ fuel s p t, Inv s → ∃ s0, Inv s0 ∧ (search lp draws s p t fuel).1 = (lp s0 (search lp draws s p t fuel).2.1).1 := by
    intro fuel
    induction fuel with
    | zero => intro s p t hs; exact ⟨s, hs, rfl⟩
    | succ f ih =>
      intro s p t hs
      simp only [search]
      split_ifs
      · exact ih _ _ _ (hF s p hs).1
      · exact ⟨s, hs, rfl⟩
  obtain ⟨s0, g1, g2⟩ := hlast 1000 s start 0 hs
  rw [(h4 1000 (h3.2 hbad).symm).1] at g2
  exact ⟨s0, g1, g2, by rw [(hF s0 _ g1).2]; exact hgood⟩

example : ∃ (F : ℕ → Num) (draws : ℕ → ℕ), (∀ i < 1000, (F (tried 0 draws i)).IsInf) ∧ ¬ (F (draws 999)).IsInf := by
  refine ⟨fun i => if i < 1000 then .ninf else .fin 0, fun i => i + 1, ?_, by simp [Num.IsInf]⟩
  intro i hi
  have : tried 0 (fun i => i + 1) i = i := by cases i <;> rfl
  rw [this]; simp only [if_pos hi]; trivial

/-! ### C63 -/

theorem Stat.npsum_total (xs : List Num) :
    (∀ rs : List ℝ, List.Forall₂ Num.Is xs rs → (npsum xs).Is rs.sum) ∧
    (.nan ∈ xs ∨ .pinf ∈ xs ∧ .ninf ∈ xs → npsum xs = .nan) ∧
    (.nan ∉ xs → .pinf ∈ xs → .ninf ∉ xs → npsum xs = .pinf) ∧
    (.nan ∉ xs → .ninf ∈ xs → .pinf ∉ xs → npsum xs = .ninf) ∧
    (.nan ∉ xs → .ninf ∉ xs → .pinf ∉ xs → ∃ r, (npsum xs).Is r) := by
  induction xs with
  | nil => refine ⟨?_, by simp, by simp, by simp, fun _ _ _ => ⟨0, rfl⟩⟩; intro rs h; cases h; rfl
  | cons x t ih =>
    obtain ⟨i1, i2, i3, i4, i5⟩ := ih
    refine ⟨?_, ?_, ?_, ?_, ?_⟩
    · intro rs h
      cases h with
      | cons h1 h2 => exact (h1.add (i1 _ h2))
    all_goals
      simp only [List.mem_cons, npsum]
      by_cases hn : Num.nan ∈ t <;> by_cases hp : Num.pinf ∈ t <;> by_cases hm : Num.ninf ∈ t <;>
        simp only [hn, hp, hm, not_true, not_false_iff, true_or, or_true, or_false, and_true, true_and, and_false,
          true_implies, false_implies, imp_self] at i2 i3 i4 i5 ⊢
      all_goals first
        | (rw [i2]; cases x <;> simp)
        | (rw [i3]; cases x <;> simp [show ∀ r, Num.fin r + Num.pinf = Num.pinf from fun _ => rfl, show Num.nzero + Num.pinf = Num.pinf from rfl,
            show Num.pinf + Num.pinf = Num.pinf from rfl, show Num.ninf + Num.pinf = Num.nan from rfl])
        | (rw [i4]; cases x <;> simp [show ∀ r, Num.fin r + Num.ninf = Num.ninf from fun _ => rfl, show Num.nzero + Num.ninf = Num.ninf from rfl,
            show Num.pinf + Num.ninf = Num.nan from rfl, show Num.ninf + Num.ninf = Num.ninf from rfl])
        | (obtain ⟨r, hr⟩ := i5
           cases x <;> generalize npsum t = y at * <;> cases y <;> simp_all [show ∀ r, Num.pinf + Num.fin r = Num.pinf from fun _ => rfl, show Num.pinf + Num.nzero = Num.pinf from rfl,
            show ∀ r, Num.ninf + Num.fin r = Num.ninf from fun _ => rfl, show Num.ninf + Num.nzero = Num.ninf from rfl] <;>
            first | trivial | exact ⟨_, (Num.is_fin _).add (Num.is_fin _)⟩ | exact ⟨0, rfl⟩)

theorem Stat.logProbability_total (xs : List Num) : IsTotal xs (logProbability xs) := by
  obtain ⟨h1, h2, h3, h4, -⟩ := npsum_total xs
  unfold logProbability
  refine ⟨?_, ?_, ?_, ?_⟩
  · intro rs h
    have := h1 rs h
    simp only [if_neg this.ne_nan]; exact this
  · intro h; simp only [h2 h, if_true]
  · intro a b c; simp [h3 a b c]
  · intro a b c; simp [h4 a b c]

/-- A number up to the sign of zero. -/
noncomputable def Stat.code : Num → ℝ × ℕ
  | .fin r => (r, 0)
  | .nzero => (0, 0)
  | .pinf => (0, 1)
  | .ninf => (0, 2)
  | .nan => (0, 3)

theorem Stat.add_def (a b : Num) : a + b = Num.add a b := rfl

theorem Stat.code_assoc (a b c : Num) : code (a + (b + c)) = code (a + b + c) := by
  cases a <;> cases b <;> cases c <;> simp [code, add_def, Num.add, Num.rv, add_assoc]

theorem Stat.code_congr {a b c : Num} (h : code b = code c) : code (a + b) = code (a + c) := by
  cases a <;> cases b <;> cases c <;> simp_all [code, add_def, Num.add, Num.rv]

theorem Stat.code_npsum (xs ys : List Num) : code (npsum (xs ++ ys)) = code (npsum xs + npsum ys) := by
  induction xs with
  | nil => simp only [List.nil_append, npsum]; cases npsum ys <;> simp [code, add_def, Num.add, Num.rv]
  | cons x t ih =>
    simp only [List.cons_append, npsum]
    rw [code_congr ih, code_assoc]

theorem Stat.code_is {a b : Num} (h : code a = code b) : (∀ r, a.Is r ↔ b.Is r) ∧ (a = .nan ↔ b = .nan) ∧ (a = .pinf ↔ b = .pinf) ∧ (a = .ninf ↔ b = .ninf) := by
  cases a <;> cases b <;> simp_all [code] <;> intro r <;> constructor <;> exact fun h => h.symm

theorem Stat.npsum_append (xs ys : List Num) : IsTotal (xs ++ ys) (let p := npsum xs + npsum ys; if p = .nan then .ninf else p) := by
  obtain ⟨h1, h2, h3, h4⟩ := logProbability_total (xs ++ ys)
  obtain ⟨c1, c2, c3, c4⟩ := code_is (code_npsum xs ys)
  unfold logProbability at h1 h2 h3 h4
  by_cases hn : npsum (xs ++ ys) = .nan
  · simp only [if_pos hn] at h1 h2 h3 h4
    simp only [if_pos (c2.1 hn)]
    exact ⟨h1, fun _ => rfl, h3, fun _ _ _ => rfl⟩
  · simp only [if_neg hn] at h1 h2 h3 h4
    simp only [if_neg fun h => hn (c2.2 h)]
    exact ⟨fun rs h => (c1 _).1 (h1 rs h), fun h => c4.1 (h2 h), fun a b c => c3.1 (h3 a b c), fun a b c => c4.1 (h4 a b c)⟩

/-- The calls so far leave the terms that are in effect. -/
theorem Stat.run_active {T : Type} (ops : List (TermOp T)) : ops.foldl TermOp.run [] = active ops := by
  induction ops using List.reverseRecOn with
  | nil => rfl
  | append_singleton t o ih =>
    rw [List.foldl_append, List.foldl_cons, List.foldl_nil, ih]
    cases o with
    | clear => simp [active, TermOp.run]
    | add x b => cases b <;> simp [active, TermOp.run, List.filterMap_append]

/-- **C63** After any calls of the functions that add or clear terms, `getLogProbability` of a camera is the total of the
terms in effect, and that of a group the total of its own terms in effect and of those of its cameras. -/
theorem C63_log_probability {T : Type} (eval : T → Num) (ops : List (TermOp T)) (camOps : List (List (TermOp T))) :
    IsTotal ((active ops).map eval) (logProbability ((ops.foldl TermOp.run []).map eval)) ∧
    IsTotal ((active ops).map eval ++ (camOps.flatMap fun o => (active o).map eval))
      (groupLogProbability ((ops.foldl TermOp.run []).map eval) (camOps.map fun o => (o.foldl TermOp.run []).map eval)) := by
  rw [run_active]
  refine ⟨logProbability_total _, ?_⟩
  have : (camOps.flatMap fun o => (active o).map eval) = (camOps.map fun o => (o.foldl TermOp.run []).map eval).flatten := by
    rw [List.flatMap_def]; simp only [run_active]
  rw [this]
  exact npsum_append _ _

example : active [TermOp.add 1 false, .clear, .add 2 false, .add 3 true, .add 4 false] = [2, 4] := rfl
