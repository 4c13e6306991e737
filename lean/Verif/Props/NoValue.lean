import Verif.Model.NoValue
import Verif.Props.Sampling

/-! # C145: a fit parameter without a value can be sampled -/

open Classical Stat

/-- **C145 violated.**  If a fit parameter has no value and the position with the given values, and the defaults of the others, is possible,
`metropolis` raises a TypeError. -/
theorem C145_violated {σ : Type} {n : ℕ} {lp : σ → (Fin n → Option ℝ) → σ × Num} (A : Args n) (hi : 1 ≤ A.iterations) (draws : ℕ → Fin n → ℝ)
    (s : σ) {start : Fin n → Option ℝ} (hnone : ∃ k, start k = none) (hpos : ¬ (lp s start).2.IsInf) :
    sampleOpt lp A draws s start = .error .typeError := by
  have h0 : ¬ (pyint A.iterations).toNat = 0 := by
    rw [pyint_nonneg (by linarith)]
    have : (1 : ℤ) ≤ ⌊A.iterations⌋ := Int.le_floor.2 (by exact_mod_cast hi)
    omega
  simp only [sampleOpt, findStart_first _ hpos, bind, Except.bind, metropolisOpt]
  rw [if_pos hnone, if_neg h0]

/-- **C145, partial.**  If that position is impossible, the start is drawn: the run is that from the first possible one of the first 999
draws. -/
theorem C145_drawn_partial {σ : Type} {n : ℕ} {Inv : σ → Prop} {lp : σ → (Fin n → Option ℝ) → σ × Num} {F : (Fin n → Option ℝ) → Num}
    (hF : ∀ s p, Inv s → Inv (lp s p).1 ∧ (lp s p).2 = F p) (A : Args n) (draws : ℕ → Fin n → ℝ) {s : σ} (hs : Inv s)
    {start : Fin n → Option ℝ} (hbad : (F start).IsInf) {j : ℕ} (hj : j < 999) (hgood : ¬ (F fun k => some (draws j k)).IsInf)
    (hfirst : ∀ i < j, (F fun k => some (draws i k)).IsInf) :
    ∃ s', Inv s' ∧ sampleOpt lp A draws s start = metropolis (fun s pos => lp s fun k => some (pos k)) A s' (draws j) := by
  have key : ∀ m t s p fuel, Inv s → m < fuel → (∀ i < m, (F (tried p (fun i k => some (draws (t + i) k)) i)).IsInf) →
      ¬ (F (tried p (fun i k => some (draws (t + i) k)) m)).IsInf →
      ∃ s', Inv s' ∧ search lp (fun j k => some (draws j k)) s p t fuel = (s', tried p (fun i k => some (draws (t + i) k)) m, t + m) := by
    intro m
    induction m with
    | zero =>
      intro t s p fuel hs hm _ hg
      obtain ⟨f, rfl⟩ := Nat.exists_eq_succ_of_ne_zero (by omega : fuel ≠ 0)
      refine ⟨(lp s p).1, (hF s p hs).1, ?_⟩
      have : ¬ (lp s p).2.IsInf := by rw [(hF s p hs).2]; exact hg
      simp only [search, if_neg this, tried, add_zero]
    | succ m ih =>
      intro t s p fuel hs hm hb hg
      obtain ⟨f, rfl⟩ := Nat.exists_eq_succ_of_ne_zero (by omega : fuel ≠ 0)
      have h1 : (lp s p).2.IsInf := by rw [(hF s p hs).2]; exact hb 0 (by omega)
      have ht : ∀ i, tried (fun k => some (draws t k)) (fun i k => some (draws (t + 1 + i) k)) i = tried p (fun i k => some (draws (t + i) k)) (i + 1) := by
        intro i
        cases i with
        | zero => simp [tried]
        | succ i => simp only [tried]; rw [show t + 1 + i = t + (i + 1) by ring]
      obtain ⟨s', h2, h3⟩ := ih (t + 1) (lp s p).1 (fun k => some (draws t k)) f (hF s p hs).1 (by omega)
        (fun i hi => by rw [ht]; exact hb (i + 1) (by omega)) (by rw [ht]; exact hg)
      refine ⟨s', h2, ?_⟩
      simp only [search, if_pos h1]
      rw [h3, ht, show t + 1 + m = t + (m + 1) by ring]
  obtain ⟨s', h1, h2⟩ := key (j + 1) 0 s start 1000 hs (by omega)
    (fun i hi => by
      cases i with
      | zero => exact hbad
      | succ i => simpa [tried] using hfirst i (by omega))
    (by simpa [tried] using hgood)
  refine ⟨s', h1, ?_⟩
  have h3 : findStart lp (fun j k => some (draws j k)) s start = .ok (s', fun k => some (draws j k)) := by
    unfold findStart
    simp only [h2, zero_add, tried]
    rw [if_neg (by omega)]
  simp only [sampleOpt, h3, bind, Except.bind, metropolisOpt]
  rw [if_neg (by simp)]
  simp

/-- Both cases exist: a probability that is one everywhere, and one that is zero at the defaults only. -/
example : ∃ lp : Unit → (Fin 1 → Option ℝ) → Unit × Num, ¬ (lp () fun _ => none).2.IsInf := ⟨fun _ _ => ((), .fin 0), by simp [Num.IsInf]⟩

example : ∃ (F : (Fin 1 → Option ℝ) → Num) (lp : Unit → (Fin 1 → Option ℝ) → Unit × Num),
    (∀ s p, True → True ∧ (lp s p).2 = F p) ∧ (F fun _ => none).IsInf ∧ ¬ (F fun _ => some 1).IsInf :=
  ⟨fun p => if p 0 = none then .ninf else .fin 0, fun _ p => ((), if p 0 = none then .ninf else .fin 0), fun _ _ _ => ⟨trivial, rfl⟩,
    by simp [Num.IsInf], by simp [Num.IsInf]⟩
