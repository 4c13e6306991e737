import Verif.Spec.Tuning
import Verif.Props.Statistic

/-! # Tuning of the step size of the sampler -/

set_option linter.constructorNameAsVariable false

open Classical

namespace Stat

/-- The counters after an iteration and the scale factor. -/
theorem iter_counts {σ : Type} {n : ℕ} {lp : σ → (Fin n → ℝ) → σ × Num} {A : Args n} {i : ℕ} {x y : σ × Chain n} (h : iter lp A i x = .ok y) :
    let a := x.2.accepted + if Accept x.2.prob (lp x.1 (propose A i x.2.factor x.2.pos)).2 (A.u i) then 1 else 0
    let r := x.2.rejected + if Accept x.2.prob (lp x.1 (propose A i x.2.factor x.2.pos)).2 (A.u i) then 0 else 1
    if (i : ℤ) > effBurn A.iterations A.burn ∨ ¬ (i > 100 ∧ i % 100 = 0) then
      y.2.accepted = a ∧ y.2.rejected = r ∧ y.2.factor = x.2.factor
    else y.2.accepted = 0 ∧ y.2.rejected = 0 ∧ y.2.factor = adapt ((a : ℝ) / ((a : ℝ) + (r : ℝ))) x.2.factor := by
  unfold iter at h
  simp only at h
  split at h
  · cases h
  · simp only [Except.ok.injEq] at h
    subst h
    by_cases ha : Accept x.2.prob (lp x.1 (propose A i x.2.factor x.2.pos)).2 (A.u i)
    · simp only [if_pos ha]
      split_ifs <;> simp_all
    · simp only [if_neg ha]
      split_ifs <;> simp_all

theorem adapt_tuned (rate f : ℝ) : Tuned rate f (adapt rate f) := by
  unfold adapt Tuned
  norm_num only
  refine ⟨?_, ?_, ?_, ?_, ?_, ?_, ?_⟩ <;> intros <;> split_ifs <;> first | (exfalso; linarith) | linarith

/-- The first iteration that is counted before iteration `i`. -/
def since (i : ℕ) : ℕ := if i ≤ 200 then 0 else 100 * ((i - 1) / 100) + 1

theorem since_succ {i : ℕ} (h : i > 100 ∧ i % 100 = 0) : since (i + 1) = i + 1 := by
  unfold since
  split_ifs <;> omega

theorem since_keep {i : ℕ} (h : ¬ (i > 100 ∧ i % 100 = 0)) : since (i + 1) = since i := by
  unfold since
  split_ifs <;> omega

theorem since_le (i : ℕ) : since i ≤ i := by
  unfold since
  split_ifs <;> omega

theorem window_eq {i : ℕ} (h : i > 100 ∧ i % 100 = 0) : window i = Finset.Ico (since i) (i + 1) := by
  ext j
  unfold window since
  split_ifs <;> simp <;> omega

theorem count_succ (acc : ℕ → Prop) [DecidablePred acc] {a b : ℕ} (h : a ≤ b) :
    ((Finset.Ico a (b + 1)).filter acc).card = ((Finset.Ico a b).filter acc).card + if acc b then 1 else 0 := by
  rw [show Finset.Ico a (b + 1) = insert b (Finset.Ico a b) from (Finset.insert_Ico_right_eq_Ico_add_one h).symm, Finset.filter_insert]
  split_ifs with hb
  · rw [Finset.card_insert_of_notMem (by simp)]
  · rfl

/-- The counters count the outcomes since the last tuning. -/
theorem counts {σ : Type} {n : ℕ} {lp : σ → (Fin n → ℝ) → σ × Num} {A : Args n} {N : ℕ} {y : ℕ → σ × Chain n} {x : σ × Chain n}
    (h : ∀ j ≤ N, loop lp A x j = .ok (y j)) (ha : x.2.accepted = 0) (hr : x.2.rejected = 0) {i : ℕ} (hi : i ≤ N)
    (hb : (i : ℤ) ≤ effBurn A.iterations A.burn + 1) {acc : ℕ → Prop}
    (hacc : ∀ j < N, acc j ↔ Accept (y j).2.prob (lp (y j).1 (propose A j (y j).2.factor (y j).2.pos)).2 (A.u j)) :
    (y i).2.accepted = ((Finset.Ico (since i) i).filter acc).card ∧
    (y i).2.rejected = ((Finset.Ico (since i) i).filter fun j => ¬ acc j).card := by
  induction i with
  | zero =>
    have h0 := h 0 (Nat.zero_le _)
    simp only [loop, Except.ok.injEq] at h0
    rw [← h0, ha, hr]; simp
  | succ i ih =>
    obtain ⟨ia, ir⟩ := ih (by omega) (by push_cast at hb ⊢; omega)
    obtain ⟨z, hz, hs⟩ := loop_succ (h (i + 1) hi)
    rw [h i (by omega)] at hz
    cases hz
    have hc := iter_counts hs
    simp only at hc
    rw [← hacc i (by omega)] at hc
    by_cases ht : i > 100 ∧ i % 100 = 0
    · rw [if_neg (by push Not; exact ⟨by push_cast at hb; omega, ht⟩)] at hc
      rw [hc.1, hc.2.1, since_succ ht]; simp
    · rw [if_pos (Or.inr ht)] at hc
      rw [hc.1, hc.2.1, since_keep ht, count_succ _ (since_le i), count_succ _ (since_le i), ia, ir]
      by_cases h : acc i <;> simp [h]

end Stat

open Stat

/-- **C123** The tuning of the step size: up to the end of the burn-in phase, every hundredth iteration from the 200th on
changes the scale factor according to the part of the proposals that was accepted since the last change; no other
iteration changes it, so all steps after the burn-in phase have one scale. -/
theorem C123_tuning {σ : Type} {n : ℕ} {lp : σ → (Fin n → ℝ) → σ × Num} {A : Args n} {s : σ} {start : Fin n → ℝ} {N : ℕ}
    {y : ℕ → σ × Chain n} (h : ∀ j ≤ N, loop lp A ((lp s start).1, { pos := start, prob := (lp s start).2 }) j = .ok (y j))
    {acc : ℕ → Prop} (hacc : ∀ j < N, acc j ↔ Accept (y j).2.prob (lp (y j).1 (propose A j (y j).2.factor (y j).2.pos)).2 (A.u j)) :
    (y 0).2.factor = 1 ∧
    (∀ i < N, 200 ≤ i → 100 ∣ i → (i : ℤ) ≤ effBurn A.iterations A.burn →
      Tuned (part acc (window i)) (y i).2.factor (y (i + 1)).2.factor) ∧
    (∀ i < N, ¬ (200 ≤ i ∧ 100 ∣ i ∧ (i : ℤ) ≤ effBurn A.iterations A.burn) → (y (i + 1)).2.factor = (y i).2.factor) := by
  refine ⟨?_, ?_, ?_⟩
  · have h0 := h 0 (Nat.zero_le _)
    simp only [loop, Except.ok.injEq] at h0
    rw [← h0]
  · intro i hi h2 hd hb
    have ht : i > 100 ∧ i % 100 = 0 := ⟨by omega, Nat.mod_eq_zero_of_dvd hd⟩
    obtain ⟨ia, ir⟩ := counts h rfl rfl hi.le (by omega) hacc
    obtain ⟨z, hz, hs⟩ := loop_succ (h (i + 1) hi)
    rw [h i hi.le] at hz
    cases hz
    have hc := iter_counts hs
    simp only at hc
    rw [← hacc i hi, if_neg (by push Not; exact ⟨hb, ht⟩)] at hc
    have e := hc.2.2
    rw [ia, ir] at e
    have e1 := count_succ acc (since_le i)
    have e2 : ((Finset.Ico (since i) (i + 1)).filter fun j => ¬ acc j).card = ((Finset.Ico (since i) i).filter fun j => ¬ acc j).card + if acc i then 0 else 1 := by
      rw [count_succ (fun j => ¬ acc j) (since_le i)]
      by_cases h : acc i <;> simp [h]
    rw [← e1, ← e2] at e
    have e3 : (part acc (window i)) = (((Finset.Ico (since i) (i + 1)).filter acc).card : ℝ) / ((((Finset.Ico (since i) (i + 1)).filter acc).card : ℝ) +
        (((Finset.Ico (since i) (i + 1)).filter fun j => ¬ acc j).card : ℝ)) := by
      unfold part
      rw [window_eq ht]
      congr 1
      rw [← Finset.card_filter_add_card_filter_not (s := Finset.Ico (since i) (i + 1)) acc]
      push_cast; rfl
    rw [e3, e]
    exact adapt_tuned _ _
  · intro i hi hn
    obtain ⟨z, hz, hs⟩ := loop_succ (h (i + 1) hi)
    rw [h i hi.le] at hz
    cases hz
    obtain ⟨-, -, -, -, hf, -⟩ := iter_ok hs
    apply hf
    by_contra hcon
    push Not at hcon
    exact hn ⟨by omega, Nat.dvd_of_mod_eq_zero hcon.2.2, hcon.1⟩

/-- **C123** One tuning step makes the steps smaller if at most a fifth of the proposals was accepted, larger if more than
half, and keeps them else; the scale factor stays positive. -/
theorem C123_direction {rate f f' : ℝ} (h : Tuned rate f f') (hf : 0 < f) :
    (f' < f ↔ rate < 1 / 5) ∧ (f < f' ↔ 1 / 2 < rate) ∧ 0 < f' := by
  obtain ⟨h1, h2, h3, h4, h5, h6, h7⟩ := h
  rcases lt_or_ge rate (1 / 1000) with a | a
  · have := h1 a; subst this; exact ⟨⟨fun _ => by linarith, fun _ => by linarith⟩, ⟨fun _ => by linarith, fun _ => by linarith⟩, by linarith⟩
  rcases lt_or_ge rate (1 / 20) with b | b
  · have := h2 a b; subst this; exact ⟨⟨fun _ => by linarith, fun _ => by linarith⟩, ⟨fun _ => by linarith, fun _ => by linarith⟩, by linarith⟩
  rcases lt_or_ge rate (1 / 5) with c | c
  · have := h3 b c; subst this; exact ⟨⟨fun _ => by linarith, fun _ => by linarith⟩, ⟨fun _ => by linarith, fun _ => by linarith⟩, by linarith⟩
  rcases le_or_gt rate (1 / 2) with d | d
  · have := h4 c d; subst this; exact ⟨⟨fun _ => by linarith, fun _ => by linarith⟩, ⟨fun _ => by linarith, fun _ => by linarith⟩, by linarith⟩
  rcases le_or_gt rate (3 / 4) with e | e
  · have := h5 d e; subst this; exact ⟨⟨fun _ => by linarith, fun _ => by linarith⟩, ⟨fun _ => by linarith, fun _ => by linarith⟩, by linarith⟩
  rcases le_or_gt rate (19 / 20) with g | g
  · have := h6 e g; subst this; exact ⟨⟨fun _ => by linarith, fun _ => by linarith⟩, ⟨fun _ => by linarith, fun _ => by linarith⟩, by linarith⟩
  · have := h7 g; subst this; exact ⟨⟨fun _ => by linarith, fun _ => by linarith⟩, ⟨fun _ => by linarith, fun _ => by linarith⟩, by linarith⟩

/-- A run of `metropolis` has all its intermediate states. -/
theorem Stat.states {σ : Type} {n : ℕ} {lp : σ → (Fin n → ℝ) → σ × Num} {A : Args n} {x z : σ × Chain n} {N : ℕ}
    (h : loop lp A x N = .ok z) : ∃ y : ℕ → σ × Chain n, ∀ j ≤ N, loop lp A x j = .ok (y j) := by
  induction N generalizing z with
  | zero => exact ⟨fun _ => z, fun j hj => by obtain rfl : j = 0 := by omega
                                              exact h⟩
  | succ N ih =>
    obtain ⟨w, hw, -⟩ := loop_succ h
    obtain ⟨y, hy⟩ := ih hw
    refine ⟨fun j => if j = N + 1 then z else y j, fun j hj => ?_⟩
    by_cases e : j = N + 1
    · subst e; simpa using h
    · simpa [e] using hy j (by omega)

/-- The hypotheses of `C123_tuning` hold for the intermediate states of every run of `metropolis`, in particular of one with
1000 iterations of which the first 500 are the burn-in phase. -/
example : ∃ (lp : Unit → (Fin 2 → ℝ) → Unit × Num) (A : Args 2) (y : ℕ → Unit × Chain 2) (acc : ℕ → Prop),
    effBurn A.iterations A.burn = 500 ∧
    (∀ j ≤ 1000, loop lp A ((lp () fun _ => 0).1, { pos := fun _ => 0, prob := (lp () fun _ => 0).2 }) j = .ok (y j)) ∧
    ∀ j < 1000, acc j ↔ Accept (y j).2.prob (lp (y j).1 (propose A j (y j).2.factor (y j).2.pos)).2 (A.u j) := by
  obtain ⟨r, hr⟩ := free_ok (fun (_ : Unit) (p : Fin 2 → ℝ) => ((), Num.fin (p 0))) ⟨fun _ => 1, fun _ => none, fun _ => none, 1000, 0.5, fun _ _ _ _ => 0, fun _ => 0⟩
    (fun _ => rfl) (fun _ => rfl) (fun _ => one_pos) () (fun _ => 0)
  obtain ⟨c, hc, -⟩ := metropolis_ok hr
  obtain ⟨y, hy⟩ := states hc
  refine ⟨_, _, y, _, ?_, fun j hj => hy j ?_, fun j _ => Iff.rfl⟩
  · norm_num [effBurn, pyint]
  · refine hj.trans ?_
    norm_num [pyint]

example : Tuned (1 / 10) 1 (9 / 10) := by unfold Tuned; norm_num
example : (0 : ℝ) < 1 := one_pos
