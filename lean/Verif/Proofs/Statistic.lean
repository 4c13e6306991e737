import Verif.Spec.Statistic
import Verif.Proofs.Num

/-! Helper lemmas about the Metropolis loop. -/

set_option linter.constructorNameAsVariable false

open Classical

theorem Num.le_def {x y : Num} : x ≤ y ↔ x ≠ .nan ∧ y ≠ .nan ∧ Num.ext x ≤ Num.ext y := Iff.rfl

namespace Stat

variable {σ : Type} {n : ℕ}

theorem bind_ok {α β ε : Type} {x : Except ε α} {f : α → Except ε β} {y : β} (h : x.bind f = .ok y) : ∃ a, x = .ok a ∧ f a = .ok y := by
  cases x with
  | error e => cases h
  | ok a => exact ⟨a, rfl, h⟩

theorem loop_succ {lp : σ → (Fin n → ℝ) → σ × Num} {A : Args n} {x y : σ × Chain n} {i : ℕ} (h : loop lp A x (i + 1) = .ok y) :
    ∃ z, loop lp A x i = .ok z ∧ iter lp A i z = .ok y := bind_ok h

theorem metropolis_ok {lp : σ → (Fin n → ℝ) → σ × Num} {A : Args n} {s s' : σ} {start : Fin n → ℝ} {tr : List ((Fin n → ℝ) × Num)}
    (h : metropolis lp A s start = .ok (s', tr)) :
    ∃ c, loop lp A ((lp s start).1, { pos := start, prob := (lp s start).2 }) (pyint A.iterations).toNat = .ok (s', c) ∧ c.trace = tr := by
  obtain ⟨x, h1, h2⟩ := bind_ok h
  simp only [pure, Except.pure, Except.ok.injEq, Prod.mk.injEq] at h2
  obtain ⟨rfl, rfl⟩ := h2
  exact ⟨x.2, h1, rfl⟩

/-- What an iteration does. -/
theorem iter_ok {lp : σ → (Fin n → ℝ) → σ × Num} {A : Args n} {i : ℕ} {x y : σ × Chain n} (h : iter lp A i x = .ok y) :
    (∀ k, truncLo A x.2.pos k < truncHi A x.2.pos k) ∧
    y.1 = (lp x.1 (propose A i x.2.factor x.2.pos)).1 ∧
    (if Accept x.2.prob (lp x.1 (propose A i x.2.factor x.2.pos)).2 (A.u i) then
      y.2.pos = propose A i x.2.factor x.2.pos ∧ y.2.prob = (lp x.1 (propose A i x.2.factor x.2.pos)).2
      else y.2.pos = x.2.pos ∧ y.2.prob = x.2.prob) ∧
    (y.2.trace = if (i : ℤ) > effBurn A.iterations A.burn then x.2.trace ++ [(y.2.pos, y.2.prob)] else x.2.trace) ∧
    ((i : ℤ) > effBurn A.iterations A.burn ∨ ¬ (i > 100 ∧ i % 100 = 0) → y.2.factor = x.2.factor) ∧
    (Accept x.2.prob (lp x.1 (propose A i x.2.factor x.2.pos)).2 (A.u i) →
      if (i : ℤ) > effBurn A.iterations A.burn ∨ ¬ (i > 100 ∧ i % 100 = 0) then
        y.2.accepted = x.2.accepted + 1 ∧ y.2.rejected = x.2.rejected
      else y.2.factor = adapt ((x.2.accepted + 1 : ℕ) / ((x.2.accepted + 1 : ℕ) + x.2.rejected)) x.2.factor ∧
        y.2.accepted = 0 ∧ y.2.rejected = 0) := by
  unfold iter at h
  simp only at h
  split at h
  · cases h
  · rename_i hk
    push Not at hk
    simp only [Except.ok.injEq] at h
    subst h
    refine ⟨hk, rfl, ?_, ?_, ?_, ?_⟩
    · split_ifs <;> simp
    · split_ifs <;> simp
    · intro hc
      split_ifs <;> simp_all
    · intro ha
      simp only [if_pos ha]
      split_ifs <;> simp_all

end Stat
