import Verif.Spec.Balance
import Verif.Props.Statistic
import Mathlib.Analysis.SpecialFunctions.Gaussian.GaussianIntegral

/-! # The random walk as a Markov chain -/

set_option linter.constructorNameAsVariable false

open Classical Stat MeasureTheory

namespace Stat

theorem exp_is {x : Num} {r : ℝ} (h : x.Is r) : x.exp.Is (Real.exp r) := by
  cases x with
  | fin y => rw [show y = r from h]; exact Num.is_fin _
  | nzero =>
    have : r = 0 := h
    rw [this, Real.exp_zero]; exact Num.is_fin _
  | _ => exact h.elim

theorem accept_iff {last next : Num} {a b : ℝ} (ha : last.Is a) (hb : next.Is b) (u : ℝ) : Accept last next u ↔ a ≤ b ∨ u < Real.exp (b - a) := by
  have h1 : ¬ (next.IsInf ∧ last.IsInf) := by
    rintro ⟨h, -⟩
    cases next <;> first | exact h | exact hb
  have hs : (next - last).Is (b - a) := hb.sub ha
  unfold Accept
  simp only [if_neg h1]
  rw [(Num.is_fin 0).le_iff hs, (Num.is_fin u).lt_iff (exp_is hs)]
  simp

theorem acceptProb_eq {last next : Num} {a b : ℝ} (ha : last.Is a) (hb : next.Is b) : acceptProb last next = min 1 (Real.exp (b - a)) := by
  have h : {u : ℝ | u ∈ Set.Ico (0 : ℝ) 1 ∧ Accept last next u} = Set.Ico 0 (min 1 (Real.exp (b - a))) := by
    ext u
    simp only [Set.mem_ofPred_eq, Set.mem_Ico, accept_iff ha hb, lt_min_iff]
    constructor
    · rintro ⟨⟨h0, h1⟩, h | h⟩
      · exact ⟨h0, h1, h1.trans_le (Real.one_le_exp (by linarith))⟩
      · exact ⟨h0, h1, h⟩
    · rintro ⟨h0, h1, h⟩
      exact ⟨⟨h0, h1⟩, Or.inr h⟩
  unfold acceptProb
  rw [h, Real.volume_Ico, sub_zero, ENNReal.toReal_ofReal (le_min zero_le_one (Real.exp_pos _).le)]

theorem exp_balance (a b : ℝ) : Real.exp a * min 1 (Real.exp (b - a)) = Real.exp b * min 1 (Real.exp (a - b)) := by
  have h : ∀ a b : ℝ, Real.exp a * min 1 (Real.exp (b - a)) = min (Real.exp a) (Real.exp b) := by
    intro a b
    rw [mul_min_of_nonneg _ _ (Real.exp_pos a).le, mul_one, ← Real.exp_add]
    congr 2; ring
  rw [h, h, min_comm]

theorem trunc_iff {n : ℕ} {A : Args n} (hs : ∀ k, 0 < A.step k) (x : Fin n → ℝ) (k : Fin n) (t : ℝ) :
    (truncLo A x k ≤ .fin t ∧ .fin t ≤ truncHi A x k) ↔
      (∀ l, A.lower k = some l → l ≤ x k + A.step k * t) ∧ ∀ u, A.upper k = some u → x k + A.step k * t ≤ u := by
  have hk := hs k
  refine and_congr ?_ ?_
  · cases h : A.lower k with
    | none =>
      have hne : ¬ A.step k < 0 := not_lt.2 hk.le
      have e : truncLo A x k = .ninf := by
        have : (Num.ninf - Num.fin (x k)) = .ninf := by
          show Num.add _ (Num.neg _) = _
          unfold Num.neg; simp only; split_ifs <;> rfl
        unfold truncLo lo; rw [h]; simp only; rw [this]
        show Num.div _ _ = _
        simp [Num.div, Num.IsInf, Num.signbit, Num.signedInf, hne]
      rw [e]
      simp only [reduceCtorEq, false_implies, implies_true, iff_true]
      exact ⟨by simp, by simp, by simp [Num.ext]⟩
    | some l =>
      have : (truncLo A x k).Is ((l - x k) / A.step k) := by
        unfold truncLo lo; rw [h]
        exact (Num.Is.sub (Num.is_fin _) (Num.is_fin _)).div (Num.is_fin _) hk.ne'
      rw [this.le_iff (Num.is_fin t), div_le_iff₀ hk]
      constructor
      · rintro g l' ⟨⟩; linarith
      · intro g; have := g l rfl; linarith
  · cases h : A.upper k with
    | none =>
      have hne : ¬ A.step k < 0 := not_lt.2 hk.le
      have e : truncHi A x k = .pinf := by
        have : (Num.pinf - Num.fin (x k)) = .pinf := by
          show Num.add _ (Num.neg _) = _
          unfold Num.neg; simp only; split_ifs <;> rfl
        unfold truncHi hi; rw [h]; simp only; rw [this]
        show Num.div _ _ = _
        simp [Num.div, Num.IsInf, Num.signbit, Num.signedInf, hne]
      rw [e]
      simp only [reduceCtorEq, false_implies, implies_true, iff_true]
      exact ⟨by simp, by simp, by simp [Num.ext]⟩
    | some l =>
      have : (truncHi A x k).Is ((l - x k) / A.step k) := by
        unfold truncHi hi; rw [h]
        exact (Num.Is.sub (Num.is_fin _) (Num.is_fin _)).div (Num.is_fin _) hk.ne'
      rw [(Num.is_fin t).le_iff this, le_div_iff₀ hk]
      constructor
      · rintro g l' ⟨⟩; linarith
      · intro g; have := g l rfl; linarith

theorem gaussMass_eq {n : ℕ} {A : Args n} (hs : ∀ k, 0 < A.step k) (x : Fin n → ℝ) (k : Fin n) :
    gaussMass (truncLo A x k) (truncHi A x k) = stayMass (A.lower k) (A.upper k) (A.step k) (x k) := by
  unfold gaussMass stayMass
  have : {t : ℝ | truncLo A x k ≤ .fin t ∧ .fin t ≤ truncHi A x k} =
      {t : ℝ | (∀ l, A.lower k = some l → l ≤ x k + A.step k * t) ∧ ∀ u, A.upper k = some u → x k + A.step k * t ≤ u} := by
    ext t; exact trunc_iff hs x k t
  rw [this]

theorem gauss_integrable : Integrable fun t : ℝ => Real.exp (-(t ^ 2) / 2) := by
  have := integrable_exp_neg_mul_sq (b := 1 / 2) (by norm_num)
  refine this.congr (Filter.Eventually.of_forall fun t => ?_)
  simp only
  congr 1; ring

/-- Integrals of the normal density over sets that contain an interval are positive. -/
theorem gauss_pos {S : Set ℝ} {p q : ℝ} (hpq : p < q) (h : Set.Ioo p q ⊆ S) : 0 < ∫ t in S, Real.exp (-(t ^ 2) / 2) := by
  rw [setIntegral_pos_iff_support_of_nonneg_ae (Filter.Eventually.of_forall fun t => (Real.exp_pos _).le) gauss_integrable.integrableOn]
  have : Function.support (fun t : ℝ => Real.exp (-(t ^ 2) / 2)) = Set.univ := by
    ext t; simp [Real.exp_ne_zero]
  rw [this, Set.univ_inter]
  refine lt_of_lt_of_le ?_ (measure_mono h)
  rw [Real.volume_Ioo]
  simpa using hpq

theorem stayMass_pos {lower upper : Option ℝ} {s x : ℝ} (hs : 0 < s) (hlu : ∀ l u, lower = some l → upper = some u → l < u) : 0 < stayMass lower upper s x := by
  unfold stayMass
  have e : ∀ l, x + s * ((l - x) / s) = l := by intro l; field_simp; ring
  have hm : ∀ {a b}, a < b → x + s * a < x + s * b := fun h => by nlinarith
  cases lower with
  | none => cases upper with
    | none => exact gauss_pos (p := 0) (q := 1) one_pos (fun t _ => by simp)
    | some u =>
      refine gauss_pos (p := (u - x) / s - 1) (q := (u - x) / s) (by linarith) (fun t ht => ⟨by simp, ?_⟩)
      rintro u' ⟨⟩
      have := hm ht.2; rw [e] at this; exact this.le
  | some l => cases upper with
    | none =>
      refine gauss_pos (p := (l - x) / s) (q := (l - x) / s + 1) (by linarith) (fun t ht => ⟨?_, by simp⟩)
      rintro l' ⟨⟩
      have := hm ht.1; rw [e] at this; exact this.le
    | some u =>
      have hlt : (l - x) / s < (u - x) / s := (div_lt_div_iff_of_pos_right hs).2 (by have := hlu l u rfl rfl; linarith)
      refine gauss_pos hlt (fun t ht => ⟨?_, ?_⟩)
      · rintro l' ⟨⟩
        have := hm ht.1; rw [e] at this; exact this.le
      · rintro u' ⟨⟩
        have := hm ht.2; rw [e] at this; exact this.le

/-- The density of a proposal inside the bounds. -/
theorem proposal_eq {n : ℕ} {A : Args n} (hs : ∀ k, 0 < A.step k) (x y : Fin n → ℝ) (hy : InBounds A.lower A.upper y) :
    proposalDensity A 1 x y = (∏ k, Real.exp (-(((y k - x k) / A.step k) ^ 2) / 2) / A.step k) / ∏ k, stayMass (A.lower k) (A.upper k) (A.step k) (x k) := by
  unfold proposalDensity
  rw [← Finset.prod_div_distrib]
  refine Finset.prod_congr rfl fun k _ => ?_
  have hk := hs k
  unfold truncDensity
  rw [one_mul, if_pos, gaussMass_eq hs]
  · rw [div_right_comm]
  · rw [trunc_iff hs]
    have : x k + A.step k * ((y k - x k) / A.step k) = y k := by field_simp; ring
    rw [this]
    exact hy k

theorem kernel_symm {n : ℕ} (A : Args n) (x y : Fin n → ℝ) :
    (∏ k, Real.exp (-(((y k - x k) / A.step k) ^ 2) / 2) / A.step k) = ∏ k, Real.exp (-(((x k - y k) / A.step k) ^ 2) / 2) / A.step k := by
  refine Finset.prod_congr rfl fun k _ => ?_
  have : ((y k - x k) / A.step k) ^ 2 = ((x k - y k) / A.step k) ^ 2 := by rw [← neg_sub, neg_div, neg_sq]
  rw [this]

end Stat

/-- **C119** The acceptance rule of Metropolis: a proposal is accepted with probability min(1, p'/p), where p'/p is the ratio
of the probabilities. -/
theorem C119_acceptance {last next : Num} {a b : ℝ} (ha : last.Is a) (hb : next.Is b) :
    acceptProb last next = min 1 (Real.exp b / Real.exp a) := by
  rw [acceptProb_eq ha hb, Real.exp_sub]

example : ∃ (last next : Num) (a b : ℝ), last.Is a ∧ next.Is b ∧ b < a := ⟨.fin 2, .fin 1, 2, 1, Num.is_fin _, Num.is_fin _, by norm_num⟩

/-- **C119** Without bounds the chain is in detailed balance with the probability, so it samples from it, for every scale
factor.  Missing: parameters with bounds. -/
theorem C119_balance_partial {n : ℕ} {A : Args n} (hs : ∀ k, 0 < A.step k) (hl : ∀ k, A.lower k = none) (hu : ∀ k, A.upper k = none)
    {factor : ℝ} {P : (Fin n → ℝ) → Num} {x y : Fin n → ℝ} {a b : ℝ} (ha : (P x).Is a) (hb : (P y).Is b) :
    Real.exp a * moveDensity A factor P x y = Real.exp b * moveDensity A factor P y x := by
  unfold moveDensity
  have hq : proposalDensity A factor x y = proposalDensity A factor y x := by
    unfold proposalDensity
    refine Finset.prod_congr rfl fun k _ => ?_
    congr 1
    unfold truncDensity
    rw [gaussMass_eq hs, gaussMass_eq hs, hl, hu, if_pos, if_pos]
    · have : ((y k - x k) / (factor * A.step k)) ^ 2 = ((x k - y k) / (factor * A.step k)) ^ 2 := by rw [← neg_sub, neg_div, neg_sq]
      rw [this]
      congr 1
      unfold stayMass; simp
    · rw [trunc_iff hs, hl, hu]; simp
    · rw [trunc_iff hs, hl, hu]; simp
  rw [hq, acceptProb_eq ha hb, acceptProb_eq hb ha]
  have := exp_balance a b
  linear_combination proposalDensity A factor y x * this

/-- **C119** What is sampled with bounds (and the scale factor 1): the chain is in detailed balance with the probability times
the part of the proposals that stays inside the bounds. -/
theorem C119_bounded_partial {n : ℕ} {A : Args n} (hs : ∀ k, 0 < A.step k) (hlu : ∀ k l u, A.lower k = some l → A.upper k = some u → l < u)
    {P : (Fin n → ℝ) → Num} {x y : Fin n → ℝ} (hx : InBounds A.lower A.upper x) (hy : InBounds A.lower A.upper y)
    {a b : ℝ} (ha : (P x).Is a) (hb : (P y).Is b) :
    Real.exp a * (∏ k, stayMass (A.lower k) (A.upper k) (A.step k) (x k)) * moveDensity A 1 P x y =
      Real.exp b * (∏ k, stayMass (A.lower k) (A.upper k) (A.step k) (y k)) * moveDensity A 1 P y x := by
  unfold moveDensity
  rw [acceptProb_eq ha hb, acceptProb_eq hb ha, proposal_eq hs x y hy, proposal_eq hs y x hx, kernel_symm A x y]
  have hp : ∀ x : Fin n → ℝ, (∏ k, stayMass (A.lower k) (A.upper k) (A.step k) (x k)) ≠ 0 := fun x =>
    (Finset.prod_pos fun k _ => stayMass_pos (hs k) (hlu k)).ne'
  have h1 := hp x
  have h2 := hp y
  have := exp_balance a b
  generalize (∏ k, Real.exp (-(((x k - y k) / A.step k) ^ 2) / 2) / A.step k) = K
  generalize (∏ k, stayMass (A.lower k) (A.upper k) (A.step k) (x k)) = Z at h1
  generalize (∏ k, stayMass (A.lower k) (A.upper k) (A.step k) (y k)) = W at h2
  have e1 : Z * (K / Z) = K := by field_simp
  have e2 : W * (K / W) = K := by field_simp
  linear_combination K * this + Real.exp a * min 1 (Real.exp (b - a)) * e1 - Real.exp b * min 1 (Real.exp (a - b)) * e2

/-- **C119** is violated with bounds: for a parameter with a lower bound and a probability that is the same everywhere inside
the bounds, moves away from the bound and back have different densities, for all pairs of positions that differ only in this
parameter.  So the chain is not in detailed balance with the probability: positions near the bound are sampled too rarely. -/
theorem C119_violated {n : ℕ} {A : Args n} (hs : ∀ k, 0 < A.step k) (hlu : ∀ k l u, A.lower k = some l → A.upper k = some u → l < u)
    {P : (Fin n → ℝ) → Num} {a : ℝ} (hP : ∀ x, InBounds A.lower A.upper x → (P x).Is a) {x y : Fin n → ℝ} (hx : InBounds A.lower A.upper x)
    (hy : InBounds A.lower A.upper y) {k : Fin n} {l : ℝ} (hl : A.lower k = some l) (hu : A.upper k = none)
    (hlt : x k < y k) (hxy : ∀ j, j ≠ k → x j = y j) :
    moveDensity A 1 P y x < moveDensity A 1 P x y := by
  have hb := C119_bounded_partial hs hlu hx hy (hP x hx) (hP y hy)
  have hk := hs k
  have hZ : stayMass (A.lower k) (A.upper k) (A.step k) (x k) < stayMass (A.lower k) (A.upper k) (A.step k) (y k) := by
    rw [hl, hu]
    unfold stayMass
    have hset : ∀ z : ℝ, {t : ℝ | (∀ l', some l = some l' → l' ≤ z + A.step k * t) ∧ ∀ u, none = some u → z + A.step k * t ≤ u} = Set.Ici ((l - z) / A.step k) := by
      intro z; ext t
      simp only [Option.some.injEq, reduceCtorEq, false_implies, implies_true, and_true, Set.mem_ofPred_eq, Set.mem_Ici, div_le_iff₀ hk]
      constructor
      · intro h; have := h l rfl; linarith
      · rintro h l' rfl; linarith
    have h2 : (l - y k) / A.step k < (l - x k) / A.step k := (div_lt_div_iff_of_pos_right hk).2 (by linarith)
    rw [hset, hset]
    have hunion : Set.Ici ((l - y k) / A.step k) = Set.Ico ((l - y k) / A.step k) ((l - x k) / A.step k) ∪ Set.Ici ((l - x k) / A.step k) :=
      (Set.Ico_union_Ici_eq_Ici h2.le).symm
    rw [hunion, setIntegral_union (by
        rw [Set.disjoint_left]; rintro t ⟨-, h⟩ h'; exact absurd h (not_lt.2 h')) measurableSet_Ici gauss_integrable.integrableOn gauss_integrable.integrableOn]
    have := gauss_pos (S := Set.Ico ((l - y k) / A.step k) ((l - x k) / A.step k)) h2 Set.Ioo_subset_Ico_self
    linarith
  have hprod : (∏ j, stayMass (A.lower j) (A.upper j) (A.step j) (x j)) < ∏ j, stayMass (A.lower j) (A.upper j) (A.step j) (y j) := by
    refine Finset.prod_lt_prod (fun j _ => stayMass_pos (hs j) (hlu j)) (fun j _ => ?_) ⟨k, Finset.mem_univ _, hZ⟩
    by_cases h : j = k
    · rw [h]; exact hZ.le
    · rw [hxy j h]
  have hpos : ∀ x y : Fin n → ℝ, InBounds A.lower A.upper x → InBounds A.lower A.upper y → 0 < moveDensity A 1 P x y := by
    intro x y hx hy
    unfold moveDensity
    rw [proposal_eq hs x y hy, acceptProb_eq (hP x hx) (hP y hy)]
    refine mul_pos (div_pos (Finset.prod_pos fun k _ => div_pos (Real.exp_pos _) (hs k)) (Finset.prod_pos fun k _ => stayMass_pos (hs k) (hlu k))) ?_
    exact lt_min one_pos (Real.exp_pos _)
  have hx0 : 0 < ∏ j, stayMass (A.lower j) (A.upper j) (A.step j) (x j) := Finset.prod_pos fun k _ => stayMass_pos (hs k) (hlu k)
  have h1 := hpos x y hx hy
  have h2 := hpos y x hy hx
  rw [mul_assoc, mul_assoc] at hb
  have hb := mul_left_cancel₀ (Real.exp_ne_zero a) hb
  by_contra hcon
  push Not at hcon
  have : (∏ j, stayMass (A.lower j) (A.upper j) (A.step j) (x j)) * moveDensity A 1 P x y ≤ (∏ j, stayMass (A.lower j) (A.upper j) (A.step j) (x j)) * moveDensity A 1 P y x :=
    mul_le_mul_of_nonneg_left hcon hx0.le
  have h3 : (∏ j, stayMass (A.lower j) (A.upper j) (A.step j) (x j)) * moveDensity A 1 P y x < (∏ j, stayMass (A.lower j) (A.upper j) (A.step j) (y j)) * moveDensity A 1 P y x :=
    mul_lt_mul_of_pos_right hprod h2
  linarith

example : ∃ (A : Args 1) (P : (Fin 1 → ℝ) → Num) (x y : Fin 1 → ℝ), (∀ k, 0 < A.step k) ∧ (∀ k l u, A.lower k = some l → A.upper k = some u → l < u) ∧
    (∀ x, InBounds A.lower A.upper x → (P x).Is 0) ∧ InBounds A.lower A.upper x ∧ InBounds A.lower A.upper y ∧ A.lower 0 = some 0 ∧ A.upper 0 = none ∧
    x 0 < y 0 ∧ ∀ j, j ≠ 0 → x j = y j :=
  ⟨⟨fun _ => 1, fun _ => some 0, fun _ => none, 10, 0, fun _ _ _ _ => 0, fun _ => 0⟩, fun _ => .fin 0, fun _ => 1, fun _ => 2, fun _ => one_pos,
    by simp, fun _ _ => Num.is_fin _, by simp [InBounds], by simp [InBounds], rfl, rfl, by norm_num, fun j hj => absurd (Subsingleton.elim j 0) hj⟩

example : ∃ (A : Args 1) (P : (Fin 1 → ℝ) → Num) (x y : Fin 1 → ℝ) (a b : ℝ), (∀ k, 0 < A.step k) ∧ (∀ k, A.lower k = none) ∧ (∀ k, A.upper k = none) ∧
    (P x).Is a ∧ (P y).Is b ∧ a ≠ b :=
  ⟨⟨fun _ => 1, fun _ => none, fun _ => none, 10, 0, fun _ _ _ _ => 0, fun _ => 0⟩, fun p => .fin (p 0), fun _ => 1, fun _ => 2, 1, 2, fun _ => one_pos,
    fun _ => rfl, fun _ => rfl, Num.is_fin _, Num.is_fin _, by norm_num⟩

/-- **C119** One iteration moves to the proposal exactly if the random number is below the acceptance probability, and stays
otherwise. -/
theorem C119_step {σ : Type} {n : ℕ} {lp : σ → (Fin n → ℝ) → σ × Num} {A : Args n} {i : ℕ} {x y : σ × Chain n} (h : iter lp A i x = .ok y)
    {a b : ℝ} (ha : x.2.prob.Is a) (hb : (lp x.1 (propose A i x.2.factor x.2.pos)).2.Is b) (hu : A.u i < 1) :
    (A.u i < min 1 (Real.exp b / Real.exp a) → y.2.pos = propose A i x.2.factor x.2.pos ∧ y.2.prob.Is b) ∧
    (¬ A.u i < min 1 (Real.exp b / Real.exp a) → y.2.pos = x.2.pos ∧ y.2.prob.Is a) := by
  obtain ⟨-, -, e, -⟩ := iter_ok h
  rw [accept_iff ha hb] at e
  have hiff : A.u i < min 1 (Real.exp b / Real.exp a) ↔ a ≤ b ∨ A.u i < Real.exp (b - a) := by
    rw [← Real.exp_sub, lt_min_iff]
    constructor
    · rintro ⟨-, h⟩; exact Or.inr h
    · rintro (h | h)
      · exact ⟨hu, hu.trans_le (Real.one_le_exp (by linarith))⟩
      · exact ⟨hu, h⟩
  rw [hiff]
  constructor
  · intro hc
    rw [if_pos hc] at e
    exact ⟨e.1, by rw [e.2]; exact hb⟩
  · intro hc
    rw [if_neg hc] at e
    exact ⟨e.1, by rw [e.2]; exact ha⟩

example : ∃ (A : Args 1) (x y : Unit × Chain 1), iter (fun (_ : Unit) p => ((), .fin (p 0))) A 0 x = .ok y ∧ x.2.prob.Is 0 ∧ A.u 0 < 1 := by
  let A : Args 1 := ⟨fun _ => 1, fun _ => none, fun _ => none, 10, 0, fun _ _ _ _ => 0, fun _ => 0⟩
  obtain ⟨r, hr⟩ := free_ok (fun (_ : Unit) (p : Fin 1 → ℝ) => ((), Num.fin (p 0))) A (fun _ => rfl) (fun _ => rfl) (fun _ => one_pos) () (fun _ => 0)
  obtain ⟨c, h1, -⟩ := metropolis_ok (s' := r.1) (tr := r.2) hr
  have h10 : (pyint A.iterations).toNat = 9 + 1 := by
    have : pyint (10 : ℝ) = 10 := by
      unfold pyint; rw [if_pos (by norm_num)]; exact Int.floor_eq_iff.2 (by norm_num)
    show (pyint (10 : ℝ)).toNat = _
    rw [this]; rfl
  have : ∀ j (z : Unit × Chain 1), loop (fun (_ : Unit) (p : Fin 1 → ℝ) => ((), Num.fin (p 0))) A ((), { pos := fun _ => 0, prob := .fin 0 }) (j + 1) = .ok z →
      ∃ y, iter (fun (_ : Unit) p => ((), .fin (p 0))) A 0 ((), { pos := fun _ => 0, prob := .fin 0 }) = .ok y := by
    intro j
    induction j with
    | zero =>
      intro z hz
      obtain ⟨w, hw, hz⟩ := loop_succ hz
      simp only [loop, Except.ok.injEq] at hw
      subst hw
      exact ⟨z, hz⟩
    | succ j ih =>
      intro z hz
      obtain ⟨w, hw, -⟩ := loop_succ hz
      exact ih w hw
  rw [h10] at h1
  obtain ⟨y, hy⟩ := this 9 _ h1
  exact ⟨A, _, y, hy, Num.is_fin _, by norm_num [A]⟩
