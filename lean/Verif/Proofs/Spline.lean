import Mathlib.Analysis.Calculus.Deriv.Inv
import Mathlib.Analysis.Calculus.Deriv.MeanValue
import Mathlib.Tactic.FieldSimp
import Mathlib.Tactic.Linarith
import Mathlib.Tactic.Positivity
import Mathlib.Tactic.Ring
import Verif.Spec.Spline

/-! # Errors of interpolating cubic splines -/

namespace SplineSpec

/-- A cubic polynomial in terms of its values and second derivatives at two places. -/
theorem Cubic.form (q : Cubic) {a b : ℝ} (h : a < b) (t : ℝ) : q.at t =
    q.at a + (t - a) / (b - a) * (q.at b - q.at a) -
      (t - a) * (b - t) / 6 * (q.bend a * (1 + (b - t) / (b - a)) + q.bend b * (1 + (t - a) / (b - a))) := by
  have : b - a ≠ 0 := (sub_pos.2 h).ne'
  simp only [Cubic.at, Cubic.bend]
  field_simp
  ring

theorem Cubic.slope_left (q : Cubic) {a b : ℝ} (h : a < b) : q.slope a =
    (q.at b - q.at a) / (b - a) - (b - a) * (2 * q.bend a + q.bend b) / 6 := by
  have : b - a ≠ 0 := (sub_pos.2 h).ne'
  simp only [Cubic.at, Cubic.bend, Cubic.slope]
  field_simp
  ring

theorem Cubic.slope_right (q : Cubic) {a b : ℝ} (h : a < b) : q.slope b =
    (q.at b - q.at a) / (b - a) + (b - a) * (q.bend a + 2 * q.bend b) / 6 := by
  have : b - a ≠ 0 := (sub_pos.2 h).ne'
  simp only [Cubic.at, Cubic.bend, Cubic.slope]
  field_simp
  ring

/-- The second derivatives at the knots. -/
def moment (y : ℕ → ℝ) (q : ℕ → Cubic) : ℕ → ℝ
  | 0 => (q 0).bend (y 0)
  | i + 1 => (q i).bend (y (i + 1))

/-- The distance of neighbouring knots. -/
def gap (y : ℕ → ℝ) (i : ℕ) : ℝ := y (i + 1) - y i

/-- The mean slope between neighbouring knots. -/
noncomputable def mean (y x : ℕ → ℝ) (i : ℕ) : ℝ := (x (i + 1) - x i) / gap y i

theorem NotAKnot.bend_left {n : ℕ} {y x : ℕ → ℝ} {q : ℕ → Cubic} (N : NotAKnot n y x q) {i : ℕ} (hi : i < n) :
    (q i).bend (y i) = moment y q i := by
  cases i with
  | zero => rfl
  | succ i => exact (N.bend i hi).symm

/-- The equations of the second derivatives. -/
theorem NotAKnot.row {n : ℕ} {y x : ℕ → ℝ} {q : ℕ → Cubic} (N : NotAKnot n y x q) (hy : ∀ i < n, y i < y (i + 1)) {i : ℕ} (hi : i + 1 < n) :
    gap y i * moment y q i + 2 * (gap y i + gap y (i + 1)) * moment y q (i + 1) + gap y (i + 1) * moment y q (i + 2) =
      6 * (mean y x (i + 1) - mean y x i) := by
  have h1 := hy i (by omega)
  have h2 := hy (i + 1) hi
  have e := N.slope i hi
  rw [(q i).slope_right h1, (q (i + 1)).slope_left h2, N.left i (by omega), N.right i (by omega), N.left (i + 1) hi, N.right (i + 1) hi,
    N.bend_left (by omega), N.bend_left hi] at e
  change _ + _ * (_ + 2 * moment y q (i + 1)) / 6 = _ - _ * (_ + moment y q (i + 2)) / 6 at e
  simp only [mean, gap] at e ⊢
  linear_combination 6 * e

theorem bend_sub (q : Cubic) (a b : ℝ) : q.bend b - q.bend a = 6 * q.d * (b - a) := by
  simp only [Cubic.bend]; ring

theorem NotAKnot.start {n : ℕ} {y x : ℕ → ℝ} {q : ℕ → Cubic} (N : NotAKnot n y x q) (hn : 3 ≤ n) :
    (moment y q 1 - moment y q 0) * gap y 1 = (moment y q 2 - moment y q 1) * gap y 0 := by
  have e1 : moment y q 1 - moment y q 0 = 6 * (q 0).d * gap y 0 := bend_sub (q 0) _ _
  have e2 : moment y q 2 - moment y q 1 = 6 * (q 1).d * gap y 1 := by
    rw [← N.bend_left (i := 1) (by omega)]
    exact bend_sub (q 1) _ _
  rw [e1, e2, N.first]; ring

theorem NotAKnot.stop {n : ℕ} {y x : ℕ → ℝ} {q : ℕ → Cubic} (N : NotAKnot (n + 2) y x q) :
    (moment y q (n + 2) - moment y q (n + 1)) * gap y n = (moment y q (n + 1) - moment y q n) * gap y (n + 1) := by
  have e1 : moment y q (n + 1) - moment y q n = 6 * (q n).d * gap y n := by
    rw [← N.bend_left (i := n) (by omega)]
    exact bend_sub (q n) _ _
  have e2 : moment y q (n + 2) - moment y q (n + 1) = 6 * (q (n + 1)).d * gap y (n + 1) := by
    rw [← N.bend_left (i := n + 1) (by omega)]
    exact bend_sub (q (n + 1)) _ _
  have := N.last
  simp only [Nat.add_sub_cancel, show n + 2 - 1 = n + 1 by omega] at this
  rw [e1, e2, this]; ring

/-- Comparison: what the equations keep below a supersolution stays below it. -/
theorem compare {n : ℕ} {E B R dg lo up : ℕ → ℝ} (hB : ∀ i, 1 ≤ i → i < n → 0 < B i) (hlo : ∀ i, 0 ≤ lo i) (hup : ∀ i, 0 ≤ up i)
    (hlo1 : lo 1 = 0) (hup1 : up (n - 1) = 0)
    (row : ∀ i, 1 ≤ i → i < n → dg i * |E i| ≤ |R i| + lo i * |E (i - 1)| + up i * |E (i + 1)|)
    (sup : ∀ i, 1 ≤ i → i < n → 0 < dg i * B i - lo i * B (i - 1) - up i * B (i + 1) ∧
      |R i| ≤ dg i * B i - lo i * B (i - 1) - up i * B (i + 1)) :
    ∀ i, 1 ≤ i → i < n → |E i| ≤ B i := by
  intro i h1 h2
  obtain ⟨j, hj, hm⟩ := Finset.exists_max_image (Finset.Ico 1 n) (fun i => |E i| / B i) ⟨i, Finset.mem_Ico.2 ⟨h1, h2⟩⟩
  obtain ⟨j1, j2⟩ := Finset.mem_Ico.1 hj
  set μ := |E j| / B j with hμ
  have le : ∀ k, 1 ≤ k → k < n → |E k| ≤ μ * B k := fun k k1 k2 =>
    (div_le_iff₀ (hB k k1 k2)).1 (hm k (Finset.mem_Ico.2 ⟨k1, k2⟩))
  have eq : |E j| = μ * B j := by rw [hμ, div_mul_cancel₀ _ (hB j j1 j2).ne']
  have μ0 : 0 ≤ μ := div_nonneg (abs_nonneg _) (hB j j1 j2).le
  have l1 : lo j * |E (j - 1)| ≤ μ * (lo j * B (j - 1)) := by
    by_cases h : j = 1
    · subst h; simp [hlo1]
    · have := mul_le_mul_of_nonneg_left (le (j - 1) (by omega) (by omega)) (hlo j)
      linarith
  have l2 : up j * |E (j + 1)| ≤ μ * (up j * B (j + 1)) := by
    by_cases h : j = n - 1
    · rw [← h] at hup1; simp [hup1]
    · have := mul_le_mul_of_nonneg_left (le (j + 1) (by omega) (by omega)) (hup j)
      linarith
  have r := row j j1 j2
  obtain ⟨s0, s1⟩ := sup j j1 j2
  rw [eq] at r
  have key : μ * (dg j * B j - lo j * B (j - 1) - up j * B (j + 1)) ≤ dg j * B j - lo j * B (j - 1) - up j * B (j + 1) := by linarith
  have hμ1 : μ ≤ 1 := by
    by_contra h
    rw [not_le] at h
    nlinarith
  exact (le i h1 h2).trans (by nlinarith [hB i h1 h2])


/-- How far arbitrary numbers `m` are from solving the equations of the second derivatives. -/
noncomputable def residual (y x m : ℕ → ℝ) (i : ℕ) : ℝ :=
  6 * (mean y x (i + 1) - mean y x i) - (gap y i * m i + 2 * (gap y i + gap y (i + 1)) * m (i + 1) + gap y (i + 1) * m (i + 2))

theorem first_row {h k e0 e1 e2 r : ℝ} (hh : 0 < h) (hk : 0 < k) (s : (e1 - e0) * k = (e2 - e1) * h)
    (e : h * e0 + 2 * (h + k) * e1 + k * e2 = r) :
    (3 * h + 2 * k + h ^ 2 / k) * |e1| ≤ |r| + |k - h ^ 2 / k| * |e2| := by
  have e0' : e0 = e1 - (e2 - e1) * h / k := by field_simp; linarith
  have eq : (3 * h + 2 * k + h ^ 2 / k) * e1 = r - (k - h ^ 2 / k) * e2 := by
    rw [← e, e0']; field_simp; ring
  have := congrArg abs eq
  rw [abs_mul, abs_of_pos (a := 3 * h + 2 * k + h ^ 2 / k) (by positivity)] at this
  rw [this, ← abs_mul]
  exact abs_sub _ _

theorem inner_row {h k e0 e1 e2 r : ℝ} (hh : 0 < h) (hk : 0 < k)
    (e : h * e0 + 2 * (h + k) * e1 + k * e2 = r) :
    2 * (h + k) * |e1| ≤ |r| + h * |e0| + k * |e2| := by
  have eq : 2 * (h + k) * e1 = r - h * e0 - k * e2 := by rw [← e]; ring
  have := congrArg abs eq
  rw [abs_mul, abs_of_pos (a := 2 * (h + k)) (by positivity)] at this
  rw [this]
  calc |r - h * e0 - k * e2| ≤ |r - h * e0| + |k * e2| := abs_sub _ _
    _ ≤ |r| + |h * e0| + |k * e2| := by linarith [abs_sub r (h * e0)]
    _ = _ := by rw [abs_mul, abs_mul, abs_of_pos hh, abs_of_pos hk]

/-- Numbers that solve the equations of the second derivatives for small right hand sides are small. -/
theorem rows_small {n : ℕ} {h E B : ℕ → ℝ} {γ : ℝ} (hg : ∀ i < n + 3, 0 < h i) (hγ0 : 0 < γ) (hγ1 : γ ≤ 1)
    (es : (E 1 - E 0) * h 1 = (E 2 - E 1) * h 0)
    (et : (E (n + 3) - E (n + 2)) * h (n + 1) = (E (n + 2) - E (n + 1)) * h (n + 2))
    (hB0 : ∀ i, 0 < B i) (hB1 : ∀ i, B i ≤ B (i + 1)) (hB2 : ∀ i, B (i + 2) ≤ (2 - γ) * B (i + 1))
    (hstart : h 0 ≤ h 1 ∨ B 2 = B 1)
    (hR : ∀ i, i < n + 2 → |h i * E i + 2 * (h i + h (i + 1)) * E (i + 1) + h (i + 1) * E (i + 2)| ≤ γ * (h i + h (i + 1)) * B (i + 1)) :
    ∀ i, i < n + 2 → |E (i + 1)| ≤ B (i + 1) := by
  set R : ℕ → ℝ := fun i => h i * E i + 2 * (h i + h (i + 1)) * E (i + 1) + h (i + 1) * E (i + 2) with hRdef
  have eqs : ∀ i, i < n + 2 → h i * E i + 2 * (h i + h (i + 1)) * E (i + 1) + h (i + 1) * E (i + 2) = R i := fun i _ => rfl
  have key := compare (n := n + 3) (E := E) (B := B) (R := fun i => R (i - 1))
    (dg := fun i => if i = 1 then 3 * h 0 + 2 * h 1 + h 0 ^ 2 / h 1 else
      if i = n + 2 then 3 * h (n + 2) + 2 * h (n + 1) + h (n + 2) ^ 2 / h (n + 1) else 2 * (h (i - 1) + h i))
    (lo := fun i => if i = 1 then 0 else if i = n + 2 then |h (n + 1) - h (n + 2) ^ 2 / h (n + 1)| else |h (i - 1)|)
    (up := fun i => if i = n + 2 then 0 else if i = 1 then |h 1 - h 0 ^ 2 / h 1| else |h i|)
    (fun i _ _ => hB0 i) (fun i => by split_ifs <;> positivity) (fun i => by split_ifs <;> positivity)
    (by simp) (by simp) ?_ ?_
  · intro i hi
    exact key (i + 1) (by omega) (by omega)
  · intro i h1 h2
    obtain ⟨i, rfl⟩ : ∃ j, i = j + 1 := ⟨i - 1, by omega⟩
    by_cases c1 : i + 1 = 1
    · have : i = 0 := by omega
      subst this
      have := first_row (hg 0 (by omega)) (hg 1 (by omega)) es (eqs 0 (by omega))
      simp only [zero_add, if_true, show (1 = n + 2) = False by simp, if_false]
      simpa using this
    · by_cases c2 : i + 1 = n + 2
      · have : i = n + 1 := by omega
        subst this
        have e := eqs (n + 1) (by omega)
        have := first_row (r := R (n + 1)) (e0 := E (n + 3)) (e1 := E (n + 2)) (e2 := E (n + 1)) (hg (n + 2) (by omega)) (hg (n + 1) (by omega))
          (by linarith) (by linarith)
        simpa [c1] using this
      · have := inner_row (hg i (by omega)) (hg (i + 1) (by omega)) (eqs i (by omega))
        simp only [c1, c2, if_false, Nat.add_sub_cancel, abs_of_pos (hg i (by omega)), abs_of_pos (hg (i + 1) (by omega))]
        exact this
  · intro i h1 h2
    obtain ⟨i, rfl⟩ : ∃ j, i = j + 1 := ⟨i - 1, by omega⟩
    have r := hR i (by omega)
    have a0 := hg i (by omega)
    have a1 := hg (i + 1) (by omega)
    have b := hB0 (i + 1)
    have low : 0 < γ * (h i + h (i + 1)) * B (i + 1) := by positivity
    suffices hs : γ * (h i + h (i + 1)) * B (i + 1) ≤ (if i + 1 = 1 then 3 * h 0 + 2 * h 1 + h 0 ^ 2 / h 1 else
      if i + 1 = n + 2 then 3 * h (n + 2) + 2 * h (n + 1) + h (n + 2) ^ 2 / h (n + 1) else 2 * (h (i + 1 - 1) + h (i + 1))) * B (i + 1) -
      (if i + 1 = 1 then 0 else if i + 1 = n + 2 then |h (n + 1) - h (n + 2) ^ 2 / h (n + 1)| else |h (i + 1 - 1)|) * B (i + 1 - 1) -
      (if i + 1 = n + 2 then 0 else if i + 1 = 1 then |h 1 - h 0 ^ 2 / h 1| else |h (i + 1)|) * B (i + 1 + 1) from ⟨low.trans_le hs, r.trans hs⟩
    have m0 : γ * h i * B (i + 1) ≤ h i * B (i + 1) := by
      have := mul_le_mul_of_nonneg_right hγ1 (mul_pos a0 b).le
      linarith
    have m1 : γ * h (i + 1) * B (i + 1) ≤ h (i + 1) * B (i + 1) := by
      have := mul_le_mul_of_nonneg_right hγ1 (mul_pos a1 b).le
      linarith
    by_cases c1 : i + 1 = 1
    · have : i = 0 := by omega
      subst this
      simp only [zero_add, if_true, show (1 = n + 2) = False by simp, if_false, zero_mul, sub_zero] at *
      have sq : 0 ≤ h 0 ^ 2 / h 1 := by positivity
      rcases hstart with hl | hl
      · have le : h 0 ^ 2 / h 1 ≤ h 1 := by rw [div_le_iff₀ a1]; nlinarith
        rw [abs_of_nonneg (by linarith)]
        have b2 := hB2 0
        simp only [zero_add] at b2
        have := mul_le_mul_of_nonneg_left b2 a1.le
        have p1 : 0 ≤ h 0 ^ 2 / h 1 * B 1 := by positivity
        have p2 : 0 ≤ h 0 ^ 2 / h 1 * B (1 + 1) := mul_nonneg sq (hB0 _).le
        have p3 := mul_pos a0 b
        have e2 : (1 : ℕ) + 1 = 2 := rfl
        rw [e2] at p2 ⊢
        nlinarith
      · have e2 : (1 : ℕ) + 1 = 2 := rfl
        rw [e2, hl]
        have := abs_sub (h 1) (h 0 ^ 2 / h 1)
        rw [abs_of_pos a1, abs_of_nonneg sq] at this
        have := mul_le_mul_of_nonneg_right this b.le
        have p3 := mul_pos a0 b
        nlinarith
    · by_cases c2 : i + 1 = n + 2
      · have : i = n + 1 := by omega
        subst this
        simp only [c1, if_false, if_true, zero_mul, sub_zero, Nat.add_sub_cancel]
        have e2 : n + 1 + 1 = n + 2 := rfl
        rw [e2] at *
        have b1 := hB1 (n + 1)
        have sq : 0 ≤ h (n + 2) ^ 2 / h (n + 1) := by positivity
        have ab := abs_sub (h (n + 1)) (h (n + 2) ^ 2 / h (n + 1))
        rw [abs_of_pos a0, abs_of_nonneg sq] at ab
        have t1 := mul_le_mul ab b1 (hB0 _).le (by positivity)
        rw [e2] at t1
        have p3 := mul_pos a1 b
        nlinarith
      · simp only [c1, c2, if_false, Nat.add_sub_cancel, abs_of_pos a0, abs_of_pos a1]
        have b2 := mul_le_mul_of_nonneg_left (hB2 i) a1.le
        have b1 := mul_le_mul_of_nonneg_left (hB1 i) a0.le
        have e2 : i + 1 + 1 = i + 2 := rfl
        rw [e2]
        nlinarith

/-- The second derivatives are close to all numbers that nearly solve their equations. -/
theorem NotAKnot.moments_close {n : ℕ} {y x : ℕ → ℝ} {q : ℕ → Cubic} (N : NotAKnot (n + 3) y x q) (hy : ∀ i < n + 3, y i < y (i + 1))
    (m B : ℕ → ℝ) {γ : ℝ} (hγ0 : 0 < γ) (hγ1 : γ ≤ 1)
    (hm0 : (m 1 - m 0) * gap y 1 = (m 2 - m 1) * gap y 0)
    (hm1 : (m (n + 3) - m (n + 2)) * gap y (n + 1) = (m (n + 2) - m (n + 1)) * gap y (n + 2))
    (hB0 : ∀ i, 0 < B i) (hB1 : ∀ i, B i ≤ B (i + 1)) (hB2 : ∀ i, B (i + 2) ≤ (2 - γ) * B (i + 1))
    (hstart : gap y 0 ≤ gap y 1 ∨ B 2 = B 1)
    (hR : ∀ i, i < n + 2 → |residual y x m i| ≤ γ * (gap y i + gap y (i + 1)) * B (i + 1)) :
    ∀ i, i < n + 2 → |moment y q (i + 1) - m (i + 1)| ≤ B (i + 1) := by
  refine rows_small (h := gap y) (E := fun i => moment y q i - m i) (fun i hi => sub_pos.2 (hy i hi)) hγ0 hγ1 ?_ ?_ hB0 hB1 hB2 hstart ?_
  · have := N.start (by omega)
    linarith
  · have := NotAKnot.stop (n := n + 1) N
    linarith
  · intro i hi
    have := N.row hy (i := i) (by omega)
    refine le_of_eq_of_le (congrArg abs ?_) (hR i hi)
    simp only [residual]
    linarith

theorem end_close {h k e0 e1 e2 b1 b2 ρ : ℝ} (hh : 0 < h) (hk : 0 < k) (s : (e1 - e0) * k = (e2 - e1) * h) (h1 : |e1| ≤ b1) (h2 : |e2| ≤ b2)
    (hρ : h ≤ ρ * k) : |e0| ≤ (1 + ρ) * b1 + ρ * b2 := by
  have e0' : e0 = (1 + h / k) * e1 - h / k * e2 := by field_simp; linarith
  have r : h / k ≤ ρ := (div_le_iff₀ hk).2 hρ
  have r0 : 0 ≤ h / k := by positivity
  have := abs_sub ((1 + h / k) * e1) (h / k * e2)
  rw [abs_mul, abs_mul, abs_of_nonneg (a := 1 + h / k) (by positivity), abs_of_nonneg r0] at this
  rw [e0']
  have t1 := mul_le_mul (add_le_add_right r 1) h1 (abs_nonneg _) (by linarith)
  have t2 := mul_le_mul r h2 (abs_nonneg _) (by linarith)
  linarith

/-- The error of a piece whose second derivatives at its ends are at most `C`, at a point that is off the chord by at most `κ / 2` times the
product of the distances to the ends. -/
theorem NotAKnot.piece_error {n : ℕ} {y x : ℕ → ℝ} {q : ℕ → Cubic} (N : NotAKnot n y x q) {i : ℕ} (hi : i < n) (hy : y i < y (i + 1)) {t g κ C : ℝ}
    (h0 : y i ≤ t) (h1 : t ≤ y (i + 1)) (hg : |g - (x i + (t - y i) * mean y x i)| ≤ κ / 2 * ((t - y i) * (y (i + 1) - t)))
    (hC0 : |moment y q i| ≤ C) (hC1 : |moment y q (i + 1)| ≤ C) : |(q i).at t - g| ≤ (κ + C) / 2 * ((t - y i) * (y (i + 1) - t)) := by
  have f := (q i).form hy t
  rw [N.left i hi, N.right i hi, N.bend_left hi] at f
  change _ = x i + _ * (x (i + 1) - x i) - _ * (moment y q i * _ + moment y q (i + 1) * _) at f
  have d : 0 < y (i + 1) - y i := sub_pos.2 hy
  have a : 0 ≤ t - y i := sub_nonneg.2 h0
  have b : 0 ≤ y (i + 1) - t := sub_nonneg.2 h1
  have e : (q i).at t - g = -(g - (x i + (t - y i) * mean y x i)) - (t - y i) * (y (i + 1) - t) / 6 *
      (moment y q i * (1 + (y (i + 1) - t) / (y (i + 1) - y i)) + moment y q (i + 1) * (1 + (t - y i) / (y (i + 1) - y i))) := by
    rw [f, mean, gap]; ring
  have s : (1 + (y (i + 1) - t) / (y (i + 1) - y i)) + (1 + (t - y i) / (y (i + 1) - y i)) = 3 := by field_simp; ring
  have u0 : 0 ≤ 1 + (y (i + 1) - t) / (y (i + 1) - y i) := by positivity
  have u1 : 0 ≤ 1 + (t - y i) / (y (i + 1) - y i) := by positivity
  generalize 1 + (y (i + 1) - t) / (y (i + 1) - y i) = w0 at *
  generalize 1 + (t - y i) / (y (i + 1) - y i) = w1 at *
  have k : |moment y q i * w0 + moment y q (i + 1) * w1| ≤ 3 * C := by
    calc _ ≤ |moment y q i * w0| + |moment y q (i + 1) * w1| := abs_add_le _ _
      _ = |moment y q i| * w0 + |moment y q (i + 1)| * w1 := by rw [abs_mul, abs_mul, abs_of_nonneg u0, abs_of_nonneg u1]
      _ ≤ C * w0 + C * w1 := by gcongr
      _ = 3 * C := by rw [← mul_add, s]; ring
  have p : 0 ≤ (t - y i) * (y (i + 1) - t) := by positivity
  rw [e]
  refine (abs_sub _ _).trans ?_
  rw [abs_neg, abs_mul, abs_of_nonneg (a := (t - y i) * (y (i + 1) - t) / 6) (by positivity)]
  have := mul_le_mul_of_nonneg_left k (show 0 ≤ (t - y i) * (y (i + 1) - t) / 6 by positivity)
  linarith

/-- Subtracting one polynomial from all pieces. -/
def Cubic.sub (q p : Cubic) : Cubic := ⟨q.a - p.a, q.b - p.b, q.c - p.c, q.d - p.d⟩

theorem Cubic.sub_at (q p : Cubic) (t : ℝ) : (q.sub p).at t = q.at t - p.at t := by simp only [Cubic.sub, Cubic.at]; ring

theorem NotAKnot.sub {n : ℕ} {y x : ℕ → ℝ} {q : ℕ → Cubic} (N : NotAKnot n y x q) (p : Cubic) :
    NotAKnot n y (fun i => x i - p.at (y i)) (fun i => (q i).sub p) where
  left i hi := by rw [Cubic.sub_at, N.left i hi]
  right i hi := by rw [Cubic.sub_at, N.right i hi]
  slope i hi := by have := N.slope i hi; simp only [Cubic.sub, Cubic.slope] at this ⊢; linarith
  bend i hi := by have := N.bend i hi; simp only [Cubic.sub, Cubic.bend] at this ⊢; linarith
  first := by have := N.first; simp only [Cubic.sub]; rw [this]
  last := by have := N.last; simp only [Cubic.sub]; rw [this]

/-- Curves whose slope changes slowly stay close to their chords. -/
theorem chord {f u f1 u1 f2 u2 : ℝ → ℝ} {a b K : ℝ} (hf : ∀ r, HasDerivAt f (f1 r) r) (hu : ∀ r, HasDerivAt u (u1 r) r)
    (hf1 : ∀ r, HasDerivAt f1 (f2 r) r) (hu1 : ∀ r, HasDerivAt u1 (u2 r) r) (pos : ∀ r ∈ Set.Icc a b, 0 < f1 r)
    (hK : ∀ r ∈ Set.Icc a b, |u2 r * f1 r - u1 r * f2 r| ≤ K * f1 r ^ 3) {r : ℝ} (hr : r ∈ Set.Icc a b) :
    |(u r - u a) * (f b - f a) - (f r - f a) * (u b - u a)| ≤ K / 2 * ((f r - f a) * (f b - f r) * (f b - f a)) := by
  have hab : a ≤ b := hr.1.trans hr.2
  have contf : Continuous f := continuous_iff_continuousAt.2 fun r => (hf r).continuousAt
  have contu : Continuous u := continuous_iff_continuousAt.2 fun r => (hu r).continuousAt
  have contf1 : Continuous f1 := continuous_iff_continuousAt.2 fun r => (hf1 r).continuousAt
  have contu1 : Continuous u1 := continuous_iff_continuousAt.2 fun r => (hu1 r).continuousAt
  have monof : MonotoneOn f (Set.Icc a b) := by
    apply monotoneOn_of_deriv_nonneg (convex_Icc a b) contf.continuousOn (fun x _ => (hf x).differentiableAt.differentiableWithinAt)
    intro x hx
    rw [(hf x).deriv]
    exact (pos x (interior_subset hx)).le
  have fab : f a ≤ f b := monof ⟨le_rfl, hab⟩ ⟨hab, le_rfl⟩ hab
  have side : ∀ σ : ℝ, |σ| = 1 → σ * ((u r - u a) * (f b - f a) - (f r - f a) * (u b - u a)) ≤ K / 2 * ((f r - f a) * (f b - f r) * (f b - f a)) := by
    intro σ hσ
    by_contra hc
    rw [not_le] at hc
    -- the function and its derivative
    set ψ : ℝ → ℝ := fun r => σ * ((u r - u a) * (f b - f a) - (f r - f a) * (u b - u a)) - K / 2 * ((f r - f a) * (f b - f r) * (f b - f a)) with hψ
    set χ : ℝ → ℝ := fun r => σ * u1 r / f1 r + K * f r with hχ
    set c : ℝ := K / 2 * (f a + f b) with hcdef
    have dψ : ∀ s, HasDerivAt ψ (σ * (u1 s * (f b - f a) - f1 s * (u b - u a)) - K / 2 * ((f1 s * (f b - f s) + (f s - f a) * (0 - f1 s)) * (f b - f a))) s := by
      intro s
      have h1 := (((hu s).sub_const (u a)).mul_const (f b - f a)).sub (((hf s).sub_const (f a)).mul_const (u b - u a))
      have h2 := ((((hf s).sub_const (f a)).mul ((hasDerivAt_const s (f b)).sub (hf s))).mul_const (f b - f a))
      exact (h1.const_mul σ).sub (h2.const_mul (K / 2))
    have dψ' : ∀ s ∈ Set.Icc a b, deriv ψ s = f1 s * ((f b - f a) * (χ s - c) - σ * (u b - u a)) := by
      intro s hs
      rw [(dψ s).deriv, hχ, hcdef]
      have := (pos s hs).ne'
      field_simp
      ring
    have monoχ : MonotoneOn χ (Set.Icc a b) := by
      have dχ : ∀ s ∈ Set.Icc a b, HasDerivAt χ ((σ * u2 s * f1 s - σ * u1 s * f2 s) / f1 s ^ 2 + K * f1 s) s := by
        intro s hs
        exact ((((hu1 s).const_mul σ).div (hf1 s) (pos s hs).ne').add ((hf s).const_mul K))
      apply monotoneOn_of_deriv_nonneg (convex_Icc a b)
      · exact fun s hs => (dχ s hs).continuousAt.continuousWithinAt
      · exact fun s hs => (dχ s (interior_subset hs)).differentiableAt.differentiableWithinAt
      · intro s hs
        have hs' := interior_subset hs
        rw [(dχ s hs').deriv]
        have p := pos s hs'
        have k := hK s hs'
        have : -(σ * (u2 s * f1 s - u1 s * f2 s)) ≤ K * f1 s ^ 3 := by
          refine (neg_le_abs _).trans ?_
          rwa [abs_mul, hσ, one_mul]
        have e : (σ * u2 s * f1 s - σ * u1 s * f2 s) / f1 s ^ 2 + K * f1 s = (σ * (u2 s * f1 s - u1 s * f2 s) + K * f1 s ^ 3) / f1 s ^ 2 := by
          field_simp
        rw [e]
        apply div_nonneg _ (by positivity)
        linarith
    have ψa : ψ a = 0 := by simp [hψ]
    have ψb : ψ b = 0 := by simp [hψ]; right; ring
    have ψr : 0 < ψ r := by simp only [hψ]; linarith
    have ar : a < r := lt_of_le_of_ne hr.1 (by rintro rfl; linarith)
    have rb : r < b := lt_of_le_of_ne hr.2 (by rintro rfl; linarith)
    have contψ : Continuous ψ := by rw [hψ]; fun_prop
    obtain ⟨s, hs, es⟩ := exists_deriv_eq_slope ψ ar contψ.continuousOn (fun x _ => (dψ x).differentiableAt.differentiableWithinAt)
    obtain ⟨t, ht, et⟩ := exists_deriv_eq_slope ψ rb contψ.continuousOn (fun x _ => (dψ x).differentiableAt.differentiableWithinAt)
    have ps : 0 < deriv ψ s := by rw [es, ψa]; apply div_pos <;> linarith
    have pt : deriv ψ t < 0 := by rw [et, ψb]; apply div_neg_of_neg_of_pos <;> linarith
    have s' : s ∈ Set.Icc a b := ⟨hs.1.le, hs.2.le.trans rb.le⟩
    have t' : t ∈ Set.Icc a b := ⟨ar.le.trans ht.1.le, ht.2.le⟩
    rw [dψ' s s'] at ps
    rw [dψ' t t'] at pt
    have m := monoχ s' t' (hs.2.le.trans ht.1.le)
    have q1 := (mul_pos_iff_of_pos_left (pos s s')).1 ps
    have q2 : (f b - f a) * (χ t - c) - σ * (u b - u a) < 0 := by
      by_contra h
      rw [not_lt] at h
      exact absurd pt (not_lt.2 (mul_nonneg (pos t t').le h))
    nlinarith [sub_nonneg.2 fab]
  rw [abs_le]
  have h1 := side 1 (by norm_num)
  have h2 := side (-1) (by norm_num)
  constructor <;> linarith

end SplineSpec
