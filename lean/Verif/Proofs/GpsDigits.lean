import Verif.Proofs.GpsFormat
import Mathlib.Tactic.Linarith
import Mathlib.Tactic.FieldSimp
import Mathlib.Tactic.Ring
import Mathlib.Tactic.Positivity
import Mathlib.Tactic.IntervalCases

/-! # Lemmas on printed numbers -/

namespace GpsText

open Py

theorem digits_digits (n : ℕ) : Digits (digits n) := by
  refine ⟨?_, fun c hc => ?_⟩
  · intro h
    exact Nat.toDigits_ne_nil h
  · have := Nat.isDigit_of_mem_toDigits (by norm_num) (by norm_num) hc
    simp only [Char.isDigit, Bool.and_eq_true, decide_eq_true_eq] at this
    exact this

theorem digits_value (n : ℕ) : Nat.ofDigitChars 10 (digits n) 0 = n := Nat.ofDigitChars_ten_toDigits

theorem digitsPad_length (p n : ℕ) : (digitsPad p n).length = p := by
  induction p generalizing n with
  | zero => rfl
  | succ p ih => simp [digitsPad, ih]

theorem digitsPad_digit (p n : ℕ) : ∀ c ∈ digitsPad p n, '0' ≤ c ∧ c ≤ '9' := by
  induction p generalizing n with
  | zero => simp [digitsPad]
  | succ p ih =>
    intro c hc
    simp only [digitsPad, List.mem_append, List.mem_singleton] at hc
    rcases hc with hc | rfl
    · exact ih _ c hc
    · have h : n % 10 < 10 := Nat.mod_lt _ (by norm_num)
      revert h
      generalize n % 10 = k
      intro h
      interval_cases k <;> decide

theorem digitsPad_value (p n : ℕ) : Nat.ofDigitChars 10 (digitsPad p n) 0 = n % 10 ^ p := by
  induction p generalizing n with
  | zero => simp [digitsPad, Nat.mod_one]
  | succ p ih =>
    rw [digitsPad, Nat.ofDigitChars_append, ih, Nat.ofDigitChars_cons_digitChar_of_lt_ten (Nat.mod_lt _ (by norm_num))]
    simp only [Nat.ofDigitChars_nil]
    rw [pow_succ, mul_comm (10 ^ p) 10, Nat.mod_mul]
    omega

/-- The text of a printed decimal number. -/
def decimal (p n : ℕ) : Text := digits (n / 10 ^ p) ++ if p = 0 then [] else '.' :: digitsPad p (n % 10 ^ p)

theorem decimal_reads (p n : ℕ) : Reads (decimal p n) (n / 10 ^ p) := by
  unfold decimal
  split_ifs with h
  · subst h
    have := Reads.int _ (digits_digits n)
    rw [digits_value] at this
    simpa using this
  · have := Reads.dec (digits (n / 10 ^ p)) (digitsPad p (n % 10 ^ p)) (Or.inr (digits_digits _))
      (Or.inr ⟨by
        intro e
        have := digitsPad_length p (n % 10 ^ p)
        rw [e] at this
        exact h (by simpa using this.symm), digitsPad_digit _ _⟩) (Or.inl (digits_digits _).1)
    rw [digits_value, digitsPad_value, digitsPad_length, Nat.mod_mod] at this
    have e : (n : ℝ) / 10 ^ p = ((n / 10 ^ p : ℕ) : ℝ) + ((n % 10 ^ p : ℕ) : ℝ) / 10 ^ p := by
      have h1 : (10 : ℝ) ^ p ≠ 0 := by positivity
      have h2 : ((10 ^ p * (n / 10 ^ p) + n % 10 ^ p : ℕ) : ℝ) = n := by rw [Nat.div_add_mod]
      push_cast at h2
      rw [eq_comm, ← h2]
      field_simp
    rw [e]
    exact this

theorem decimal_decimals (p n : ℕ) : Decimals (decimal p n) := by
  unfold decimal
  refine ⟨by simp [(digits_digits _).1], fun c hc => ?_⟩
  rcases List.mem_append.1 hc with hc | hc
  · exact Or.inl ((digits_digits _).2 c hc)
  · split_ifs at hc with h
    · simp at hc
    · rcases List.mem_cons.1 hc with rfl | hc
      · exact Or.inr rfl
      · exact Or.inl (digitsPad_digit _ _ c hc)

theorem decimal_inj {p n m : ℕ} (h : decimal p n = decimal p m) : n = m := by
  have h1 := decimal_reads p n
  rw [h] at h1
  have := reads_unique h1 (decimal_reads p m)
  have h0 : (10 : ℝ) ^ p ≠ 0 := by positivity
  field_simp at this
  exact_mod_cast this

theorem digits_inj {n m : ℕ} (h : digits n = digits m) : n = m := by
  rw [← digits_value n, h, digits_value]

/-! ### rounding -/

theorem roundEven_close {x : ℝ} (hx : 0 ≤ x) : |(roundEven x : ℝ) - x| ≤ 1 / 2 := by
  have h1 := Nat.floor_le hx
  have h2 := Nat.lt_floor_add_one x
  unfold roundEven
  simp only
  rw [abs_le]
  split_ifs with a b c
  · constructor <;> linarith
  · push_cast; constructor <;> linarith
  · constructor <;> linarith
  · push_cast; constructor <;> linarith

theorem roundEven_nat (n : ℕ) : roundEven n = n := by
  unfold roundEven
  simp

theorem round_close {x : ℝ} (hx : 0 ≤ x) (p : ℕ) : |(roundEven (x * 10 ^ p) : ℝ) / 10 ^ p - x| ≤ 1 / 2 / 10 ^ p := by
  have h0 : (0 : ℝ) < 10 ^ p := by positivity
  have h := roundEven_close (x := x * 10 ^ p) (by positivity)
  have e : (roundEven (x * 10 ^ p) : ℝ) / 10 ^ p - x = ((roundEven (x * 10 ^ p) : ℝ) - x * 10 ^ p) / 10 ^ p := by
    field_simp
  rw [e, abs_div, abs_of_pos h0]
  exact div_le_div_of_nonneg_right h h0.le

/-! ### the printed texts -/

/-- A text of zeros. -/
def Zeros (z : Text) : Prop := ∀ c ∈ z, c = '0'

theorem pad_split (w : Width) (neg : Bool) (t : Text) : ∃ b z, Blank b ∧ Zeros z ∧
    pad w neg t = b ++ ((if neg then ['-'] else []) ++ (z ++ t)) := by
  unfold pad
  simp only
  generalize (if neg then ['-'] else []) = sg
  split_ifs with h
  · exact ⟨[], _, by simp [Blank], fun c hc => List.eq_of_mem_replicate hc, rfl⟩
  · exact ⟨_, [], fun c hc => by rw [List.eq_of_mem_replicate hc]; decide, by simp [Zeros], rfl⟩

theorem Zeros.digits {z t : Text} (hz : Zeros z) (h : Digits t) : Digits (z ++ t) := by
  refine ⟨by simp [h.1], fun c hc => ?_⟩
  rcases List.mem_append.1 hc with hc | hc
  · rw [hz c hc]; decide
  · exact h.2 c hc

theorem Zeros.decimals {z t : Text} (hz : Zeros z) (h : Decimals t) : Decimals (z ++ t) := by
  refine ⟨by simp [h.1], fun c hc => ?_⟩
  rcases List.mem_append.1 hc with hc | hc
  · rw [hz c hc]; exact Or.inl (by decide)
  · exact h.2 c hc

theorem Zeros.value {z : Text} (hz : Zeros z) (t : Text) : Nat.ofDigitChars 10 (z ++ t) 0 = Nat.ofDigitChars 10 t 0 := by
  induction z with
  | nil => rfl
  | cons c z ih =>
    rw [hz c List.mem_cons_self]
    have := ih fun c hc => hz c (List.mem_cons_of_mem _ hc)
    rw [← this]
    simp [Nat.ofDigitChars_cons]

theorem Zeros.reads {z t : Text} {x : ℝ} (hz : Zeros z) (h : Reads t x) : Reads (z ++ t) x := by
  cases h with
  | int _ h =>
    rw [← hz.value t]
    exact .int _ (hz.digits h)
  | dec a b ha hb h =>
    rw [← hz.value a, ← List.append_assoc]
    refine .dec (z ++ a) b ?_ hb (h.imp_left fun h => by simp [h])
    rcases ha with rfl | ha
    · rw [List.append_nil]
      by_cases e : z = []
      · exact Or.inl e
      · exact Or.inr ⟨e, fun c hc => by rw [hz c hc]; decide⟩
    · exact Or.inr (hz.digits ha)

/-- The printed text determines the number. -/
theorem pad_inj {w : Width} {t t' : Text} {x x' : ℝ} (h : pad w false t = pad w false t') (ht : Decimals t) (ht' : Decimals t')
    (hx : Reads t x) (hx' : Reads t' x') : x = x' := by
  obtain ⟨b, z, hb, hz, e⟩ := pad_split w false t
  obtain ⟨b', z', hb', hz', e'⟩ := pad_split w false t'
  rw [e, e'] at h
  simp only [Bool.false_eq_true, if_false, List.nil_append] at h
  have hn := decimal_not_space (hz.decimals ht)
  have hn' := decimal_not_space (hz'.decimals ht')
  have h0 := (hz.decimals ht).1
  have h0' := (hz'.decimals ht').1
  have hr := hz.reads hx
  have hr' := hz'.reads hx'
  generalize z ++ t = u at h hn h0 hr
  generalize z' ++ t' = u' at h hn' h0' hr'
  cases u with
  | nil => exact absurd rfl h0
  | cons c u =>
    cases u' with
    | nil => exact absurd rfl h0'
    | cons c' u' =>
      obtain ⟨-, h1, h2⟩ := span_unique (fun c => isSpace c = true) h hb.space hb'.space (by simp [hn c List.mem_cons_self])
        (by simp [hn' c' List.mem_cons_self])
      rw [h1, h2] at hr
      exact reads_unique hr hr'

theorem formatD_nonneg {x : ℝ} (w : Width) (hx : 0 ≤ x) : formatD w x = pad w false (digits ⌊x⌋₊) := by
  unfold formatD
  rw [if_neg (by linarith)]

theorem formatF_nonneg {x : ℝ} (w : Width) (p : ℕ) (hx : 0 ≤ x) : formatF w p x = pad w false (decimal p (roundEven (x * 10 ^ p))) := by
  unfold formatF
  simp only
  rw [decide_eq_false (by linarith), abs_of_nonneg hx]
  rfl

theorem formatF_neg {x : ℝ} (w : Width) (p : ℕ) (hx : x < 0) :
    formatF w p x = pad w true (decimal p (roundEven (-x * 10 ^ p))) := by
  unfold formatF
  simp only
  rw [decide_eq_true hx, abs_of_neg hx]
  rfl

theorem reads_digits (n : ℕ) : Reads (digits n) n := by
  have := Reads.int _ (digits_digits n)
  rwa [digits_value] at this

theorem formatD_eq {x y : ℝ} {w : Width} (hx : 0 ≤ x) (hy : 0 ≤ y) : formatD w x = formatD w y ↔ ⌊x⌋₊ = ⌊y⌋₊ := by
  rw [formatD_nonneg w hx, formatD_nonneg w hy]
  refine ⟨fun h => ?_, fun h => by rw [h]⟩
  have := pad_inj h (digits_decimals (digits_digits _)) (digits_decimals (digits_digits _)) (reads_digits _) (reads_digits _)
  exact_mod_cast this

theorem formatF_eq {x y : ℝ} {w : Width} {p : ℕ} (hx : 0 ≤ x) (hy : 0 ≤ y) :
    formatF w p x = formatF w p y ↔ roundEven (x * 10 ^ p) = roundEven (y * 10 ^ p) := by
  rw [formatF_nonneg w p hx, formatF_nonneg w p hy]
  refine ⟨fun h => ?_, fun h => by rw [h]⟩
  have := pad_inj h (decimal_decimals _ _) (decimal_decimals _ _) (decimal_reads _ _) (decimal_reads _ _)
  exact_mod_cast (div_left_inj' (by positivity)).1 this

/-! ### degrees, minutes and seconds -/

theorem pymod_range (x : ℝ) : 0 ≤ pymod x 60 ∧ pymod x 60 < 60 ∧ ∃ n : ℤ, x = pymod x 60 + 60 * n ∧ n = ⌊x / 60⌋ := by
  have h1 := Int.floor_le (x / 60)
  have h2 := Int.lt_floor_add_one (x / 60)
  unfold pymod
  refine ⟨by linarith, by linarith, ⌊x / 60⌋, by ring, rfl⟩

/-- The minutes of a non-negative angle. -/
theorem minutes_of {x : ℝ} (hx : 0 ≤ x) : 0 ≤ pymod (x * 60) 60 ∧ pymod (x * 60) 60 < 60 ∧
    x = ⌊x⌋₊ + pymod (x * 60) 60 / 60 := by
  obtain ⟨h1, h2, n, h3, h4⟩ := pymod_range (x * 60)
  refine ⟨h1, h2, ?_⟩
  rw [mul_div_assoc, div_self (by norm_num : (60 : ℝ) ≠ 0), mul_one] at h4
  have h5 : (n : ℝ) = ⌊x⌋₊ := by
    rw [h4]
    have := Int.natCast_floor_eq_floor hx
    rw [← this]
    simp
  rw [h5] at h3
  linarith

theorem split_dms (w2 w3 : Width) (p : ℕ) {x : ℝ} (hx : 0 ≤ x) : ∃ d m s, splitAngle (some (.d w2)) (some (.f w3 p)) x = [d, m, s] ∧
    0 ≤ d ∧ 0 ≤ m ∧ 0 ≤ s ∧
    |dmsValue ⌊d⌋₊ ⌊m⌋₊ (roundEven (s * 10 ^ p) / 10 ^ p) - x| ≤ 1 / 2 / 10 ^ p / 3600 := by
  obtain ⟨m1, m2, m3⟩ := minutes_of hx
  generalize hm : pymod (x * 60) 60 = m at *
  obtain ⟨s1, s2, s3⟩ := minutes_of m1
  generalize hs : pymod (m * 60) 60 = s at *
  have h60 : (roundEven (60 * 10 ^ p) : ℝ) = 60 * 10 ^ p := by
    have := roundEven_nat (60 * 10 ^ p)
    push_cast at this
    rw [this]; push_cast; ring
  have h0 : (0 : ℝ) < 10 ^ p := by positivity
  have hround := round_close s1 p
  have hm60 : ⌊m⌋₊ < 60 := (Nat.floor_lt m1).2 (by exact_mod_cast m2)
  have bound : ∀ r : ℝ, |r - s| ≤ 1 / 2 / 10 ^ p → |dmsValue ⌊x⌋₊ ⌊m⌋₊ r - x| ≤ 1 / 2 / 10 ^ p / 3600 := by
    intro r hr
    have e : dmsValue ⌊x⌋₊ ⌊m⌋₊ r - x = (r - s) / 3600 := by
      unfold dmsValue
      linarith
    rw [e, abs_div, abs_of_pos (by norm_num : (0 : ℝ) < 3600)]
    exact div_le_div_of_nonneg_right hr (by norm_num)
  unfold splitAngle
  simp only [hm, hs, formatNum]
  by_cases hc : formatF w3 p s = formatF w3 p 60
  · rw [if_pos hc]
    rw [formatF_eq s1 (by norm_num)] at hc
    rw [hc, h60, mul_div_assoc, div_self h0.ne', mul_one] at hround
    have hb := bound 60 hround
    have hfl : ⌊m + 1⌋₊ = ⌊m⌋₊ + 1 := Nat.floor_add_one m1
    simp only
    by_cases hc' : formatD w2 (m + 1) = formatD w2 60
    · rw [if_pos hc']
      rw [formatD_eq (by linarith) (by norm_num), hfl] at hc'
      have : ⌊(60 : ℝ)⌋₊ = 60 := by norm_num
      rw [this] at hc'
      refine ⟨_, _, _, rfl, by linarith, le_rfl, le_rfl, ?_⟩
      have hd : ⌊x + 1⌋₊ = ⌊x⌋₊ + 1 := Nat.floor_add_one hx
      have h59 : (⌊m⌋₊ : ℝ) = 59 := by
        have : ⌊m⌋₊ = 59 := by omega
        exact_mod_cast this
      convert hb using 2
      congr 1
      rw [hd, zero_mul]
      have := roundEven_nat 0
      simp only [Nat.cast_zero] at this
      rw [this]
      unfold dmsValue
      rw [h59]
      push_cast
      simp
      norm_num
      ring
    · rw [if_neg hc']
      refine ⟨_, _, _, rfl, hx, by linarith, le_rfl, ?_⟩
      convert hb using 2
      congr 1
      rw [hfl, zero_mul]
      have := roundEven_nat 0
      simp only [Nat.cast_zero] at this
      rw [this]
      unfold dmsValue
      push_cast
      simp
      ring
  · rw [if_neg hc]
    have hc' : ¬ formatD w2 m = formatD w2 60 := by
      rw [formatD_eq m1 (by norm_num)]
      have : ⌊(60 : ℝ)⌋₊ = 60 := by norm_num
      rw [this]
      omega
    simp only
    rw [if_neg hc']
    exact ⟨_, _, _, rfl, hx, m1, s1, bound _ hround⟩

theorem split_dm (w : Width) (p : ℕ) {x : ℝ} (hx : 0 ≤ x) : ∃ d m s, splitAngle (some (.f w p)) none x = [d, m, s] ∧
    0 ≤ d ∧ 0 ≤ m ∧ |dmsValue ⌊d⌋₊ (roundEven (m * 10 ^ p) / 10 ^ p) 0 - x| ≤ 1 / 2 / 10 ^ p / 60 := by
  obtain ⟨m1, m2, m3⟩ := minutes_of hx
  generalize hm : pymod (x * 60) 60 = m at *
  have h60 : (roundEven (60 * 10 ^ p) : ℝ) = 60 * 10 ^ p := by
    have := roundEven_nat (60 * 10 ^ p)
    push_cast at this
    rw [this]; push_cast; ring
  have h0 : (0 : ℝ) < 10 ^ p := by positivity
  have hround := round_close m1 p
  have bound : ∀ r : ℝ, |r - m| ≤ 1 / 2 / 10 ^ p → |dmsValue ⌊x⌋₊ r 0 - x| ≤ 1 / 2 / 10 ^ p / 60 := by
    intro r hr
    have e : dmsValue ⌊x⌋₊ r 0 - x = (r - m) / 60 := by
      unfold dmsValue
      linarith
    rw [e, abs_div, abs_of_pos (by norm_num : (0 : ℝ) < 60)]
    exact div_le_div_of_nonneg_right hr (by norm_num)
  unfold splitAngle
  simp only [hm, formatNum]
  by_cases hc : formatF w p m = formatF w p 60
  · rw [if_pos hc]
    rw [formatF_eq m1 (by norm_num)] at hc
    rw [hc, h60, mul_div_assoc, div_self h0.ne', mul_one] at hround
    have hb := bound 60 hround
    refine ⟨_, _, _, rfl, by linarith, le_rfl, ?_⟩
    have hd : ⌊x + 1⌋₊ = ⌊x⌋₊ + 1 := Nat.floor_add_one hx
    convert hb using 2
    congr 1
    rw [hd, zero_mul]
    have := roundEven_nat 0
    simp only [Nat.cast_zero] at this
    rw [this]
    unfold dmsValue
    push_cast
    simp
  · rw [if_neg hc]
    exact ⟨_, _, _, rfl, hx, m1, bound _ hround⟩

end GpsText
