import Verif.Num

/-! Transfer lemmas between ideal IEEE numbers and the reals. -/

open Classical

namespace Num

theorem Is.unique {x : Num} {a b : ℝ} (h : Is x a) (h' : Is x b) : a = b := by
  cases x <;> simp_all [Is]

theorem Is.congr {x : Num} {a b : ℝ} (h : Is x a) (e : a = b) : Is x b := e ▸ h

@[simp] theorem is_fin (a : ℝ) : Is (fin a) a := rfl
@[simp] theorem is_fin_iff (a b : ℝ) : Is (fin a) b ↔ a = b := Iff.rfl
@[simp] theorem not_is_nan (b : ℝ) : ¬ Is nan b := id
@[simp] theorem not_is_pinf (b : ℝ) : ¬ Is pinf b := id
@[simp] theorem not_is_ninf (b : ℝ) : ¬ Is ninf b := id
@[simp] theorem is_nzero_iff (b : ℝ) : Is nzero b ↔ b = 0 := Iff.rfl

theorem Is.ne_nan {x : Num} {a : ℝ} (h : Is x a) : x ≠ nan := by
  rintro rfl; exact h
theorem Is.not_inf {x : Num} {a : ℝ} (h : Is x a) : ¬ IsInf x := by
  cases x <;> simp_all [Is, IsInf]
theorem Is.rv_eq {x : Num} {a : ℝ} (h : Is x a) : rv x = a := by
  cases x <;> simp_all [Is, rv]
theorem Is.isZero_iff {x : Num} {a : ℝ} (h : Is x a) : IsZero x ↔ a = 0 := by
  unfold IsZero
  constructor
  · intro h'; exact (h'.unique h).symm
  · rintro rfl; exact h
theorem Is.fin_of_ne {x : Num} {a : ℝ} (h : Is x a) (ha : a ≠ 0) : x = fin a := by
  cases x <;> simp_all [Is]
theorem Is.signbit_iff {x : Num} {a : ℝ} (h : Is x a) (ha : a ≠ 0) : signbit x ↔ a < 0 := by
  rw [h.fin_of_ne ha]; rfl
theorem Is.ext_eq {x : Num} {a : ℝ} (h : Is x a) : ext x = (a : EReal) := by
  cases x <;> simp_all [Is, ext]

theorem finite_fin (r : ℝ) : Finite (fin r) := ⟨r, rfl⟩
theorem Is.finite {x : Num} {a : ℝ} (h : Is x a) : Finite x := ⟨a, h⟩
theorem not_finite_nan : ¬ Finite nan := fun ⟨_, h⟩ => h
theorem not_finite_pinf : ¬ Finite pinf := fun ⟨_, h⟩ => h
theorem not_finite_ninf : ¬ Finite ninf := fun ⟨_, h⟩ => h

theorem ofNat_eq (n : ℕ) : (OfNat.ofNat n : Num) = fin (n : ℝ) := rfl
theorem is_zero : Is (0 : Num) 0 := by show ((0:ℕ):ℝ) = 0; simp
theorem is_one : Is (1 : Num) 1 := by show ((1:ℕ):ℝ) = 1; simp
theorem is_two : Is (2 : Num) 2 := by show ((2:ℕ):ℝ) = 2; simp
theorem is_signed (s : Prop) (r : ℝ) : Is (signed s r) r := by
  unfold signed; split_ifs <;> simp_all [Is]

/-! ### operations -/

theorem Is.neg {x : Num} {a : ℝ} (h : Is x a) : Is (-x) (-a) := by
  show Is (Num.neg x) _
  cases x with
  | fin r =>
    simp only [is_fin_iff] at h; subst h
    simp only [Num.neg]; split_ifs with h0
    · simp [Is, h0]
    · simp [Is]
  | nzero => simp_all [Is, Num.neg]
  | _ => simp_all [Is]

theorem Is.add {x y : Num} {a b : ℝ} (h : Is x a) (h' : Is y b) : Is (x + y) (a + b) := by
  show Is (Num.add x y) _
  cases x <;> cases y <;> simp_all [Is, Num.add, rv]

theorem Is.sub {x y : Num} {a b : ℝ} (h : Is x a) (h' : Is y b) : Is (x - y) (a - b) := by
  rw [sub_eq_add_neg]; exact Is.add h (Is.neg h')

theorem Is.mul {x y : Num} {a b : ℝ} (h : Is x a) (h' : Is y b) : Is (x * y) (a * b) := by
  show Is (Num.mul x y) _
  unfold Num.mul
  rw [if_neg (by simp [h.ne_nan, h'.ne_nan]), if_neg (by simp [h.not_inf, h'.not_inf]), h.rv_eq, h'.rv_eq]
  exact is_signed _ _

theorem Is.div {x y : Num} {a b : ℝ} (h : Is x a) (h' : Is y b) (hb : b ≠ 0) : Is (x / y) (a / b) := by
  show Is (Num.div x y) _
  unfold Num.div
  rw [if_neg (by simp [h.ne_nan, h'.ne_nan]), if_neg h.not_inf, if_neg h'.not_inf,
    if_neg (by rw [h'.isZero_iff]; exact hb), h.rv_eq, h'.rv_eq]
  exact is_signed _ _

theorem zero_div_zero {x y : Num} (h : Is x 0) (h' : Is y 0) : x / y = nan := by
  show Num.div x y = _
  unfold Num.div
  rw [if_neg (by simp [h.ne_nan, h'.ne_nan]), if_neg h.not_inf, if_neg h'.not_inf,
    if_pos (by rw [h'.isZero_iff]), if_pos (by rw [h.isZero_iff])]

theorem div_zero_inf {x y : Num} {a : ℝ} (h : Is x a) (ha : a ≠ 0) (h' : Is y 0) : IsInf (x / y) := by
  show IsInf (Num.div x y)
  unfold Num.div
  rw [if_neg (by simp [h.ne_nan, h'.ne_nan]), if_neg h.not_inf, if_neg h'.not_inf,
    if_pos (by rw [h'.isZero_iff]), if_neg (by rw [h.isZero_iff]; exact ha)]
  unfold signedInf; split_ifs <;> trivial

@[simp] theorem nan_add (x : Num) : nan + x = nan := by cases x <;> rfl
@[simp] theorem add_nan (x : Num) : x + nan = nan := by cases x <;> rfl
@[simp] theorem neg_nan : -nan = nan := rfl
@[simp] theorem nan_sub (x : Num) : nan - x = nan := nan_add _
@[simp] theorem sub_nan (x : Num) : x - nan = nan := add_nan _
@[simp] theorem nan_mul (x : Num) : nan * x = nan := by
  show Num.mul _ _ = _; unfold Num.mul; simp
@[simp] theorem mul_nan (x : Num) : x * nan = nan := by
  show Num.mul _ _ = _; unfold Num.mul; simp
@[simp] theorem nan_div (x : Num) : nan / x = nan := by
  show Num.div _ _ = _; unfold Num.div; simp
@[simp] theorem div_nan (x : Num) : x / nan = nan := by
  show Num.div _ _ = _; unfold Num.div; simp
@[simp] theorem sqrt_nan : sqrt nan = nan := rfl

theorem Is.npow {x : Num} {a : ℝ} (h : Is x a) (n : ℕ) : Is (Num.npow x n) (a ^ n) := by
  induction n with
  | zero => simp [Num.npow, Is]
  | succ n ih => rw [pow_succ]; exact Is.mul ih h

theorem Is.sqrt {x : Num} {a : ℝ} (h : Is x a) (ha : 0 ≤ a) : Is (Num.sqrt x) (Real.sqrt a) := by
  cases x with
  | fin r =>
    simp only [is_fin_iff] at h; subst h
    simp only [Num.sqrt]; rw [if_neg (not_lt.2 ha)]; rfl
  | nzero => simp_all [Is, Num.sqrt]
  | _ => simp_all [Is]

theorem Is.sqrt_neg {x : Num} {a : ℝ} (h : Is x a) (ha : a < 0) : Num.sqrt x = nan := by
  rw [h.fin_of_ne ha.ne]; simp only [Num.sqrt]; rw [if_pos ha]

theorem Is.abs {x : Num} {a : ℝ} (h : Is x a) : Is (Num.abs x) |a| := by
  cases x <;> simp_all [Is, Num.abs]
theorem Is.sin {x : Num} {a : ℝ} (h : Is x a) : Is (Num.sin x) (Real.sin a) := by
  cases x <;> simp_all [Is, Num.sin]
theorem Is.cos {x : Num} {a : ℝ} (h : Is x a) : Is (Num.cos x) (Real.cos a) := by
  cases x <;> simp_all [Is, Num.cos]
theorem Is.tan {x : Num} {a : ℝ} (h : Is x a) : Is (Num.tan x) (Real.tan a) := by
  cases x <;> simp_all [Is, Num.tan]
theorem Is.arctan {x : Num} {a : ℝ} (h : Is x a) : Is (Num.arctan x) (Real.arctan a) := by
  cases x <;> simp_all [Is, Num.arctan]
theorem Is.arcsin {x : Num} {a : ℝ} (h : Is x a) (h1 : -1 ≤ a) (h2 : a ≤ 1) :
    Is (Num.arcsin x) (Real.arcsin a) := by
  cases x with
  | fin r =>
    simp only [is_fin_iff] at h; subst h
    simp only [Num.arcsin]; rw [if_neg (not_or.2 ⟨not_lt.2 h1, not_lt.2 h2⟩)]; rfl
  | nzero => simp_all [Is, Num.arcsin]
  | _ => simp_all [Is]
theorem Is.arccos {x : Num} {a : ℝ} (h : Is x a) (h1 : -1 ≤ a) (h2 : a ≤ 1) :
    Is (Num.arccos x) (Real.arccos a) := by
  cases x with
  | fin r =>
    simp only [is_fin_iff] at h; subst h
    simp only [Num.arccos]; rw [if_neg (not_or.2 ⟨not_lt.2 h1, not_lt.2 h2⟩)]; rfl
  | nzero => simp_all [Is, Num.arccos]
  | _ => simp_all [Is]

theorem Is.deg2rad {x : Num} {a : ℝ} (h : Is x a) : Is (Num.deg2rad x) (a * (Real.pi / 180)) :=
  Is.mul h rfl
theorem Is.rad2deg {x : Num} {a : ℝ} (h : Is x a) : Is (Num.rad2deg x) (a * (180 / Real.pi)) :=
  Is.mul h rfl

/-! ### comparisons -/

theorem Is.lt_iff {x y : Num} {a b : ℝ} (h : Is x a) (h' : Is y b) : x < y ↔ a < b := by
  show Num.lt x y ↔ _
  unfold Num.lt
  rw [h.ext_eq, h'.ext_eq]
  simp [h.ne_nan, h'.ne_nan]
theorem Is.le_iff {x y : Num} {a b : ℝ} (h : Is x a) (h' : Is y b) : x ≤ y ↔ a ≤ b := by
  show Num.le x y ↔ _
  unfold Num.le
  rw [h.ext_eq, h'.ext_eq]
  simp [h.ne_nan, h'.ne_nan]
theorem Is.eqv_iff {x y : Num} {a b : ℝ} (h : Is x a) (h' : Is y b) : eqv x y ↔ a = b := by
  unfold Num.eqv
  rw [h.ext_eq, h'.ext_eq]
  simp [h.ne_nan, h'.ne_nan]
@[simp] theorem not_nan_lt (y : Num) : ¬ (nan < y) := fun h => h.1 rfl
@[simp] theorem not_lt_nan (y : Num) : ¬ (y < nan) := fun h => h.2.1 rfl
@[simp] theorem not_nan_le (y : Num) : ¬ (nan ≤ y) := fun h => h.1 rfl
@[simp] theorem not_le_nan (y : Num) : ¬ (y ≤ nan) := fun h => h.2.1 rfl

/-! ### arctan2 -/

/-- For a non-zero ordinate, or a positive abscissa, `arctan2` is the argument of the complex number. -/
theorem Is.arctan2 {y x : Num} {b a : ℝ} (hy : Is y b) (hx : Is x a) (h : b ≠ 0 ∨ 0 < a) :
    Is (Num.arctan2 y x) (Complex.arg ⟨a, b⟩) := by
  unfold Num.arctan2
  rw [if_neg (by simp [hy.ne_nan, hx.ne_nan]), if_neg hy.not_inf, if_neg hx.not_inf]
  by_cases hb : b = 0
  · subst hb
    have ha : 0 < a := by simpa using h
    rw [if_pos (by rw [hy.isZero_iff]), if_neg (by rw [hx.signbit_iff ha.ne']; exact not_lt.2 ha.le)]
    have : Complex.arg ⟨a, 0⟩ = 0 := Complex.arg_ofReal_of_nonneg ha.le
    rw [this]; exact is_signed _ _
  · rw [if_neg (by rw [hy.isZero_iff]; exact hb), hx.rv_eq, hy.rv_eq]; exact rfl

/-- A zero ordinate and a negative abscissa give plus or minus pi, by the sign of the zero. -/
theorem Is.arctan2_neg {y x : Num} {a : ℝ} (hy : Is y 0) (hx : Is x a) (ha : a < 0) :
    Is (Num.arctan2 y x) (sgn y * Real.pi) := by
  unfold Num.arctan2
  rw [if_neg (by simp [hy.ne_nan, hx.ne_nan]), if_neg hy.not_inf, if_neg hx.not_inf,
    if_pos (by rw [hy.isZero_iff]), if_pos (by rw [hx.signbit_iff ha.ne]; exact ha)]
  exact rfl

/-- `arctan2` of finite arguments is finite. -/
theorem Is.arctan2_finite {y x : Num} {b a : ℝ} (hy : Is y b) (hx : Is x a) :
    Finite (Num.arctan2 y x) := by
  unfold Num.arctan2
  rw [if_neg (by simp [hy.ne_nan, hx.ne_nan]), if_neg hy.not_inf, if_neg hx.not_inf]
  split_ifs
  · exact ⟨_, rfl⟩
  · exact ⟨_, is_signed _ _⟩
  · exact ⟨_, rfl⟩

end Num

/-- One step of the automatic transfer of a computation on finite numbers to the reals. -/
macro "num_step" : tactic =>
  `(tactic| first
    | assumption
    | exact Num.is_fin _
    | apply Num.Is.add
    | apply Num.Is.sub
    | apply Num.Is.mul
    | apply Num.Is.neg
    | apply Num.Is.npow
    | apply Num.Is.sin
    | apply Num.Is.cos
    | apply Num.Is.tan
    | apply Num.Is.arctan
    | apply Num.Is.abs
    | apply Num.Is.deg2rad
    | apply Num.Is.rad2deg
    | apply Num.Is.div
    | apply Num.Is.sqrt)

/-- Transfer `Is e r` to an equation over the reals (and side conditions of divisions and roots). -/
macro "num_is" : tactic =>
  `(tactic| (apply Num.Is.congr; on_goal 1 => repeat' num_step))
