import Mathlib.Analysis.SpecialFunctions.Complex.Arg
import Mathlib.Analysis.SpecialFunctions.Trigonometric.Arctan
import Mathlib.Analysis.SpecialFunctions.Trigonometric.Inverse
import Mathlib.Data.EReal.Basic

/-!
# Ideal IEEE numbers

The numbers numpy computes with, without rounding: real numbers together with `nan`, the two
infinities and a negative zero.  The operations follow the rules of IEEE-754 (and of C99 `atan2`) for
the special values.  Rounding, overflow and underflow are not modelled.
-/

open Classical

/-- An ideal IEEE number.  `fin 0` is the positive zero, `nzero` the negative zero. -/
inductive Num where
  | fin (r : ℝ)
  | nzero
  | pinf
  | ninf
  | nan

namespace Num

/-- `x` is finite and numerically equal to the real `r` (both zeros equal `0`). -/
def Is : Num → ℝ → Prop
  | fin a, r => a = r
  | nzero, r => r = 0
  | _, _ => False

@[inherit_doc] scoped infix:50 " ≃ " => Num.Is

/-- `x` is neither an infinity nor nan (`np.isfinite`). -/
def Finite (x : Num) : Prop := ∃ r, Is x r

/-- The real value of a finite number (0 for the others, only used after checking finiteness). -/
def rv : Num → ℝ
  | fin r => r
  | _ => 0

/-- The sign bit. -/
def signbit : Num → Prop
  | fin r => r < 0
  | nzero => True
  | ninf => True
  | _ => False

/-- `np.isinf`. -/
def IsInf : Num → Prop
  | pinf => True
  | ninf => True
  | _ => False

/-- Either zero. -/
def IsZero (x : Num) : Prop := Is x 0

/-- A finite result with the real value `r`, and the sign `s` in case it is zero. -/
noncomputable def signed (s : Prop) (r : ℝ) : Num :=
  if r = 0 then (if s then nzero else fin 0) else fin r

/-- The infinity with the given sign. -/
noncomputable def signedInf (s : Prop) : Num := if s then ninf else pinf

/-- Negation. -/
noncomputable def neg : Num → Num
  | fin r => if r = 0 then nzero else fin (-r)
  | nzero => fin 0
  | pinf => ninf
  | ninf => pinf
  | nan => nan

/-- Addition. -/
noncomputable def add : Num → Num → Num
  | nan, _ => nan
  | _, nan => nan
  | pinf, ninf => nan
  | ninf, pinf => nan
  | pinf, _ => pinf
  | _, pinf => pinf
  | ninf, _ => ninf
  | _, ninf => ninf
  | nzero, nzero => nzero
  | x, y => fin (rv x + rv y)

/-- Subtraction. -/
noncomputable def sub (x y : Num) : Num := add x (neg y)

/-- Multiplication. -/
noncomputable def mul (x y : Num) : Num :=
  if x = nan ∨ y = nan then nan
  else if IsInf x ∨ IsInf y then
    (if IsZero x ∨ IsZero y then nan else signedInf (Xor (signbit x) (signbit y)))
  else signed (Xor (signbit x) (signbit y)) (rv x * rv y)

/-- Division. -/
noncomputable def div (x y : Num) : Num :=
  if x = nan ∨ y = nan then nan
  else if IsInf x then
    (if IsInf y then nan else signedInf (Xor (signbit x) (signbit y)))
  else if IsInf y then signed (Xor (signbit x) (signbit y)) 0
  else if IsZero y then
    (if IsZero x then nan else signedInf (Xor (signbit x) (signbit y)))
  else signed (Xor (signbit x) (signbit y)) (rv x / rv y)

noncomputable instance : Neg Num := ⟨neg⟩
noncomputable instance : Add Num := ⟨add⟩
noncomputable instance : Sub Num := ⟨sub⟩
noncomputable instance : Mul Num := ⟨mul⟩
noncomputable instance : Div Num := ⟨div⟩
noncomputable instance : Coe ℝ Num := ⟨fin⟩
noncomputable instance (n : ℕ) : OfNat Num n := ⟨fin (n : ℝ)⟩

/-- `x ** n` for a literal natural exponent. -/
noncomputable def npow (x : Num) : ℕ → Num
  | 0 => fin 1
  | n + 1 => npow x n * x

/-- `np.sqrt`. -/
noncomputable def sqrt : Num → Num
  | fin r => if r < 0 then nan else fin (Real.sqrt r)
  | nzero => nzero
  | pinf => pinf
  | _ => nan

/-- `np.abs`. -/
noncomputable def abs : Num → Num
  | fin r => fin |r|
  | nzero => fin 0
  | ninf => pinf
  | x => x

/-- `np.sin`. -/
noncomputable def sin : Num → Num
  | fin r => fin (Real.sin r)
  | nzero => nzero
  | _ => nan

/-- `np.cos`. -/
noncomputable def cos : Num → Num
  | fin r => fin (Real.cos r)
  | nzero => fin 1
  | _ => nan

/-- `np.tan`.  At odd multiples of pi/2, which no double hits, the model follows Mathlib (`0`); the
theorems about `tan` exclude these arguments. -/
noncomputable def tan : Num → Num
  | fin r => fin (Real.tan r)
  | nzero => nzero
  | _ => nan

/-- `np.arctan`. -/
noncomputable def arctan : Num → Num
  | fin r => fin (Real.arctan r)
  | nzero => nzero
  | pinf => fin (Real.pi / 2)
  | ninf => fin (-(Real.pi / 2))
  | nan => nan

/-- `np.arcsin`, nan outside `[-1, 1]`. -/
noncomputable def arcsin : Num → Num
  | fin r => if r < -1 ∨ 1 < r then nan else fin (Real.arcsin r)
  | nzero => nzero
  | _ => nan

/-- `np.arccos`, nan outside `[-1, 1]`. -/
noncomputable def arccos : Num → Num
  | fin r => if r < -1 ∨ 1 < r then nan else fin (Real.arccos r)
  | nzero => fin (Real.pi / 2)
  | _ => nan

/-- The value of a number on the extended real line (nan is mapped to 0, never used for it). -/
noncomputable def ext : Num → EReal
  | fin r => (r : EReal)
  | nzero => 0
  | pinf => ⊤
  | ninf => ⊥
  | nan => 0

/-- `x < y`; false if one of them is nan. -/
def lt (x y : Num) : Prop := x ≠ nan ∧ y ≠ nan ∧ ext x < ext y

/-- `x <= y`; false if one of them is nan. -/
def le (x y : Num) : Prop := x ≠ nan ∧ y ≠ nan ∧ ext x ≤ ext y

/-- `x == y`; false if one of them is nan, true for the two zeros. -/
def eqv (x y : Num) : Prop := x ≠ nan ∧ y ≠ nan ∧ ext x = ext y

instance : LT Num := ⟨lt⟩
instance : LE Num := ⟨le⟩

/-- The sign `-1`/`1` of the sign bit. -/
noncomputable def sgn (x : Num) : ℝ := if signbit x then -1 else 1

/-- `np.arctan2(y, x)` with the C99 rules for zeros and infinities. -/
noncomputable def arctan2 (y x : Num) : Num :=
  if y = nan ∨ x = nan then nan
  else if IsInf y then
    (if IsInf x then
      (if signbit x then fin (sgn y * (3 * Real.pi / 4)) else fin (sgn y * (Real.pi / 4)))
     else fin (sgn y * (Real.pi / 2)))
  else if IsInf x then
    (if signbit x then fin (sgn y * Real.pi) else signed (signbit y) 0)
  else if IsZero y then
    (if signbit x then fin (sgn y * Real.pi) else signed (signbit y) 0)
  else fin (Complex.arg ⟨rv x, rv y⟩)

/-- `np.deg2rad`. -/
noncomputable def deg2rad (x : Num) : Num := x * fin (Real.pi / 180)

/-- `np.rad2deg`. -/
noncomputable def rad2deg (x : Num) : Num := x * fin (180 / Real.pi)

end Num
