import Mathlib.Data.Real.Basic
import Mathlib.Algebra.Order.Floor.Defs
import Mathlib.Algebra.Order.Floor.Ring
import Mathlib.Algebra.Order.Archimedean.Real.Basic

/-! # The input widgets of the demonstration

Model of gui_tools/demonstrator/QtShortCuts.py:70-140 (`QInput`), 143-209 (`QInputNumber`), 212-228 (`QInputString`), 231-247
(`QInputBool`), 250-282 (`QInputChoice`).  A widget of the library has a value and a signal; the class adds the signal `valueChanged`,
which is to be sent when the user has changed the input.  Of Qt it is assumed that a spin box, check box or combo box sends its signal
when its value has changed, by the user or by the program; that a spin box clips to its range and rounds to its decimals. -/

namespace QInput

/-- The attributes `value()` and `last_emited_value` (QtShortCuts.py:84), and the values sent with `valueChanged` so far, the last one
first. -/
structure St (V : Type) where
  value : V
  last : Option V
  sent : List V

/-- An input that was just created (QtShortCuts.py:84, the calls of `setValue` in the constructors). -/
def St.new {V : Type} (v : V) : St V := ⟨v, none, []⟩

variable {V : Type}

/-- QtShortCuts.py:127-132 `setValue`: while it runs, the signals of the library's widget are not handled. -/
def St.setValue (s : St V) (v : V) : St V := { s with value := v }

open Classical in
/-- QtShortCuts.py:116-119 `_emitSignal`. -/
noncomputable def St.emitSignal (s : St V) : St V :=
  if some s.value = s.last then s else ⟨s.value, some s.value, s.value :: s.sent⟩

/-- QtShortCuts.py:121-125 `_valueChangedEvent` (not while `setValue` runs). -/
noncomputable def St.valueChangedEvent (s : St V) (v : V) : St V := (s.setValue v).emitSignal

/-- What happens to an input: the user changes the spin box, check box or combo box to `v` (nothing happens if it is the value already);
the user finishes editing a text, chooses a colour or a file, or drags the slider along `path` and releases it (QtShortCuts.py:220,
306-315, 188-198); the program calls `setValue`. -/
inductive Act (V : Type) where
  | change (v : V)
  | enter (v : V)
  | drag (path : List V)
  | program (v : V)

open Classical in
noncomputable def St.act (s : St V) : Act V → St V
  | .change v => if v = s.value then s else s.valueChangedEvent v
  | .enter v => s.valueChangedEvent v
  | .drag path => (path.foldl St.setValue s).emitSignal
  | .program v => s.setValue v

/-- The input after a history. -/
noncomputable def after (v : V) (as : List (Act V)) : St V := as.foldl St.act (St.new v)

end QInput

namespace QNumber

/-- The range and the number of decimals of a `QInputNumber` (QtShortCuts.py:146-186); with `float=False` there are no decimals. -/
structure Cfg where
  min : ℝ
  max : ℝ
  decimals : ℕ

/-- Python's `int(x)`: towards zero. -/
noncomputable def trunc (x : ℝ) : ℤ := if 0 ≤ x then ⌊x⌋ else ⌈x⌉

/-- A value rounded to `n` decimals, as a spin box does it. -/
noncomputable def roundTo (n : ℕ) (x : ℝ) : ℝ := (⌊x * 10 ^ n + 1 / 2⌋ : ℝ) / 10 ^ n

/-- QtShortCuts.py:200-209 `_doSetValue`, `value`: what the spin box has after `setValue`. -/
noncomputable def Cfg.stored (c : Cfg) (v : ℝ) : ℝ :=
  let v := if c.decimals = 0 then (trunc v : ℝ) else v
  Max.max c.min (Min.min c.max (roundTo c.decimals v))

/-- QtShortCuts.py:206 `self.slider.setValue(int(value * self.decimal_factor))`: where the slider stands afterwards (its range is the one of
the spin box, in steps). -/
noncomputable def Cfg.position (c : Cfg) (v : ℝ) : ℤ :=
  Max.max (trunc (c.min * 10 ^ c.decimals)) (Min.min (trunc (c.max * 10 ^ c.decimals)) (trunc (v * 10 ^ c.decimals)))

end QNumber
