import Verif.Model.CalView

/-! # What the views of the calibration tool are to show -/

namespace CalView

variable {K : Type}

/-- The upper view shows the image `i`; the lower one shows it too: its corrected picture if the box is ticked and there is one. -/
def Shown (s : St K) (i : ℕ) : Prop :=
  s.view1 = some i ∧ s.view2 = some (i, if s.box.value then (s.c.und i).getD none else none)

/-- An action that does not mix: with `click`, the key D is not used; without, the box is not clicked. -/
def Unmixed (click : Bool) : Act K → Prop
  | .click => click = true
  | .keyD => click = false
  | _ => True

/-- Nothing runs and nothing waits. -/
def Quiet (s : St K) : Prop := s.c.threads = [] ∧ s.calls = []

/-- The user acts only when nothing runs. -/
def Patient : St K → List (Act K) → Prop
  | _, [] => True
  | s, a :: as => (Quiet s ∨ (∃ n, a = .work n) ∨ (∃ n, a = .deliver n) ∨ (∃ n, a = .drop n)) ∧ Patient (s.act a) as

/-- What leaves the selection, the images and the calibration: the threads, the waiting calls, the box and the key. -/
def Still : Act K → Prop
  | .select _ | .calibrate _ | .load _ | .clear => False
  | _ => True

end CalView
