import Verif.Model.CalWin

/-! # What the "Process" button, the table and the fit should do -/

namespace CalWin

variable {D : Type}

/-- The image shows the result of its processing: nothing found, or found and in use with its corners. -/
def Result (found : Option D) (m : Img D) : Prop :=
  match found with
  | none => m.status = .failed
  | some c => m.status = .yes ∧ m.use = true ∧ m.corners = some c

/-- Nothing is running and no call waits. -/
def St.idle (s : St D) : Prop := s.threads = [] ∧ s.calls = 0 ∧ s.rows = []

/-- What happens without the user, when nothing fails: steps of threads and deliveries of calls. -/
def Act.own : Act D → Prop
  | .work _ | .deliver | .deliverRow _ => True
  | _ => False

/-- An action of this kind is possible. -/
def St.can (s : St D) : Act D → Prop
  | .work k => k < s.threads.length
  | .deliver => s.calls ≠ 0
  | .deliverRow k => k < s.rows.length
  | _ => False

/-- The states that can be reached from the start of the window. -/
def Reached (det : ℕ → Option D) (s : St D) : Prop := ∃ acts : List (Act D), s = acts.foldl (St.act det) (St.init D)

/-- The table agrees with the images. -/
def St.tableRight (s : St D) : Prop := s.table = s.images.map fun i => (s.imgs i).data

end CalWin
