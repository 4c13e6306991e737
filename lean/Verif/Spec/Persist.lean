import Verif.Spec.System
import Verif.Model.Persist

/-! # What saving and loading should do -/

set_option linter.constructorNameAsVariable false

open Classical

namespace Persist

open Sys

/-- The classes of the projection, the lens and the orientation of a camera. -/
def Classes (s : St) (c : ℕ) (kp : Projection.Kind) (kl : LKind) (ko : OKind) : Prop :=
  ∃ C P L O, s.cams c = some C ∧ s.projs C.proj = some P ∧ s.lenses C.lens = some L ∧ s.orients C.orient = some O ∧
    P.kind = kp ∧ L.kind = kl ∧ O.kind = ko

/-- The ids `p`, `l`, `o` are not in use. -/
structure Fresh (s : St) (p l o : ℕ) : Prop where
  p : s.projs p = none
  l : s.lenses l = none
  o : s.orients o = none

/-- The operation does not assign a 0-dimensional array. -/
def _root_.Sys.Op.NoBox : Op → Prop
  | .set _ _ _ b => b = false
  | _ => True

/-- States that are reached without assigning a 0-dimensional array. -/
inductive ReachN : St → Prop
  | start : ReachN St.empty
  | step {s op} : ReachN s → s.ok op → op.NoBox → ReachN (s.step op)

end Persist
