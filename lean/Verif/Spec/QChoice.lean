import Verif.Model.QChoice

/-! # Specifications for the drop-down of the demonstration -/

namespace QChoice

variable {V : Type} [DecidableEq V]

/-- Every value has a name and every name a value. -/
def Even {V : Type} (c : Cfg V) : Prop := c.names.length = c.values.length

/-- The drop-down after a history. -/
def after (c : Cfg V) (s : St V) (as : List (Act V)) : St V := as.foldl (act c) s

end QChoice
