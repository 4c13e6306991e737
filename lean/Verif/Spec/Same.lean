import Verif.Spec.Camera

/-! # Equal results up to the sign of zero -/

/-- Equal, where 0 and -0 count as equal and nan as equal to nan. -/
def Num.Same (a b : Num) : Prop := a = b ∨ ∃ r : ℝ, Num.Is a r ∧ Num.Is b r

/-- Both coordinates are the same. -/
def V2.SameN (a b : V2 Num) : Prop := Num.Same a.x b.x ∧ Num.Same a.y b.y
