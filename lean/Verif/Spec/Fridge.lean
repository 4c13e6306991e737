import Verif.Model.Fridge

/-! # Specification of samplers -/

namespace Stat

/-- The samples a sampler can return, for some answers to its questions. -/
def Sampler.Returns {n : ℕ} : Sampler n → List (Fin n → ℝ) → Prop
  | .done l, r => r = l
  | .ask _ next, r => ∃ a, (next a).Returns r

end Stat
