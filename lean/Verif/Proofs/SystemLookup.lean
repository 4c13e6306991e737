import Verif.Proofs.SystemExcl

/-! Names in the dictionaries. -/

set_option linter.constructorNameAsVariable false

open Classical

namespace Sys

theorem orientDict_lookup (k : OKind) (o : ℕ) (f : OField) : (orientDict k o).lookup (f.name k) = some (.o o f) := by
  cases k <;> cases f <;> simp [orientDict, OField.all, OField.name, List.lookup]

theorem projDict_lookup (p : ℕ) (f : PField) : (projDict p).lookup f.name = some (.p p f) := by
  cases f <;> simp [projDict, PField.all, PField.name, List.lookup]

theorem lensDict_lookup {k : LKind} (hk : k ≠ .none) (l : ℕ) (pr : Option ℕ) (f : LField) :
    (lensDict k l pr).lookup (f.name k) = some (.l l f) := by
  cases k <;> first | exact absurd rfl hk | (cases f <;> simp [lensDict, LField.all, LField.name, List.lookup])

theorem lensDict_lookup_p {k : LKind} (hk : k ≠ .none) (l p : ℕ) {f : PField} (hf : f ∈ PField.lens) :
    (lensDict k l (some p)).lookup f.name = some (.p p f) := by
  cases k <;> first | exact absurd rfl hk |
    (cases f <;> first | (simp [PField.lens] at hf; done) |
      simp [lensDict, LField.all, LField.name, PField.lens, PField.name, List.lookup])

theorem camDict_lookup_p (ko : OKind) (kl : LKind) (c p o l : ℕ) (f : PField) :
    (camDict ko kl c p o l).lookup f.name = some (.p p f) := by
  cases f <;> simp [camDict, projDict, PField.all, PField.name, CField.all, CField.name, List.lookup]

theorem camDict_lookup_c (ko : OKind) (kl : LKind) (c p o l : ℕ) (f : CField) :
    (camDict ko kl c p o l).lookup f.name = some (.c c f) := by
  cases f <;> simp [camDict, CField.all, CField.name, List.lookup]

theorem camDict_lookup_o (ko : OKind) (kl : LKind) (c p o l : ℕ) (f : OField) :
    (camDict ko kl c p o l).lookup (f.name ko) = some (.o o f) := by
  cases ko <;> cases f <;>
    simp [camDict, projDict, PField.all, PField.name, CField.all, CField.name, orientDict, OField.all, OField.name, List.lookup]

theorem camDict_lookup_l (ko : OKind) {kl : LKind} (hk : kl ≠ .none) (c p o l : ℕ) (f : LField) :
    (camDict ko kl c p o l).lookup (f.name kl) = some (.l l f) := by
  cases kl <;> first | exact absurd rfl hk | (cases ko <;> cases f <;>
    simp [camDict, projDict, PField.all, PField.name, CField.all, CField.name, orientDict, OField.all, OField.name, lensDict, LField.all, LField.name, List.lookup])

theorem lookup_map {α : Type} (l : List α) (name : α → String) (g : α → Pid) {n : String} {q : Pid}
    (h : (l.map fun f => (name f, g f)).lookup n = some q) : ∃ f ∈ l, n = name f ∧ q = g f := by
  have := lookup_mem h
  rw [List.mem_map] at this
  obtain ⟨f, hf, e⟩ := this
  exact ⟨f, hf, by cases e; rfl, by cases e; rfl⟩

end Sys
