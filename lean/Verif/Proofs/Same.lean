import Verif.Spec.Same
import Verif.Proofs.Num
import Verif.Proofs.Lens

/-! # Lemmas about `Num.Same` -/

set_option linter.constructorNameAsVariable false

open Classical

namespace Num

theorem Same.rfl' (a : Num) : Same a a := Or.inl rfl

theorem Same.symm {a b : Num} (h : Same a b) : Same b a := by
  rcases h with rfl | ⟨r, h1, h2⟩
  · exact Or.inl rfl
  · exact Or.inr ⟨r, h2, h1⟩

/-- Either equal or two zeros. -/
theorem Same.cases {a b : Num} (h : Same a b) : a = b ∨ (Is a 0 ∧ Is b 0) := by
  rcases h with rfl | ⟨r, h1, h2⟩
  · exact Or.inl rfl
  · by_cases hr : r = 0
    · subst hr; exact Or.inr ⟨h1, h2⟩
    · left; rw [h1.fin_of_ne hr, h2.fin_of_ne hr]

theorem zero_cases {a : Num} (h : Is a 0) : a = fin 0 ∨ a = nzero := by
  cases a with
  | fin r => left; rw [show r = 0 from h]
  | nzero => exact Or.inr rfl
  | pinf => exact h.elim
  | ninf => exact h.elim
  | nan => exact h.elim

theorem not_fin_cases {d : Num} (hd : ¬ ∃ r, Is d r) : d = pinf ∨ d = ninf ∨ d = nan := by
  cases d with
  | fin r => exact absurd ⟨r, rfl⟩ hd
  | nzero => exact absurd ⟨0, rfl⟩ hd
  | pinf => simp
  | ninf => simp
  | nan => simp

theorem zero_mul_nonfin {a d : Num} (ha : Is a 0) (hd : ¬ ∃ r, Is d r) : a * d = nan ∧ d * a = nan := by
  have h1 : IsZero a := ha
  constructor
  · show Num.mul a d = nan
    unfold Num.mul
    rcases not_fin_cases hd with rfl | rfl | rfl <;> simp [h1, IsInf]
  · show Num.mul d a = nan
    unfold Num.mul
    rcases not_fin_cases hd with rfl | rfl | rfl <;> simp [h1, IsInf]

theorem Same.mul {a b c d : Num} (h : Same a b) (k : Same c d) : Same (a * c) (b * d) := by
  rcases h.cases with rfl | ⟨ha, hb⟩ <;> rcases k.cases with rfl | ⟨hc, hd⟩
  · exact Or.inl rfl
  · by_cases hf : ∃ r, Is a r
    · obtain ⟨r, hf⟩ := hf
      exact Or.inr ⟨_, hf.mul hc, hf.mul hd⟩
    · left; rw [(zero_mul_nonfin hc hf).2, (zero_mul_nonfin hd hf).2]
  · by_cases hf : ∃ r, Is c r
    · obtain ⟨r, hf⟩ := hf
      exact Or.inr ⟨_, ha.mul hf, hb.mul hf⟩
    · left; rw [(zero_mul_nonfin ha hf).1, (zero_mul_nonfin hb hf).1]
  · exact Or.inr ⟨_, ha.mul hc, hb.mul hd⟩

theorem add_zero_nonfin {a d : Num} (ha : Is a 0) (hd : ¬ ∃ r, Is d r) : a + d = d ∧ d + a = d := by
  rcases zero_cases ha with rfl | rfl <;> rcases not_fin_cases hd with rfl | rfl | rfl <;> exact ⟨rfl, rfl⟩

theorem Same.add {a b c d : Num} (h : Same a b) (k : Same c d) : Same (a + c) (b + d) := by
  rcases h.cases with rfl | ⟨ha, hb⟩ <;> rcases k.cases with rfl | ⟨hc, hd⟩
  · exact Or.inl rfl
  · by_cases hf : ∃ r, Is a r
    · obtain ⟨r, hf⟩ := hf
      exact Or.inr ⟨_, hf.add hc, hf.add hd⟩
    · left; rw [(add_zero_nonfin hc hf).2, (add_zero_nonfin hd hf).2]
  · by_cases hf : ∃ r, Is c r
    · obtain ⟨r, hf⟩ := hf
      exact Or.inr ⟨_, ha.add hf, hb.add hf⟩
    · left; rw [(add_zero_nonfin ha hf).1, (add_zero_nonfin hb hf).1]
  · exact Or.inr ⟨_, ha.add hc, hb.add hd⟩

theorem Same.neg {a b : Num} (h : Same a b) : Same (-a) (-b) := by
  rcases h with rfl | ⟨r, h1, h2⟩
  · exact Or.inl rfl
  · exact Or.inr ⟨_, h1.neg, h2.neg⟩

theorem Same.sub {a b c d : Num} (h : Same a b) (k : Same c d) : Same (a - c) (b - d) := h.add k.neg

theorem Same.sqrt {a b : Num} (h : Same a b) : Same (Num.sqrt a) (Num.sqrt b) := by
  rcases h.cases with rfl | ⟨ha, hb⟩
  · exact Or.inl rfl
  · exact Or.inr ⟨_, ha.sqrt le_rfl, hb.sqrt le_rfl⟩

/-- Division by the same number. -/
theorem Same.div {a b : Num} (h : Same a b) (d : Num) : Same (a / d) (b / d) := by
  rcases h.cases with rfl | ⟨ha, hb⟩
  · exact Or.inl rfl
  · by_cases hf : ∃ r, Is d r
    · obtain ⟨r, hf⟩ := hf
      by_cases hr : r = 0
      · subst hr; left; rw [zero_div_zero ha hf, zero_div_zero hb hf]
      · exact Or.inr ⟨_, ha.div hf hr, hb.div hf hr⟩
    · have key : ∀ {a : Num}, Is a 0 → (d = nan → a / d = nan) ∧ (d ≠ nan → Is (a / d) 0) := by
        intro a ha
        constructor
        · rintro rfl; simp
        · intro hn
          show Is (Num.div a d) 0
          unfold Num.div
          have h1 : ¬ (a = nan ∨ d = nan) := by
            rintro (h | h)
            · exact ha.ne_nan h
            · exact hn h
          rw [if_neg h1, if_neg ha.not_inf]
          rcases not_fin_cases hf with rfl | rfl | rfl
          · rw [if_pos (show IsInf pinf from trivial)]; exact is_signed _ _
          · rw [if_pos (show IsInf ninf from trivial)]; exact is_signed _ _
          · exact absurd rfl hn
      by_cases hn : d = nan
      · left; rw [(key ha).1 hn, (key hb).1 hn]
      · exact Or.inr ⟨0, (key ha).2 hn, (key hb).2 hn⟩

/-- A root that is zero has a zero below it. -/
theorem sqrt_zero {a : Num} (h : Is (Num.sqrt a) 0) : Is a 0 := by
  cases a with
  | fin r =>
    simp only [Num.sqrt] at h
    split_ifs at h with h1
    · exact h.elim
    · have : Real.sqrt r = 0 := h
      rw [Real.sqrt_eq_zero (not_lt.1 h1)] at this
      exact this
  | nzero => rfl
  | pinf => exact h.elim
  | ninf => exact h.elim
  | nan => exact h.elim

theorem mul_self_nonfin {a : Num} (h : ¬ ∃ r, Is a r) : ¬ ∃ r, Is (a * a) r := by
  rcases not_fin_cases h with rfl | rfl | rfl
  · rintro ⟨r, h⟩
    have : (pinf : Num) * pinf = signedInf (Xor (signbit pinf) (signbit pinf)) := by
      show Num.mul _ _ = _
      unfold Num.mul
      simp [IsInf, IsZero]
    rw [this] at h; unfold signedInf at h; split_ifs at h <;> exact h
  · rintro ⟨r, h⟩
    have : (ninf : Num) * ninf = signedInf (Xor (signbit ninf) (signbit ninf)) := by
      show Num.mul _ _ = _
      unfold Num.mul
      simp [IsInf, IsZero]
    rw [this] at h; unfold signedInf at h; split_ifs at h <;> exact h
  · rintro ⟨r, h⟩; simp at h

theorem add_nonfin {a b : Num} (h : ∃ r, Is (a + b) r) : (∃ r, Is a r) ∧ ∃ r, Is b r := by
  obtain ⟨r, h⟩ := h
  have h : Is (Num.add a b) r := h
  have f1 : ∀ x, ∃ r, Is (fin x) r := fun x => ⟨x, rfl⟩
  have f2 : ∃ r, Is nzero r := ⟨0, rfl⟩
  cases a <;> cases b <;> first | exact h.elim | exact ⟨f1 _, f1 _⟩ | exact ⟨f1 _, f2⟩ | exact ⟨f2, f1 _⟩ | exact ⟨f2, f2⟩

/-- Two squares with sum zero. -/
theorem squares_zero {a b : Num} (h : Is (a * a + b * b) 0) : Is a 0 ∧ Is b 0 := by
  obtain ⟨h1, h2⟩ := add_nonfin ⟨0, h⟩
  have fa : ∃ r, Is a r := by by_contra hn; exact mul_self_nonfin hn h1
  have fb : ∃ r, Is b r := by by_contra hn; exact mul_self_nonfin hn h2
  obtain ⟨x, hx⟩ := fa
  obtain ⟨y, hy⟩ := fb
  have e := h.unique ((hx.mul hx).add (hy.mul hy))
  have h1 : x = 0 := by nlinarith [mul_self_nonneg x, mul_self_nonneg y]
  have h2 : y = 0 := by nlinarith [mul_self_nonneg x, mul_self_nonneg y]
  exact ⟨h1 ▸ hx, h2 ▸ hy⟩

end Num

theorem V2.Same.sameN {a b : V2 Num} (h : V2.Same a b) : V2.SameN a b := by
  rcases h with ⟨rfl, rfl⟩ | ⟨q, h1, h2⟩
  · exact ⟨Or.inl rfl, Or.inl rfl⟩
  · exact ⟨Or.inr ⟨_, h1.1, h2.1⟩, Or.inr ⟨_, h1.2, h2.2⟩⟩

/-- Radial lenses respect sameness. -/
theorem LensModel.transform_same (L : LensModel.Radial) (f : Num → Num) {a b : V2 Num} (h : V2.SameN a b) :
    V2.SameN (LensModel.transform L f a) (LensModel.transform L f b) := by
  have hx := (h.1.sub (Num.Same.rfl' (.fin L.offset.x))).div (.fin L.scale.x)
  have hy := (h.2.sub (Num.Same.rfl' (.fin L.offset.y))).div (.fin L.scale.y)
  unfold LensModel.transform
  set qx := (a.x - .fin L.offset.x) / .fin L.scale.x
  set qy := (a.y - .fin L.offset.y) / .fin L.scale.y
  set px := (b.x - .fin L.offset.x) / .fin L.scale.x
  set py := (b.y - .fin L.offset.y) / .fin L.scale.y
  have hr := ((hx.mul hx).add (hy.mul hy)).sqrt
  rcases hr.cases with e | ⟨h1, h2⟩
  · simp only [e]
    set r := Num.sqrt (px * px + py * py)
    exact ⟨(((hx.div r).mul (Num.Same.rfl' _)).mul (Num.Same.rfl' _)).add (Num.Same.rfl' _),
      (((hy.div r).mul (Num.Same.rfl' _)).mul (Num.Same.rfl' _)).add (Num.Same.rfl' _)⟩
  · obtain ⟨a1, a2⟩ := Num.squares_zero (Num.sqrt_zero h1)
    obtain ⟨b1, b2⟩ := Num.squares_zero (Num.sqrt_zero h2)
    simp only [Num.zero_div_zero a1 h1, Num.zero_div_zero a2 h1, Num.zero_div_zero b1 h2, Num.zero_div_zero b2 h2, Num.nan_mul, Num.nan_add]
    exact ⟨Or.inl rfl, Or.inl rfl⟩
