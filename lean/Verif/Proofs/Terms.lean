import Verif.Spec.Terms
import Verif.Proofs.Same
import Verif.Proofs.Camera
import Mathlib.Tactic.Linarith

/-! # Lemmas about the information terms -/

open Classical Num Camera

namespace Terms

/-- `x` is nan or at most `b`. -/
def Below (x : Num) (b : ℝ) : Prop := x = .nan ∨ x ≤ .fin b

theorem below_is {x : Num} {r b : ℝ} (h : Num.Is x r) (hr : r ≤ b) : Below x b :=
  Or.inr ((h.le_iff (is_fin b)).2 hr)

theorem below_real {x : Num} {r b : ℝ} (h : Num.Is x r) (hb : Below x b) : r ≤ b := by
  rcases hb with rfl | hb
  · exact h.elim
  · exact (h.le_iff (is_fin b)).1 hb

theorem below_ninf (b : ℝ) : Below .ninf b := Or.inr ⟨by simp, by simp, by simp [Num.ext]⟩

theorem not_below_pinf (b : ℝ) : ¬ Below .pinf b := by
  rintro (h | ⟨-, -, h⟩)
  · cases h
  · simp [Num.ext] at h

theorem Below.add {x y : Num} {a b : ℝ} (h : Below x a) (k : Below y b) : Below (x + y) (a + b) := by
  by_cases hx : ∃ r, Num.Is x r
  · obtain ⟨r, hr⟩ := hx
    by_cases hy : ∃ r, Num.Is y r
    · obtain ⟨t, ht⟩ := hy
      exact below_is (hr.add ht) (add_le_add (below_real hr h) (below_real ht k))
    · rcases not_fin_cases hy with rfl | rfl | rfl
      · exact absurd k (not_below_pinf _)
      · have : x + .ninf = .ninf := by
          show Num.add x .ninf = .ninf
          cases x <;> simp_all [Num.add, Num.Is]
        rw [this]; exact below_ninf _
      · exact Or.inl (by simp)
  · rcases not_fin_cases hx with rfl | rfl | rfl
    · exact absurd h (not_below_pinf _)
    · by_cases hy : ∃ r, Num.Is y r
      · obtain ⟨t, ht⟩ := hy
        have : Num.ninf + y = .ninf := by
          show Num.add .ninf y = .ninf
          cases y <;> simp_all [Num.add, Num.Is]
        rw [this]; exact below_ninf _
      · rcases not_fin_cases hy with rfl | rfl | rfl
        · exact absurd k (not_below_pinf _)
        · exact below_ninf _
        · exact Or.inl (by simp)
    · exact Or.inl (by simp)

theorem npsum_below {α : Type} (l : List α) (f : α → Num) (b : α → ℝ) (h : ∀ x ∈ l, Below (f x) (b x)) :
    Below (Stat.npsum (l.map f)) (l.map b).sum := by
  induction l with
  | nil => exact below_is (is_fin 0) (by simp)
  | cons x l ih => exact (h x (by simp)).add (ih fun y hy => h y (by simp [hy]))

/-- A sum of bounded terms reaches the sum of the bounds exactly if every term reaches its bound. -/
theorem npsum_attains {α : Type} (l : List α) (f : α → Num) (b : α → ℝ) (h : ∀ x ∈ l, Below (f x) (b x)) :
    Num.Is (Stat.npsum (l.map f)) (l.map b).sum ↔ ∀ x ∈ l, Num.Is (f x) (b x) := by
  induction l with
  | nil => simp [Stat.npsum]
  | cons x l ih =>
    have hl : ∀ y ∈ l, Below (f y) (b y) := fun y hy => h y (by simp [hy])
    have ih := ih hl
    constructor
    · intro hs
      have hs : Num.Is (f x + Stat.npsum (l.map f)) (b x + (l.map b).sum) := by simpa [Stat.npsum] using hs
      obtain ⟨⟨r, hr⟩, ⟨t, ht⟩⟩ := add_nonfin ⟨_, hs⟩
      have e := (hr.add ht).unique hs
      have h1 := below_real hr (h x (by simp))
      have h2 := below_real ht (npsum_below l f b hl)
      have e1 : r = b x := by linarith
      have e2 : t = (l.map b).sum := by linarith
      intro y hy
      rcases List.mem_cons.1 hy with rfl | hy
      · exact e1 ▸ hr
      · exact (ih.1 (e2 ▸ ht)) y hy
    · intro hs
      have := (hs x (by simp)).add (ih.2 fun y hy => hs y (by simp [hy]))
      simpa [Stat.npsum] using this

theorem npsum_append (l m : List Num) {a b : ℝ} (h : Num.Is (Stat.npsum l) a) (k : Num.Is (Stat.npsum m) b) :
    Num.Is (Stat.npsum (l ++ m)) (a + b) := by
  induction l generalizing a with
  | nil =>
    have : a = 0 := h.unique (is_fin 0)
    simpa [this] using k
  | cons x l ih =>
    obtain ⟨⟨r, hr⟩, ⟨t, ht⟩⟩ := add_nonfin ⟨_, h⟩
    have e := (hr.add ht).unique h
    have := hr.add (ih ht)
    exact this.congr (by rw [← e]; ring)

theorem npsum_nan {l : List Num} (h : .nan ∈ l) : Stat.npsum l = .nan := by
  induction l with
  | nil => simp at h
  | cons x l ih =>
    rcases List.mem_cons.1 h with rfl | h
    · simp [Stat.npsum]
    · simp [Stat.npsum, ih h]

/-- The sum of the sums of some lists. -/
theorem npsum_flatMap {α : Type} (l : List α) (F : α → List Num) (g : α → ℝ) (h : ∀ x ∈ l, Num.Is (Stat.npsum (F x)) (g x)) :
    Num.Is (Stat.npsum (l.flatMap F)) (l.map g).sum := by
  induction l with
  | nil => simp [Stat.npsum]
  | cons x l ih =>
    have := npsum_append _ _ (h x (by simp)) (ih fun y hy => h y (by simp [hy]))
    simpa using this

/-- The largest value of `logpdf`. -/
noncomputable def top (s : ℝ) : ℝ := -Real.log (Real.sqrt (2 * Real.pi)) - Real.log s

theorem logpdf_is {m x : Num} {a b s : ℝ} (hm : Num.Is m a) (hx : Num.Is x b) (hs : 0 < s) :
    Num.Is (logpdf m s x) (top s - ((b - a) / s) ^ 2 / 2) := by
  unfold logpdf
  rw [if_pos hs]
  have := (((((hx.sub hm).div (is_fin s) hs.ne').npow 2).neg.div (is_fin 2) two_ne_zero).sub
    (is_fin (Real.log (Real.sqrt (2 * Real.pi))))).sub (is_fin (Real.log s))
  exact this.congr (by unfold top; ring)

theorem logpdf_inf {m x : Num} {a s : ℝ} (hm : Num.Is m a) (hx : x = .pinf ∨ x = .ninf) (hs : 0 < s) :
    logpdf m s x = .ninf := by
  have h1 : IsInf (x - m) := by
    show IsInf (Num.add x (Num.neg m))
    rcases hx with rfl | rfl <;> cases m <;> simp_all [Num.add, Num.neg, Num.Is, IsInf]
    all_goals (split_ifs <;> simp)
  have h2 : IsInf ((x - m) / .fin s) := by
    generalize x - m = y at *
    show IsInf (Num.div y (.fin s))
    have hy : y ≠ .nan := by rintro rfl; exact h1
    unfold Num.div
    rw [if_neg (by simp [hy]), if_pos h1, if_neg (by simp [IsInf])]
    unfold signedInf
    split_ifs <;> simp [IsInf]
  have h3 : ((x - m) / .fin s).npow 2 = .pinf := by
    generalize (x - m) / .fin s = y at *
    show Num.npow y 1 * y = .pinf
    show (Num.npow y 0 * y) * y = .pinf
    show Num.mul (Num.mul (.fin 1) y) y = .pinf
    have e : Num.mul (.fin 1) y = y := by
      cases y <;> simp_all [IsInf, Num.mul, IsZero, Num.Is, signedInf, signbit, Xor]
    rw [e]
    cases y <;> simp_all [IsInf, Num.mul, IsZero, Num.Is, signedInf, signbit, Xor]
  unfold logpdf
  rw [if_pos hs, h3]
  show Num.add (Num.add (Num.div .ninf (.fin 2)) _) _ = _
  have : Num.div .ninf (.fin 2) = .ninf := by
    unfold Num.div
    rw [if_neg (by simp), if_pos (by simp [IsInf]), if_neg (by simp [IsInf])]
    simp [signedInf, signbit, Xor]
  rw [this]
  have key : ∀ r : ℝ, Num.add .ninf (Num.neg (.fin r)) = .ninf := by
    intro r
    simp only [Num.neg]
    split_ifs <;> rfl
  rw [key, key]

theorem logpdf_nan (m : Num) (s : ℝ) : logpdf m s .nan = .nan := by
  unfold logpdf
  split_ifs
  · simp [Num.npow]
  · rfl

theorem logpdf_below {m : Num} {a s : ℝ} (hm : Num.Is m a) (hs : 0 < s) (x : Num) : Below (logpdf m s x) (top s) := by
  by_cases hx : ∃ r, Num.Is x r
  · obtain ⟨r, hr⟩ := hx
    refine below_is (logpdf_is hm hr hs) ?_
    have := sq_nonneg ((r - a) / s)
    linarith
  · rcases not_fin_cases hx with h | h | h
    · rw [logpdf_inf hm (Or.inl h) hs]; exact below_ninf _
    · rw [logpdf_inf hm (Or.inr h) hs]; exact below_ninf _
    · rw [h, logpdf_nan]; exact Or.inl rfl

theorem logpdf_top {m : Num} {a s : ℝ} (hm : Num.Is m a) (hs : 0 < s) (x : Num) :
    Num.Is (logpdf m s x) (top s) ↔ Num.Is x a := by
  constructor
  · intro h
    by_cases hx : ∃ r, Num.Is x r
    · obtain ⟨r, hr⟩ := hx
      have e := (logpdf_is hm hr hs).unique h
      have h0 : ((r - a) / s) ^ 2 = 0 := by linarith
      have h1 := pow_eq_zero_iff two_ne_zero |>.1 h0
      have h2 : r - a = 0 := by simpa [hs.ne'] using h1
      exact hr.congr (by linarith)
    · rcases not_fin_cases hx with h' | h' | h'
      · rw [logpdf_inf hm (Or.inl h') hs] at h; exact h.elim
      · rw [logpdf_inf hm (Or.inr h') hs] at h; exact h.elim
      · rw [h', logpdf_nan] at h; exact h.elim
  · intro h
    exact (logpdf_is hm h hs).congr (by simp)

/-! ### Lists of results -/

/-- The value of a call that succeeded. -/
noncomputable def val : Except PyErr Num → Num
  | .ok x => x
  | .error _ => .nan

theorem mapM_ok {α β : Type} (l : List α) (f : α → Except PyErr β) (g : α → β) (h : ∀ x ∈ l, f x = .ok (g x)) :
    l.mapM f = .ok (l.map g) := by
  induction l with
  | nil => rfl
  | cons x l ih =>
    rw [List.mapM_cons, h x (by simp), ih fun y hy => h y (by simp [hy])]
    rfl

theorem height_ok (c : Cam) (f h : V2 Num) (Z : Num) : getObjectHeight c f h Z = .ok (val (getObjectHeight c f h Z)) := rfl

theorem length_ok (c : Cam) (f b : V2 Num) (Z : Num) : getObjectLength c f b Z = .ok (val (getObjectLength c f b Z)) := rfl

theorem heightTerm_eq (c : Cam) (rows : List HeightRow) {v : Variation} {s : ℝ} (hv : v.scale = .ok s) :
    heightTerm c rows v =
      .ok (Stat.npsum (rows.map fun r => logpdf (.fin r.height) s (val (getObjectHeight c r.feet r.head)))) := by
  unfold heightTerm
  rw [hv]
  simp only [bind, Except.bind]
  rw [mapM_ok rows _ (fun r => logpdf (.fin r.height) s (val (getObjectHeight c r.feet r.head)))
    (fun r _ => by rw [height_ok]; rfl)]
  rfl

theorem lengthTerm_eq (c : Cam) (rows : List LengthRow) (Z : ℝ) {v : Variation} {s : ℝ} (hv : v.scale = .ok s) :
    lengthTerm c rows Z v =
      .ok (Stat.npsum (rows.map fun r => logpdf (.fin r.length) s (val (getObjectLength c r.front r.back (.fin Z))))) := by
  unfold lengthTerm
  rw [hv]
  simp only [bind, Except.bind]
  rw [mapM_ok rows _ (fun r => logpdf (.fin r.length) s (val (getObjectLength c r.front r.back (.fin Z))))
    (fun r _ => by rw [length_ok]; rfl)]
  rfl

end Terms
