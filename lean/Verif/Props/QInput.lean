import Verif.Model.QInput
import Mathlib.Tactic.Linarith
import Mathlib.Tactic.FieldSimp
import Mathlib.Tactic.Ring
import Mathlib.Tactic.Positivity

/-! # C141: an input tells its listeners what the user entered -/

namespace QInput

variable {V : Type}

/-- What the user made the value to be, if the action is the user's. -/
def byUser : Act V → Option V
  | .change v => some v
  | .enter v => some v
  | .drag path => path.getLast?
  | .program _ => none

/-- The action comes from the user. -/
def ofUser : Act V → Prop
  | .program _ => False
  | _ => True

theorem foldl_setValue (s : St V) (path : List V) :
    (path.foldl St.setValue s).last = s.last ∧ (path.foldl St.setValue s).sent = s.sent ∧
    (path.foldl St.setValue s).value = path.getLast?.getD s.value := by
  induction path generalizing s with
  | nil => exact ⟨rfl, rfl, rfl⟩
  | cons a p ih =>
    obtain ⟨h1, h2, h3⟩ := ih (s.setValue a)
    refine ⟨h1, h2, h3.trans ?_⟩
    cases p with
    | nil => rfl
    | cons b p =>
      simp [List.getLast?_eq_some_getLast]

theorem emitSignal_same {s : St V} (h : s.last = some s.value) : s.emitSignal = s := by
  unfold St.emitSignal; rw [if_pos h.symm]

theorem emitSignal_new {s : St V} (h : s.last ≠ some s.value) : s.emitSignal = ⟨s.value, some s.value, s.value :: s.sent⟩ := by
  unfold St.emitSignal; rw [if_neg (fun e => h e.symm)]

/-- What was sent last is in `last_emited_value`. -/
def Kept (s : St V) : Prop := s.last = s.sent.head?

theorem kept_emit {s : St V} (h : Kept s) : Kept s.emitSignal := by
  unfold St.emitSignal
  split_ifs
  · exact h
  · rfl

theorem kept_act {s : St V} (h : Kept s) (a : Act V) : Kept (s.act a) := by
  cases a with
  | change v =>
    simp only [St.act]; split_ifs
    · exact h
    · exact kept_emit (s := s.setValue v) h
  | enter v => exact kept_emit (s := s.setValue v) h
  | drag p =>
    refine kept_emit ?_
    unfold Kept
    rw [(foldl_setValue s p).1, (foldl_setValue s p).2.1]; exact h
  | program v => exact h

theorem kept_after (v : V) (as : List (Act V)) : Kept (after v as) := by
  unfold after
  suffices H : ∀ s : St V, Kept s → Kept (as.foldl St.act s) from H _ rfl
  induction as with
  | nil => exact fun _ h => h
  | cons a as ih => exact fun s h => ih _ (kept_act h a)

/-- The value or what was last sent is the current value. -/
def Told (v0 : V) (s : St V) : Prop := s.last = some s.value ∨ s.last = none ∧ s.value = v0

theorem told_emit (v0 : V) (s : St V) : Told v0 s.emitSignal := by
  unfold St.emitSignal
  split_ifs with h
  · exact Or.inl h.symm
  · exact Or.inl rfl

theorem told_act (v0 : V) {s : St V} (h : Told v0 s) {a : Act V} (ha : ofUser a) : Told v0 (s.act a) := by
  cases a with
  | change v =>
    simp only [St.act]; split_ifs
    · exact h
    · exact told_emit _ _
  | enter v => exact told_emit _ _
  | drag p => exact told_emit _ _
  | program v => exact absurd ha id

theorem told_after (v : V) (as : List (Act V)) (h : ∀ a ∈ as, ofUser a) : Told v (after v as) := by
  unfold after
  suffices H : ∀ s : St V, Told v s → Told v (as.foldl St.act s) from H _ (Or.inr ⟨rfl, rfl⟩)
  induction as with
  | nil => exact fun _ h => h
  | cons a as ih => exact fun s hs => ih (fun a ha => h a (List.mem_cons_of_mem _ ha)) _ (told_act v hs (h a List.mem_cons_self))

theorem act_value (s : St V) (a : Act V) (v : V) (h : byUser a = some v) : (s.act a).value = v := by
  have e : ∀ t : St V, t.emitSignal.value = t.value := by
    intro t; unfold St.emitSignal; split_ifs <;> rfl
  cases a with
  | change w =>
    simp only [St.act]; split_ifs with hv
    · rw [← hv]; exact Option.some.inj h
    · exact (e _).trans (Option.some.inj h)
  | enter w => exact (e _).trans (Option.some.inj h)
  | drag p =>
    refine (e _).trans ?_
    rw [(foldl_setValue s p).2.2]
    have h : p.getLast? = some v := h
    rw [h]; rfl
  | program w => cases h

end QInput

open QInput

/-- **C141** After every action of the user the input has the value the user gave it; calls of `setValue` by the program send nothing;
no value is sent twice in a row; and whatever is sent is the value the input has then. -/
theorem C141_value {V : Type} (v0 : V) (as : List (Act V)) (a : Act V) :
    let s := after v0 as
    (∀ v, byUser a = some v → (s.act a).value = v) ∧ (∀ v, (s.act (.program v)).value = v ∧ (s.act (.program v)).sent = s.sent) ∧
    ((s.act a).sent = s.sent ∨ (s.act a).sent = (s.act a).value :: s.sent ∧ s.sent.head? ≠ some (s.act a).value) := by
  intro s
  have hk : Kept s := kept_after v0 as
  have e : ∀ t : St V, Kept t → t.emitSignal.sent = t.sent ∨ t.emitSignal.sent = t.emitSignal.value :: t.sent ∧ t.sent.head? ≠ some t.emitSignal.value := by
    intro t ht
    unfold St.emitSignal
    split_ifs with h
    · exact Or.inl rfl
    · exact Or.inr ⟨rfl, fun hh => h (by rw [← hh]; exact ht.symm)⟩
  refine ⟨fun v hv => act_value s a v hv, fun v => ⟨rfl, rfl⟩, ?_⟩
  cases a with
  | change v =>
    simp only [St.act]; split_ifs
    · exact Or.inl rfl
    · exact e (s.setValue v) hk
  | enter v => exact e (s.setValue v) hk
  | drag p =>
    have h2 := (foldl_setValue s p).2.1
    have := e (p.foldl St.setValue s) (by unfold Kept; rw [(foldl_setValue s p).1, h2]; exact hk)
    rwa [h2] at this
  | program v => exact Or.inl rfl

/-- **C141** As long as only the user changes the input, its listeners know the value: what was sent last is the value, or nothing was
sent and the value is the one it was created with; and an action that changes the value sends it. -/
theorem C141_told_partial {V : Type} (v0 : V) (as : List (Act V)) (h : ∀ a ∈ as, ofUser a) :
    let s := after v0 as
    (s.sent.head? = some s.value ∨ s.sent = [] ∧ s.value = v0) ∧
    ∀ a, ofUser a → (s.act a).value ≠ s.value → (s.act a).sent = (s.act a).value :: s.sent := by
  intro s
  have hk : Kept s := kept_after v0 as
  have ht : Told v0 s := told_after v0 as h
  refine ⟨?_, fun a ha hne => ?_⟩
  · rcases ht with ht | ⟨ht, e⟩
    · exact Or.inl (hk.symm.trans ht)
    · exact Or.inr ⟨List.head?_eq_none_iff.1 (hk.symm.trans ht), e⟩
  · have hk2 : Kept (s.act a) := kept_act hk a
    rcases (C141_value v0 as a).2.2 with e | e
    · exfalso
      have ht2 := told_act v0 ht ha
      have hl : (s.act a).last = s.last := hk2.trans ((congrArg List.head? e).trans hk.symm)
      rcases ht2 with h2 | ⟨h2, e2⟩
      · rcases ht with h1 | ⟨h1, e1⟩
        · exact hne (Option.some.inj (h2.symm.trans (hl.trans h1)))
        · rw [hl, h1] at h2; cases h2
      · rw [hl] at h2
        rcases ht with h1 | ⟨h1, e1⟩
        · rw [h1] at h2; cases h2
        · exact hne (e2.trans e1.symm)
    · exact e.1

/-- When the program sets a value in between, a change by the user is lost: an action that gives the input the value that was sent last
sends nothing, although the value has changed.  So for every history: after the user entered `a`, the program set `b` and the user
entered `a` again, the value changes from `b` to `a` and nobody is told. -/
theorem C141_lost_violated {V : Type} (v0 : V) (as : List (Act V)) :
    (∀ act v, byUser act = some v → (after v0 as).sent.head? = some v → ((after v0 as).act act).sent = (after v0 as).sent) ∧
    ∀ a b, a ≠ b → ∀ act, byUser act = some a →
      let s := after v0 (as ++ [.enter a, .program b])
      s.value = b ∧ (s.act act).value = a ∧ (s.act act).sent = s.sent := by
  have key : ∀ (s : St V), Kept s → ∀ act v, byUser act = some v → s.sent.head? = some v → (s.act act).sent = s.sent := by
    intro s hk act v hb hs
    have e : ∀ t : St V, t.last = some t.value → t.emitSignal.sent = t.sent := by
      intro t ht; unfold St.emitSignal; rw [if_pos ht.symm]
    have hl : s.last = some v := hk.trans hs
    cases act with
    | change w =>
      have : w = v := Option.some.inj hb
      subst this
      simp only [St.act]; split_ifs
      · rfl
      · exact e (s.setValue w) hl
    | enter w =>
      have : w = v := Option.some.inj hb
      subst this
      exact e (s.setValue w) hl
    | drag p =>
      have hp : p.getLast? = some v := hb
      have h3 := foldl_setValue s p
      refine (e (p.foldl St.setValue s) ?_).trans h3.2.1
      rw [h3.1, h3.2.2, hp, hl]; rfl
    | program w => cases hb
  refine ⟨key _ (kept_after v0 as), fun a b hab act hact => ?_⟩
  intro s
  have hs : s = ((after v0 as).act (.enter a)).act (.program b) := by
    show after v0 (as ++ [.enter a, .program b]) = _
    unfold after; rw [List.foldl_append]; rfl
  have hk : Kept s := kept_after v0 _
  have hhead : s.sent.head? = some a := by
    rw [← hk, hs]
    show ((after v0 as).setValue a).emitSignal.last = some a
    unfold St.emitSignal
    split_ifs with h
    · exact h.symm
    · rfl
  refine ⟨by rw [hs]; rfl, act_value s act a hact, key s hk act a hact hhead⟩

/-- The hypotheses can be met: the user enters 2, drags to 5, enters 2. -/
example : ∀ a ∈ ([.change 2, .drag [3, 4, 5], .enter 2] : List (Act ℕ)), ofUser a := by
  simp [ofUser]

namespace QNumber

/-- A multiple of the step of the spin box. -/
def OnGrid (n : ℕ) (x : ℝ) : Prop := ∃ k : ℤ, x = k / 10 ^ n

theorem roundTo_grid {n : ℕ} {x : ℝ} (h : OnGrid n x) : roundTo n x = x := by
  obtain ⟨k, rfl⟩ := h
  unfold roundTo
  have h10 : (10 : ℝ) ^ n ≠ 0 := by positivity
  rw [div_mul_cancel₀ _ h10]
  have : ⌊(k : ℝ) + 1 / 2⌋ = k := by
    rw [Int.floor_eq_iff]; constructor <;> linarith
  rw [this]

theorem roundTo_onGrid (n : ℕ) (x : ℝ) : OnGrid n (roundTo n x) := ⟨_, rfl⟩

theorem int_onGrid (n : ℕ) (m : ℤ) : OnGrid n m := by
  refine ⟨m * 10 ^ n, ?_⟩
  have h10 : (10 : ℝ) ^ n ≠ 0 := by positivity
  push_cast
  rw [mul_div_cancel_right₀ _ h10]

theorem trunc_int (k : ℤ) : trunc (k : ℝ) = k := by
  unfold trunc; split_ifs <;> simp

theorem clip_onGrid {n : ℕ} {a b x : ℝ} (ha : OnGrid n a) (hb : OnGrid n b) (hx : OnGrid n x) : OnGrid n (max a (min b x)) := by
  rcases max_choice a (min b x) with h | h <;> rw [h]
  · exact ha
  · rcases min_choice b x with h | h <;> rw [h]
    · exact hb
    · exact hx

theorem stored_onGrid (c : Cfg) {lo hi : ℤ} (hlo : c.min = lo) (hhi : c.max = hi) (v : ℝ) : OnGrid c.decimals (c.stored v) := by
  unfold Cfg.stored
  refine clip_onGrid ?_ ?_ (roundTo_onGrid _ _)
  · rw [hlo]; exact int_onGrid _ _
  · rw [hhi]; exact int_onGrid _ _

theorem stored_fix (c : Cfg) {v : ℝ} (h1 : c.min ≤ v) (h2 : v ≤ c.max) (hg : OnGrid c.decimals v) : c.stored v = v := by
  unfold Cfg.stored
  have e : (if c.decimals = 0 then (trunc v : ℝ) else v) = v := by
    split_ifs with h
    · obtain ⟨k, hk⟩ := hg
      rw [h, pow_zero, div_one] at hk
      rw [hk, trunc_int]
    · rfl
  simp only [e, roundTo_grid hg, min_eq_right h2, max_eq_right h1]

end QNumber

/-- **C141** A number input keeps a value of its range that has its number of decimals, and otherwise the nearest one it can have: the
stored value is in the range and has the decimals; a value of the range is off by at most half a step (a whole one without decimals:
there the fraction is cut off); setting the stored value again changes nothing; the slider stands at the stored value. -/
theorem C141_number (c : QNumber.Cfg) (lo hi : ℤ) (hlo : c.min = lo) (hhi : c.max = hi) (hle : lo ≤ hi) (v : ℝ) :
    c.min ≤ c.stored v ∧ c.stored v ≤ c.max ∧ QNumber.OnGrid c.decimals (c.stored v) ∧
    (c.min ≤ v → v ≤ c.max → QNumber.OnGrid c.decimals v → c.stored v = v) ∧
    c.stored (c.stored v) = c.stored v ∧
    (c.min ≤ v → v ≤ c.max → c.decimals ≠ 0 → |c.stored v - v| ≤ 1 / 2 / 10 ^ c.decimals) ∧
    (c.min ≤ v → v ≤ c.max → c.decimals = 0 → |c.stored v - v| < 1) ∧
    (c.position (c.stored v) : ℝ) = c.stored v * 10 ^ c.decimals := by
  have hle' : c.min ≤ c.max := by rw [hlo, hhi]; exact_mod_cast hle
  have h1 : c.min ≤ c.stored v := le_max_left _ _
  have h2 : c.stored v ≤ c.max := max_le hle' (min_le_left _ _)
  have hg := QNumber.stored_onGrid c hlo hhi v
  have h10 : (0 : ℝ) < 10 ^ c.decimals := by positivity
  refine ⟨h1, h2, hg, fun a b g => QNumber.stored_fix c a b g, QNumber.stored_fix c h1 h2 hg, fun a b hd => ?_, fun a b hd => ?_, ?_⟩
  · -- clipping does not move away from a value of the range
    have hr : |QNumber.roundTo c.decimals v - v| ≤ 1 / 2 / 10 ^ c.decimals := by
      unfold QNumber.roundTo
      have f1 := Int.floor_le (v * 10 ^ c.decimals + 1 / 2)
      have f2 := Int.lt_floor_add_one (v * 10 ^ c.decimals + 1 / 2)
      have : (⌊v * 10 ^ c.decimals + 1 / 2⌋ : ℝ) / 10 ^ c.decimals - v = (⌊v * 10 ^ c.decimals + 1 / 2⌋ - v * 10 ^ c.decimals) / 10 ^ c.decimals := by
        field_simp
      rw [this, abs_div, abs_of_pos h10]
      refine div_le_div_of_nonneg_right ?_ h10.le
      rw [abs_le]; constructor <;> linarith
    unfold QNumber.Cfg.stored
    simp only [if_neg hd]
    rw [abs_le] at hr ⊢
    rcases max_cases c.min (min c.max (QNumber.roundTo c.decimals v)) with ⟨e, _⟩ | ⟨e, _⟩ <;>
      rcases min_cases c.max (QNumber.roundTo c.decimals v) with ⟨e', _⟩ | ⟨e', _⟩ <;> rw [e] <;> constructor <;> linarith
  · unfold QNumber.Cfg.stored
    simp only [if_pos hd]
    have hr : QNumber.roundTo c.decimals (QNumber.trunc v) = QNumber.trunc v :=
      QNumber.roundTo_grid (QNumber.int_onGrid _ _)
    rw [hr]
    have ht : c.min ≤ QNumber.trunc v ∧ (QNumber.trunc v : ℝ) ≤ c.max ∧ |(QNumber.trunc v : ℝ) - v| < 1 := by
      rw [hlo, hhi] at *
      unfold QNumber.trunc
      split_ifs with h0
      · refine ⟨by exact_mod_cast Int.le_floor.2 a, (Int.floor_le v).trans b, ?_⟩
        rw [abs_lt]; constructor <;> linarith [Int.floor_le v, Int.lt_floor_add_one v]
      · refine ⟨a.trans (Int.le_ceil v), by exact_mod_cast Int.ceil_le.2 b, ?_⟩
        rw [abs_lt]; constructor <;> linarith [Int.le_ceil v, Int.ceil_lt_add_one v]
    rw [min_eq_right ht.2.1, max_eq_right ht.1]
    exact ht.2.2
  · obtain ⟨k, hk⟩ := hg
    have hs : c.stored v * 10 ^ c.decimals = k := by rw [hk, div_mul_cancel₀ _ h10.ne']
    have e1 : c.min * 10 ^ c.decimals = ((lo * 10 ^ c.decimals : ℤ) : ℝ) := by rw [hlo]; push_cast; rfl
    have e2 : c.max * 10 ^ c.decimals = ((hi * 10 ^ c.decimals : ℤ) : ℝ) := by rw [hhi]; push_cast; rfl
    have l1 : lo * 10 ^ c.decimals ≤ k := by
      have := mul_le_mul_of_nonneg_right h1 h10.le
      rw [e1, hs] at this; exact_mod_cast this
    have l2 : k ≤ hi * 10 ^ c.decimals := by
      have := mul_le_mul_of_nonneg_right h2 h10.le
      rw [e2, hs] at this; exact_mod_cast this
    unfold QNumber.Cfg.position
    rw [e1, e2, hs, QNumber.trunc_int, QNumber.trunc_int, QNumber.trunc_int, min_eq_right l2, max_eq_right l1]

example : (⟨0, 5000, 2⟩ : QNumber.Cfg).min = ((0 : ℤ) : ℝ) ∧ (⟨0, 5000, 2⟩ : QNumber.Cfg).max = ((5000 : ℤ) : ℝ) := by norm_num

/-- **C141** An input without decimals cuts off the fraction: the stored value is never farther from zero than the one that was set. -/
theorem C141_cut (c : QNumber.Cfg) (lo hi : ℤ) (hlo : c.min = lo) (hhi : c.max = hi) (hd : c.decimals = 0) (v : ℝ) (a : c.min ≤ v)
    (b : v ≤ c.max) : |c.stored v| ≤ |v| ∧ |c.stored v - v| < 1 ∧ 0 ≤ c.stored v * v := by
  unfold QNumber.Cfg.stored
  simp only [if_pos hd]
  have hr : QNumber.roundTo c.decimals (QNumber.trunc v) = QNumber.trunc v := QNumber.roundTo_grid (QNumber.int_onGrid _ _)
  rw [hr]
  have ht : c.min ≤ QNumber.trunc v ∧ (QNumber.trunc v : ℝ) ≤ c.max ∧ |(QNumber.trunc v : ℝ)| ≤ |v| ∧ |(QNumber.trunc v : ℝ) - v| < 1 ∧
      0 ≤ (QNumber.trunc v : ℝ) * v := by
    rw [hlo, hhi] at *
    unfold QNumber.trunc
    split_ifs with h0
    · have hf : (0 : ℝ) ≤ ⌊v⌋ := by exact_mod_cast Int.floor_nonneg.2 h0
      refine ⟨by exact_mod_cast Int.le_floor.2 a, (Int.floor_le v).trans b, ?_, ?_, mul_nonneg hf h0⟩
      · rw [abs_of_nonneg hf, abs_of_nonneg h0]; exact Int.floor_le v
      · rw [abs_lt]; constructor <;> linarith [Int.floor_le v, Int.lt_floor_add_one v]
    · have hv : v ≤ 0 := (not_le.1 h0).le
      have hf : (⌈v⌉ : ℝ) ≤ 0 := by
        have : ⌈v⌉ ≤ 0 := Int.ceil_le.2 (by exact_mod_cast hv)
        exact_mod_cast this
      refine ⟨a.trans (Int.le_ceil v), by exact_mod_cast Int.ceil_le.2 b, ?_, ?_, mul_nonneg_of_nonpos_of_nonpos hf hv⟩
      · rw [abs_of_nonpos hf, abs_of_nonpos hv]; linarith [Int.le_ceil v]
      · rw [abs_lt]; constructor <;> linarith [Int.le_ceil v, Int.ceil_lt_add_one v]
  rw [min_eq_right ht.2.1, max_eq_right ht.1]
  exact ⟨ht.2.2.1, ht.2.2.2.1, ht.2.2.2.2⟩
