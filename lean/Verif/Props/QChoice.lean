import Verif.Spec.QChoice
import Mathlib.Data.List.Nodup
import Mathlib.Tactic.Linarith

/-! # The drop-down and the file input of the demonstration: C173 -/

open QChoice

variable {V : Type} [DecidableEq V]

namespace QChoice

/-- The value the drop-down has when it shows the entry `i`. -/
def entry (c : Cfg V) (i : ℕ) (h : i < c.values.length) : Val V := if c.byIndex then .idx i else .obj c.values[i]

omit [DecidableEq V] in
theorem item_nat {l : List V} {i : ℕ} (h : i < l.length) : item l (i : ℤ) = .ok l[i] := by
  unfold item
  rw [if_neg (by omega)]
  simp [List.getElem?_eq_getElem h]

omit [DecidableEq V] in
theorem item_last {l : List V} (h : l ≠ []) : item l (-1) = .ok (l.getLast h) := by
  have hl : 0 < l.length := List.length_pos_of_ne_nil h
  unfold item
  rw [if_pos (by omega), show ((-1 : ℤ) + l.length).toNat = l.length - 1 by omega, List.getElem?_eq_getElem (by omega)]
  simp only
  rw [if_neg (by omega), List.getLast_eq_getElem]

theorem clip_nat {n i : ℕ} (h : i < n) : clip n (i : ℤ) = i := by
  unfold clip; rw [if_pos ⟨by omega, by exact_mod_cast h⟩]

omit [DecidableEq V] in
theorem value_nat {c : Cfg V} {s : St V} {i : ℕ} (h : i < c.values.length) (hs : s.index = i) : value c s = .ok (entry c i h) := by
  unfold value entry
  rw [hs]
  split
  · rfl
  · rw [item_nat h]; rfl

theorem find_mem {l : List V} {v : V} (h : v ∈ l) : find l v = .ok (l.idxOf v) := if_pos h

theorem idxOf_le {l : List V} {v : V} {j : ℕ} (h : j < l.length) (e : l[j] = v) : l.idxOf v ≤ j := by
  by_contra h0
  have := List.not_of_lt_findIdx (p := (· == v)) (xs := l) (i := j) (not_le.1 h0)
  simp [e] at this

/-- The entry that is shown when the value of the entry `i` is set. -/
def shown (c : Cfg V) (i : ℕ) (h : i < c.values.length) : ℕ := if c.byIndex then i else c.values.idxOf c.values[i]

theorem shown_lt (c : Cfg V) {i : ℕ} (h : i < c.values.length) : shown c i h < c.values.length := by
  unfold shown; split
  · exact h
  · exact List.idxOf_lt_length_of_mem (List.getElem_mem h)

theorem shown_le (c : Cfg V) {i : ℕ} (h : i < c.values.length) : shown c i h ≤ i := by
  unfold shown; split
  · exact le_rfl
  · exact idxOf_le h rfl

theorem entry_shown (c : Cfg V) {i : ℕ} (h : i < c.values.length) : entry c (shown c i h) (shown_lt c h) = entry c i h := by
  unfold entry shown
  split
  · rfl
  · simp

theorem set_entry {c : Cfg V} (he : Even c) (s : St V) {i : ℕ} (h : i < c.values.length) :
    setValue c s (entry c i h) = .ok { s with index := (shown c i h : ℤ) } := by
  unfold entry shown
  cases hb : c.byIndex
  · simp only [Bool.false_eq_true, if_false, setValue, hb, setObj]
    rw [find_mem (List.getElem_mem h)]
    simp only
    rw [clip_nat (by rw [he]; exact List.idxOf_lt_length_of_mem (List.getElem_mem h))]
  · simp only [if_true, setValue, hb, setIdx]
    rw [clip_nat (by rw [he]; exact h)]

theorem emit_nat {c : Cfg V} {s : St V} {i : ℕ} (h : i < c.values.length) (hs : s.index = i) :
    emit c s = .ok (if some (entry c i h) = s.last then s else { s with last := some (entry c i h), sent := entry c i h :: s.sent }) := by
  unfold emit
  rw [value_nat h hs]; rfl

theorem pick_eq {c : Cfg V} (he : Even c) (s : St V) {i : ℕ} (h : i < c.values.length) (hi : (i : ℤ) ≠ s.index) :
    pick c s i = .ok (if some (entry c i h) = s.last then { s with index := (shown c i h : ℤ) }
      else ⟨(shown c i h : ℤ), some (entry c i h), entry c i h :: s.sent⟩) := by
  unfold pick
  rw [if_neg hi]
  show ((value c { s with index := (i : ℤ) }).bind fun v => (setValue c { s with index := (i : ℤ) } v).bind (emit c)) = _
  rw [value_nat h rfl]
  show (setValue c { s with index := (i : ℤ) } (entry c i h)).bind (emit c) = _
  rw [set_entry he]
  show emit c _ = _
  rw [emit_nat (shown_lt c h) rfl, entry_shown]

end QChoice

/-- **C173** `setValue` of one of the values makes it the value; of a name, the value with this name (if it is not a value
itself); anything else raises and changes nothing.  Nothing is sent. -/
theorem C173_set (c : Cfg V) (he : Even c) (hb : c.byIndex = false) (s : St V) (v : V) :
    (v ∈ c.values → ∃ s', setValue c s (.obj v) = .ok s' ∧ value c s' = .ok (.obj v) ∧ s'.sent = s.sent) ∧
    (v ∉ c.values → v ∈ c.names → ∃ s' i, ∃ h : i < c.values.length, setValue c s (.obj v) = .ok s' ∧ c.names[i]? = some v ∧
      (∀ j < i, c.names[j]? ≠ some v) ∧ value c s' = .ok (.obj c.values[i]) ∧ s'.sent = s.sent) ∧
    (v ∉ c.values → v ∉ c.names → setValue c s (.obj v) = .error .value) := by
  refine ⟨fun hv => ?_, fun hv hn => ?_, fun hv hn => ?_⟩
  · obtain ⟨i, hi, rfl⟩ := List.mem_iff_getElem.1 hv
    have h1 := set_entry he s hi
    have e : entry c i hi = .obj c.values[i] := by simp [entry, hb]
    rw [e] at h1
    refine ⟨_, h1, ?_, rfl⟩
    rw [value_nat (shown_lt c hi) rfl, entry_shown, e]
  · have hi : c.names.idxOf v < c.names.length := List.idxOf_lt_length_of_mem hn
    have hi' : c.names.idxOf v < c.values.length := he ▸ hi
    refine ⟨{ s with index := ((c.names.idxOf v : ℕ) : ℤ) }, c.names.idxOf v, hi', ?_, ?_, fun j hj h => ?_, ?_, rfl⟩
    · simp only [setValue, hb, Bool.false_eq_true, if_false, setObj, find, if_neg hv, if_pos hn]
      show Except.ok { s with index := clip c.names.length ((c.names.idxOf v : ℕ) : ℤ) } = _
      rw [clip_nat hi]
    · rw [List.getElem?_eq_getElem hi]; simp
    · have hj' : j < c.names.length := by omega
      rw [List.getElem?_eq_getElem hj'] at h
      exact absurd (idxOf_le hj' (by simpa using h)) (not_le.2 hj)
    · rw [value_nat hi' rfl]; simp [entry, hb]
  · simp only [setValue, hb, Bool.false_eq_true, if_false, setObj, find, if_neg hv, if_neg hn]; rfl

/-- **C173** With `reference_by_index`, `setValue` of the number of an entry makes it the value. -/
theorem C173_set_index (c : Cfg V) (hb : c.byIndex = true) (s : St V) (i : ℤ) :
    ∃ s', setValue c s (.idx i) = .ok s' ∧ s'.sent = s.sent ∧ (0 ≤ i → i < c.names.length → value c s' = .ok (.idx i)) := by
  refine ⟨setIdx c s i, by simp [setValue, hb], rfl, fun h0 h1 => ?_⟩
  simp [value, hb, setIdx, clip, h0, h1]

/-- **C173** fails for numbers that are not the number of an entry: no entry is shown afterwards and the value is -1. -/
theorem C173_set_violated (c : Cfg V) (hb : c.byIndex = true) (s : St V) (i : ℤ) (h : i < 0 ∨ c.names.length ≤ i) :
    ∃ s', setValue c s (.idx i) = .ok s' ∧ value c s' = .ok (.idx (-1)) := by
  refine ⟨setIdx c s i, by simp [setValue, hb], ?_⟩
  simp only [value, hb, if_true, setIdx, clip]
  rw [if_neg (by omega)]

/-- **C173** fails if there are fewer names than values: setting a value without a name leaves the drop-down without a
shown entry, and its value is the last one. -/
theorem C173_names_violated (c : Cfg V) (hb : c.byIndex = false) (s : St V) (v : V) (hv : v ∈ c.values)
    (h : c.names.length ≤ c.values.idxOf v) :
    ∃ s', setValue c s (.obj v) = .ok s' ∧ s'.index = -1 ∧ value c s' = .ok (.obj (c.values.getLast (List.ne_nil_of_mem hv))) := by
  refine ⟨{ s with index := -1 }, ?_, rfl, ?_⟩
  · simp only [setValue, hb, Bool.false_eq_true, if_false, setObj, find_mem hv, clip]
    rw [if_neg (by omega)]
  · simp only [value, hb, Bool.false_eq_true, if_false]
    rw [item_last (List.ne_nil_of_mem hv)]; rfl

/-- **C173** The user chooses an entry: the entry is shown, its value is the value, and it is sent unless it is the one that
was sent last or the entry was shown already.  (For values that differ, or with `reference_by_index`.) -/
theorem C173_pick_partial (c : Cfg V) (he : Even c) (hd : c.byIndex = true ∨ c.values.Nodup) (s : St V) (i : ℕ) (h : i < c.values.length) :
    ∃ s', pick c s i = .ok s' ∧ s'.index = i ∧ value c s' = .ok (if c.byIndex then .idx i else .obj c.values[i]) ∧
      ((i : ℤ) ≠ s.index → s.last ≠ some (if c.byIndex then .idx i else .obj c.values[i]) →
        s'.sent = (if c.byIndex then Val.idx i else .obj c.values[i]) :: s.sent) ∧
      ((i : ℤ) = s.index ∨ s.last = some (if c.byIndex then .idx i else .obj c.values[i]) → s'.sent = s.sent) := by
  have hs : shown c i h = i := by
    unfold shown
    rcases hd with hd | hd
    · rw [if_pos hd]
    · split
      · rfl
      · exact List.Nodup.idxOf_getElem hd i h
  by_cases hi : (i : ℤ) = s.index
  · refine ⟨s, by unfold pick; rw [if_pos hi], hi.symm, ?_, fun h0 => absurd hi h0, fun _ => rfl⟩
    rw [value_nat h hi.symm]; rfl
  · refine ⟨_, pick_eq he s h hi, ?_, ?_, fun _ h0 => ?_, fun h0 => ?_⟩
    · split <;> simp [hs]
    · split
      · rw [value_nat h (by simp [hs])]; rfl
      · rw [value_nat h (by simp [hs])]; rfl
    · have h2 : ¬ some (entry c i h) = s.last := fun h1 => h0 h1.symm
      rw [if_neg h2]; rfl
    · have h1 := h0.resolve_left hi
      have h2 : some (entry c i h) = s.last := h1.symm
      rw [if_pos h2]

/-- **C173** fails for values that occur twice: choosing the later entry shows the first one with the value.  No history of choices
and of calls of `setValue` with values shows the later one. -/
theorem C173_pick_violated (c : Cfg V) (he : Even c) (hb : c.byIndex = false) (i : ℕ) (h : i < c.values.length)
    (j : ℕ) (hj : j < i) (e : c.values[j] = c.values[i]) :
    (∀ s : St V, s.index ≠ i → ∃ s', pick c s i = .ok s' ∧ s'.index < i ∧ 0 ≤ s'.index) ∧
    ∀ s, new c none = .ok s → ∀ as, (∀ a ∈ as, (∃ k < c.values.length, a = .pick k) ∨ ∃ v ∈ c.values, a = .program (.obj v)) →
      (after c s as).index ≠ i := by
  have hne : ∀ k (hk : k < c.values.length), shown c k hk ≠ i := by
    intro k hk h0
    unfold shown at h0
    simp only [hb, Bool.false_eq_true, if_false] at h0
    have h1 : c.values[i] = c.values[k] := by
      have := List.getElem_idxOf (x := c.values[k]) (xs := c.values) (by rw [h0]; exact h)
      simp only [h0] at this
      exact this
    have := idxOf_le (by omega : j < c.values.length) (e.trans h1)
    omega
  have hlt : shown c i h < i := lt_of_le_of_ne (shown_le c h) (hne i h)
  refine ⟨fun s hs => ⟨_, pick_eq he s h hs.symm, ?_, ?_⟩, ?_⟩
  · split <;> simpa using hlt
  · split <;> simp
  · intro s hs as
    have h0 : s.index ≠ i := by
      simp only [new, Except.ok.injEq] at hs
      rw [← hs]
      simp only
      split <;> omega
    clear hs
    induction as generalizing s with
    | nil => intro _; exact h0
    | cons a as ih =>
      intro ha
      refine ih (act c s a) ?_ fun b hb => ha b (List.mem_cons_of_mem _ hb)
      rcases ha a List.mem_cons_self with ⟨k, hk, rfl⟩ | ⟨v, hv, rfl⟩
      · by_cases hki : (k : ℤ) = s.index
        · simp only [act, pick, if_pos hki]; exact h0
        · simp only [act, pick_eq he s hk hki]
          have := hne k hk
          split <;> simpa using this
      · obtain ⟨k, hk, rfl⟩ := List.mem_iff_getElem.1 hv
        have h1 := set_entry he s hk
        rw [show entry c k hk = .obj c.values[k] by simp [entry, hb]] at h1
        simp only [act, h1]
        have := hne k hk
        simpa using this

/-- **C173** After the user's choices the last value sent is the value; before the first one that is sent it is the one the
drop-down was created with. -/
theorem C173_told (c : Cfg V) (he : Even c) (hn : c.values ≠ []) {s : St V} {v : Option (Val V)}
    (hv : ∀ u, v = some u → (c.byIndex = false → ∃ x ∈ c.values, u = .obj x) ∧ (c.byIndex = true → ∃ k < c.values.length, u = .idx k))
    (hs : new c v = .ok s) (ks : List ℕ) (hk : ∀ k ∈ ks, k < c.values.length) :
    let t := after c s (ks.map .pick)
    ∃ x, value c t = .ok x ∧ (t.sent.head? = some x ∨ t.sent = [] ∧ value c s = .ok x) := by
  intro t
  have hpos : 0 < c.values.length := List.length_pos_of_ne_nil hn
  have hs0 : ∃ k, k < c.values.length ∧ s = ⟨(k : ℤ), none, []⟩ := by
    have hnm : c.names ≠ [] := by
      intro h0
      have : c.names.length = 0 := by rw [h0]; rfl
      unfold QChoice.Even at he; omega
    cases v with
    | none =>
      simp only [new, if_neg hnm, Except.ok.injEq] at hs
      exact ⟨0, hpos, hs.symm⟩
    | some u =>
      obtain ⟨h1, h2⟩ := hv u rfl
      simp only [new, if_neg hnm] at hs
      cases hb : c.byIndex
      · obtain ⟨x, hx, rfl⟩ := h1 hb
        obtain ⟨k, hk, rfl⟩ := List.mem_iff_getElem.1 hx
        rw [show Val.obj c.values[k] = entry c k hk by simp [entry, hb], set_entry he _ hk] at hs
        exact ⟨_, shown_lt c hk, (Except.ok.inj hs).symm⟩
      · obtain ⟨k, hk, rfl⟩ := h2 hb
        rw [show Val.idx (k : ℤ) = entry c k hk by simp [entry, hb], set_entry he _ hk] at hs
        exact ⟨_, shown_lt c hk, (Except.ok.inj hs).symm⟩
  obtain ⟨k0, hk0, rfl⟩ := hs0
  have inv : ∀ (ks : List ℕ) (s : St V), (∀ k ∈ ks, k < c.values.length) →
      (∃ k, ∃ hk : k < c.values.length, s.index = k ∧ s.last = s.sent.head? ∧
        (s.sent.head? = some (entry c k hk) ∨ s.sent = [] ∧ entry c k hk = entry c k0 hk0)) →
      ∃ k, ∃ hk : k < c.values.length, (after c s (ks.map .pick)).index = k ∧ (after c s (ks.map .pick)).last = (after c s (ks.map .pick)).sent.head? ∧
        ((after c s (ks.map .pick)).sent.head? = some (entry c k hk) ∨ (after c s (ks.map .pick)).sent = [] ∧ entry c k hk = entry c k0 hk0) := by
    intro ks
    induction ks with
    | nil => intro s _ h; exact h
    | cons a as ih =>
      intro s ha h
      refine ih (act c s (.pick a)) (fun k hk => ha k (List.mem_cons_of_mem _ hk)) ?_
      obtain ⟨k, hk, e1, e2, e3⟩ := h
      have hal := ha a List.mem_cons_self
      by_cases hki : (a : ℤ) = s.index
      · simp only [act, pick, if_pos hki]; exact ⟨k, hk, e1, e2, e3⟩
      · simp only [act, pick_eq he s hal hki]
        refine ⟨_, shown_lt c hal, ?_⟩
        split
        · rename_i h0
          exact ⟨rfl, e2, Or.inl (by rw [entry_shown]; rw [← e2]; exact h0.symm)⟩
        · exact ⟨rfl, rfl, Or.inl (by rw [entry_shown]; rfl)⟩
  obtain ⟨k, hkl, e1, -, e3⟩ := inv ks ⟨(k0 : ℤ), none, []⟩ hk ⟨k0, hk0, rfl, rfl, Or.inr ⟨rfl, rfl⟩⟩
  refine ⟨_, value_nat hkl e1, ?_⟩
  rcases e3 with e3 | ⟨e3, e4⟩
  · exact Or.inl e3
  · exact Or.inr ⟨e3, by rw [value_nat hk0 rfl, e4]⟩

example : ∃ c : Cfg ℕ, Even c ∧ c.byIndex = false ∧ c.values.Nodup ∧ c.values ≠ [] := ⟨⟨false, [1, 2], [1, 2]⟩, rfl, rfl, by decide, by simp⟩

example : ∃ c : Cfg ℕ, Even c ∧ c.byIndex = false ∧ ∃ h : 1 < c.values.length, c.values[0] = c.values[1] :=
  ⟨⟨false, [5, 5], [5, 5]⟩, rfl, rfl, by simp, rfl⟩

example : ∃ c : Cfg ℕ, c.byIndex = false ∧ 2 ∈ c.values ∧ c.names.length ≤ c.values.idxOf 2 := ⟨⟨false, [1, 2], [1]⟩, rfl, by simp, by decide⟩

/-! ### the file input -/

namespace QFile

theorem dirname_join (f b : List Char) (hf : f ≠ []) (hl : f.getLast hf ≠ '/') (hb : '/' ∉ b) : dirname (f ++ '/' :: b) = f := by
  have h1 : ((f ++ '/' :: b).reverse.dropWhile (· ≠ '/')) = '/' :: f.reverse := by
    rw [List.reverse_append, List.reverse_cons, List.append_assoc, List.dropWhile_append_of_pos]
    · simp
    · intro x hx
      have : x ≠ '/' := fun h => hb (by rw [← h]; simpa using hx)
      simpa using this
  have hr : f.reverse ≠ [] := by simpa using hf
  have hh : f.reverse.head hr ≠ '/' := by rw [List.head_reverse]; exact hl
  unfold dirname
  simp only [h1]
  rw [if_neg]
  · rw [List.reverse_reverse]
    cases hfr : f.reverse with
    | nil => exact absurd hfr hr
    | cons x xs =>
      have hx : x ≠ '/' := by simpa [hfr] using hh
      simp only [List.dropWhile, decide_true, hx, decide_false]
      rw [← hfr, List.reverse_reverse]
  · intro h0
    rw [List.all_eq_true] at h0
    have := h0 (f.getLast hf) (by simp)
    exact hl (by simpa using this)

theorem emit_line (s : St) : s.emit.line = s.line ∧ s.emit.folder = s.folder ∧ (s.last ≠ some s.line → s.emit.sent = s.line :: s.sent) := by
  unfold St.emit
  split
  · rename_i h; exact ⟨rfl, rfl, fun h0 => absurd h.symm h0⟩
  · exact ⟨rfl, rfl, fun _ => rfl⟩

end QFile

/-- **C173** A file that is chosen in the dialog of the file input is shown and sent, and the next dialog starts in its folder; leaving
the dialog, or a checker that refuses the file, changes nothing. -/
theorem C173_file (s : QFile.St) (f b : List Char) (hf : f ≠ []) (hl : f.getLast hf ≠ '/') (hb : '/' ∉ b) :
    (s.openDialog none (f ++ '/' :: b)).line = f ++ '/' :: b ∧ (s.openDialog none (f ++ '/' :: b)).folder = f ∧
    (s.last ≠ some (f ++ '/' :: b) → (s.openDialog none (f ++ '/' :: b)).sent = (f ++ '/' :: b) :: s.sent) ∧
    (∀ g, s.openDialog g [] = s) ∧ ∀ g a, g a = [] → s.openDialog (some g) a = s := by
  have e : f ++ '/' :: b ≠ [] := by simp
  refine ⟨?_, ?_, fun h => ?_, fun g => ?_, fun g a h => ?_⟩
  · simp only [QFile.St.openDialog, if_neg e]; exact (QFile.emit_line _).1
  · simp only [QFile.St.openDialog, if_neg e]; exact (QFile.emit_line _).2.1.trans (QFile.dirname_join f b hf hl hb)
  · simp only [QFile.St.openDialog, if_neg e]; exact (QFile.emit_line _).2.2 h
  · cases g <;> simp [QFile.St.openDialog]
  · by_cases ha : a = [] <;> simp [QFile.St.openDialog, ha, h]

/-- **C173** fails for a new file input: it cannot be created without a file name, though None is the default; with one it shows it. -/
theorem C173_new_violated : (∃ e, QFile.new none = .error e) ∧ ∀ v, ∃ s, QFile.new (some v) = .ok s ∧ s.line = v ∧ s.sent = [] :=
  ⟨⟨(), rfl⟩, fun _ => ⟨_, rfl, rfl, rfl⟩⟩

example : ∃ f b : List Char, ∃ hf : f ≠ [], f.getLast hf ≠ '/' ∧ '/' ∉ b := ⟨['a'], ['b'], by simp, by simp, by simp⟩

/-- **C173** A drop-down without entries shows none: its index is -1, which it gives as value if it refers to entries by index. -/
theorem C173_empty {V : Type} [DecidableEq V] (c : QChoice.Cfg V) (h : c.names = []) :
    ∃ s, QChoice.new c none = .ok s ∧ s.index = -1 ∧ s.sent = [] ∧ (c.byIndex = true → QChoice.value c s = .ok (.idx (-1))) ∧
      (c.byIndex = false → c.values = [] → QChoice.value c s = .error .index) := by
  refine ⟨⟨-1, none, []⟩, by simp [QChoice.new, h], rfl, rfl, fun hb => by simp [QChoice.value, hb], fun hb hv => ?_⟩
  simp [QChoice.value, hb, QChoice.item, hv, Except.map]
