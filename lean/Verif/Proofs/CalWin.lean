import Verif.Spec.CalWin
import Mathlib.Data.Prod.Lex
import Mathlib.Tactic.Common
import Mathlib.Tactic.Push

/-! # Lemmas about the window of the calibration tool -/

namespace CalWin

variable {D : Type}

theorem mem_set_of_ne {α : Type} {l : List α} {k : ℕ} {t t' x : α} (hk : l[k]? = some t) (hx : x ∈ l) (hne : x ≠ t) : x ∈ l.set k t' := by
  obtain ⟨j, hj, rfl⟩ := List.mem_iff_getElem.1 hx
  have hjk : k ≠ j := by
    rintro rfl
    rw [List.getElem?_eq_getElem hj] at hk
    exact hne (Option.some.inj hk)
  refine List.mem_iff_getElem.2 ⟨j, by simpa using hj, ?_⟩
  rw [List.getElem_set_ne hjk]

theorem mem_set_self' {α : Type} {l : List α} {k : ℕ} {t t' : α} (hk : l[k]? = some t) : t' ∈ l.set k t' :=
  List.mem_set (List.getElem?_eq_some_iff.1 hk).1 _

theorem mem_erase_of_ne {α : Type} {l : List α} {k : ℕ} {t x : α} (hk : l[k]? = some t) (hx : x ∈ l) (hne : x ≠ t) : x ∈ l.eraseIdx k := by
  obtain ⟨j, hj, rfl⟩ := List.mem_iff_getElem.1 hx
  rw [List.mem_eraseIdx_iff_getElem]
  refine ⟨j, hj, ?_, rfl⟩
  rintro rfl
  rw [List.getElem?_eq_getElem hj] at hk
  exact hne (Option.some.inj hk)

theorem mem_of_get {α : Type} {l : List α} {k : ℕ} {t : α} (hk : l[k]? = some t) : t ∈ l := List.mem_of_getElem? hk

@[simp] theorem setRow_imgs (s : St D) (i : ℕ) : (s.setRow i).imgs = s.imgs := rfl

theorem foldl_setRow (l : List ℕ) (s : St D) : ∃ tb, l.foldl St.setRow s = { s with table := tb } ∧ tb.length = s.table.length := by
  induction l generalizing s with
  | nil => exact ⟨s.table, rfl, rfl⟩
  | cons a l ih =>
    obtain ⟨tb, h1, h2⟩ := ih (s.setRow a)
    exact ⟨tb, h1, by rw [h2]; simp [St.setRow]⟩

theorem updateTable_eq (s : St D) : ∃ tb, s.updateTable = { s with table := tb } ∧ tb.length = s.images.length := by
  obtain ⟨tb, h1, h2⟩ := foldl_setRow s.images { s with table := s.images.map fun i => (s.imgs i).data }
  exact ⟨tb, h1, by rw [h2]; simp⟩

theorem next_cases (s : St D) : s.next = s ∧ s.images.length ≤ s.index ∨ ∃ i, s.images[s.index]? = some i ∧
    s.next = { s with index := s.index + 1, conn := Function.update s.conn i (s.conn i + 1), threads := ⟨i, .begin⟩ :: s.threads,
                      log := s.log ++ [i] } := by
  unfold St.next
  cases h : s.images[s.index]? with
  | none => exact Or.inl ⟨rfl, List.getElem?_eq_none_iff.1 h⟩
  | some i => exact Or.inr ⟨i, rfl, rfl⟩

/-- All that a step of a thread can be. -/
theorem work_cases (s : St D) (det : ℕ → Option D) (k : ℕ) : s.work det k = s ∧ s.threads.length ≤ k ∨ ∃ i pc, s.threads[k]? = some ⟨i, pc⟩ ∧
    match pc with
    | .begin => s.work det k = { s.upd i (fun m => { m with status := .progress }) with threads := s.threads.set k ⟨i, .started⟩ }
    | .started => s.work det k = { s with rows := i :: s.rows, threads := s.threads.set k ⟨i, .detecting⟩ }
    | .detecting => (det i = none ∧ s.work det k = { s.upd i (fun m => { m with status := .failed }) with
          threads := s.threads.set k ⟨i, .written⟩ }) ∨ ∃ c, det i = some c ∧
        s.work det k = { s.upd i (fun m => { m with corners := some c }) with threads := s.threads.set k ⟨i, .gotCorners⟩ }
    | .gotCorners => s.work det k = { s.upd i (fun m => { m with status := .yes }) with threads := s.threads.set k ⟨i, .gotStatus⟩ }
    | .gotStatus => s.work det k = { s.upd i (fun m => { m with use := true }) with threads := s.threads.set k ⟨i, .written⟩ }
    | .written => s.work det k = { s with rows := i :: s.rows, threads := s.threads.set k ⟨i, .signalled⟩ }
    | .signalled => s.work det k = { s with calls := s.calls + s.conn i, threads := s.threads.eraseIdx k } := by
  cases h : s.threads[k]? with
  | none => exact Or.inl ⟨by simp [St.work, h], List.getElem?_eq_none_iff.1 h⟩
  | some t =>
    obtain ⟨i, pc⟩ := t
    refine Or.inr ⟨i, pc, rfl, ?_⟩
    cases pc
    case detecting =>
      cases hd : det i with
      | none => exact Or.inl ⟨rfl, by simp only [St.work, h, hd]⟩
      | some c => exact Or.inr ⟨c, rfl, by simp only [St.work, h, hd]⟩
    all_goals simp only [St.work, h]

/-- A thread looking for corners or dead. -/
theorem die_cases (s : St D) (k : ℕ) : s.die k = s ∨ ∃ i, s.threads[k]? = some ⟨i, .detecting⟩ ∧ s.die k = { s with threads := s.threads.eraseIdx k } := by
  unfold St.die
  split
  · rename_i i h
    exact Or.inr ⟨i, h, rfl⟩
  · exact Or.inl rfl

theorem deliver_cases (s : St D) : s.deliver = s ∨ s.deliver = St.next { s with calls := s.calls - 1 } ∧ s.calls ≠ 0 := by
  unfold St.deliver
  split_ifs with h
  · exact Or.inl rfl
  · exact Or.inr ⟨rfl, h⟩

theorem deliverRow_cases (s : St D) (k : ℕ) : s.deliverRow k = s ∧ s.rows.length ≤ k ∨
    ∃ i, s.rows[k]? = some i ∧ s.deliverRow k = St.setRow { s with rows := s.rows.eraseIdx k } i := by
  unfold St.deliverRow
  cases h : s.rows[k]? with
  | none => exact Or.inl ⟨rfl, List.getElem?_eq_none_iff.1 h⟩
  | some i => exact Or.inr ⟨i, rfl, rfl⟩

theorem toggle_cases (s : St D) (r : ℕ) : s.toggle r = s ∨ ∃ i, s.images[r]? = some i ∧ (s.imgs i).corners.isSome ∧
    s.toggle r = St.setRow (s.upd i fun m => { m with use := !m.use }) i := by
  unfold St.toggle
  cases h : s.images[r]? with
  | none => exact Or.inl rfl
  | some i =>
    simp only
    split_ifs with hc
    · exact Or.inr ⟨i, rfl, hc, rfl⟩
    · exact Or.inl rfl

/-! ## Reachable states -/

/-- What holds at every time: images and threads are of created images, who is in use has corners, and a thread that has written the
corners has written those of its image. -/
structure Good (det : ℕ → Option D) (s : St D) : Prop where
  listed : ∀ i ∈ s.images, i < s.count
  thr : ∀ t ∈ s.threads, t.img < s.count
  use : ∀ i, (s.imgs i).use = true → (s.imgs i).corners.isSome
  got : ∀ t ∈ s.threads, (t.pc = .gotCorners ∨ t.pc = .gotStatus) → ∃ c, det t.img = some c ∧ (s.imgs t.img).corners = some c

theorem good_next {det : ℕ → Option D} {s : St D} (h : Good det s) : Good det s.next := by
  rcases next_cases s with ⟨e, -⟩ | ⟨i, hi, e⟩
  · rwa [e]
  · rw [e]
    refine ⟨h.listed, ?_, h.use, ?_⟩
    · intro t ht
      rcases List.mem_cons.1 ht with rfl | ht
      · exact h.listed _ (mem_of_get hi)
      · exact h.thr t ht
    · intro t ht hp
      rcases List.mem_cons.1 ht with rfl | ht
      · simp at hp
      · exact h.got t ht hp

theorem good_create {det : ℕ → Option D} (fs : List (String × Option D)) {s : St D} (h : Good det s) : Good det (s.create fs) := by
  induction fs generalizing s with
  | nil => exact h
  | cons x xs ih =>
    refine ih ⟨?_, ?_, ?_, ?_⟩
    · intro i hi
      rcases List.mem_append.1 hi with hi | hi
      · exact (h.listed i hi).trans (Nat.lt_succ_self _)
      · rw [List.mem_singleton.1 hi]
        exact Nat.lt_succ_self _
    · exact fun t ht => (h.thr t ht).trans (Nat.lt_succ_self _)
    · intro i hi
      by_cases e : i = s.count
      · subst e
        simp only [Function.update_self] at hi ⊢
        cases hx : x.2 <;> simp_all [Img.new]
      · simp only [Function.update_of_ne e] at hi ⊢
        exact h.use i hi
    · intro t ht hp
      have e : t.img ≠ s.count := (h.thr t ht).ne
      simp only [Function.update_of_ne e]
      exact h.got t ht hp

theorem good_table {det : ℕ → Option D} {s : St D} (h : Good det s) : Good det s.updateTable := by
  obtain ⟨tb, e, -⟩ := updateTable_eq s
  rw [e]
  exact ⟨h.listed, h.thr, h.use, h.got⟩

theorem good_work {det : ℕ → Option D} {s : St D} (h : Good det s) (k : ℕ) : Good det (s.work det k) := by
  rcases work_cases s det k with ⟨e, -⟩ | ⟨i, pc, hk, hc⟩
  · rwa [e]
  have hi : i < s.count := h.thr _ (mem_of_get hk)
  have thr' : ∀ pc', ∀ t ∈ s.threads.set k ⟨i, pc'⟩, t.img < s.count := by
    intro pc' t ht
    rcases List.mem_or_eq_of_mem_set ht with ht | rfl
    · exact h.thr t ht
    · exact hi
  cases pc
  case begin =>
    simp only at hc
    rw [hc]
    refine ⟨h.listed, thr' _, ?_, ?_⟩
    · intro j hj
      by_cases e : j = i
      · subst e
        simp only [St.upd, Function.update_self] at hj ⊢
        exact h.use j hj
      · simp only [St.upd, Function.update_of_ne e] at hj ⊢
        exact h.use j hj
    · intro t ht hp
      rcases List.mem_or_eq_of_mem_set ht with ht | rfl
      · obtain ⟨c, h1, h2⟩ := h.got t ht hp
        refine ⟨c, h1, ?_⟩
        by_cases e : t.img = i
        · simp only [St.upd, e, Function.update_self]
          rw [← e]
          exact h2
        · simp only [St.upd, Function.update_of_ne e]
          exact h2
      · simp at hp
  case started =>
    simp only at hc
    rw [hc]
    refine ⟨h.listed, thr' _, h.use, ?_⟩
    intro t ht hp
    rcases List.mem_or_eq_of_mem_set ht with ht | rfl
    · exact h.got t ht hp
    · simp at hp
  case detecting =>
    simp only at hc
    rcases hc with ⟨hd, hc⟩ | ⟨c, hd, hc⟩
    · rw [hc]
      refine ⟨h.listed, thr' _, ?_, ?_⟩
      · intro j hj
        by_cases e : j = i
        · subst e
          simp only [St.upd, Function.update_self] at hj ⊢
          exact h.use j hj
        · simp only [St.upd, Function.update_of_ne e] at hj ⊢
          exact h.use j hj
      · intro t ht hp
        rcases List.mem_or_eq_of_mem_set ht with ht | rfl
        · obtain ⟨c, h1, h2⟩ := h.got t ht hp
          refine ⟨c, h1, ?_⟩
          by_cases e : t.img = i
          · simp only [St.upd, e, Function.update_self]
            rw [← e]
            exact h2
          · simp only [St.upd, Function.update_of_ne e]
            exact h2
        · simp at hp
    · rw [hc]
      refine ⟨h.listed, thr' _, ?_, ?_⟩
      · intro j hj
        by_cases e : j = i
        · subst e
          simp [St.upd, Function.update_self]
        · simp only [St.upd, Function.update_of_ne e] at hj ⊢
          exact h.use j hj
      · intro t ht hp
        by_cases e : t.img = i
        · exact ⟨c, by rw [e, hd], by simp [St.upd, e]⟩
        · rcases List.mem_or_eq_of_mem_set ht with ht | rfl
          · simp only [St.upd, Function.update_of_ne e]
            exact h.got t ht hp
          · exact absurd rfl e
  case gotCorners =>
    simp only at hc
    rw [hc]
    have hg := h.got _ (mem_of_get hk) (Or.inl rfl)
    refine ⟨h.listed, thr' _, ?_, ?_⟩
    · intro j hj
      by_cases e : j = i
      · subst e
        simp only [St.upd, Function.update_self] at hj ⊢
        exact h.use j hj
      · simp only [St.upd, Function.update_of_ne e] at hj ⊢
        exact h.use j hj
    · intro t ht hp
      have : ∃ c, det t.img = some c ∧ (s.imgs t.img).corners = some c := by
        rcases List.mem_or_eq_of_mem_set ht with ht | rfl
        · exact h.got t ht hp
        · exact hg
      obtain ⟨c, h1, h2⟩ := this
      refine ⟨c, h1, ?_⟩
      by_cases e : t.img = i
      · simp only [St.upd, e, Function.update_self]
        rw [← e]
        exact h2
      · simp only [St.upd, Function.update_of_ne e]
        exact h2
  case gotStatus =>
    simp only at hc
    rw [hc]
    obtain ⟨c0, hg1, hg2⟩ := h.got _ (mem_of_get hk) (Or.inr rfl)
    simp only at hg1 hg2
    refine ⟨h.listed, thr' _, ?_, ?_⟩
    · intro j hj
      by_cases e : j = i
      · subst e
        simp only [St.upd, Function.update_self, hg2]
        rfl
      · simp only [St.upd, Function.update_of_ne e] at hj ⊢
        exact h.use j hj
    · intro t ht hp
      rcases List.mem_or_eq_of_mem_set ht with ht | rfl
      · obtain ⟨c, h1, h2⟩ := h.got t ht hp
        refine ⟨c, h1, ?_⟩
        by_cases e : t.img = i
        · simp only [St.upd, e, Function.update_self]
          rw [← e]
          exact h2
        · simp only [St.upd, Function.update_of_ne e]
          exact h2
      · simp at hp
  case written =>
    simp only at hc
    rw [hc]
    refine ⟨h.listed, thr' _, h.use, ?_⟩
    intro t ht hp
    rcases List.mem_or_eq_of_mem_set ht with ht | rfl
    · exact h.got t ht hp
    · simp at hp
  case signalled =>
    simp only at hc
    rw [hc]
    exact ⟨h.listed, fun t ht => h.thr t (List.mem_of_mem_eraseIdx ht), h.use, fun t ht => h.got t (List.mem_of_mem_eraseIdx ht)⟩

theorem good_act {det : ℕ → Option D} {s : St D} (h : Good det s) (a : Act D) : Good det (s.act det a) := by
  cases a with
  | click => exact good_next ⟨h.listed, h.thr, h.use, h.got⟩
  | clear => exact good_table ⟨by simp, h.thr, h.use, h.got⟩
  | load fs => exact good_table (good_create fs h)
  | toggle r =>
    rcases toggle_cases s r with e | ⟨i, hi, hc, e⟩
    · show Good det (s.toggle r)
      rwa [e]
    · show Good det (s.toggle r)
      rw [e]
      have hco : ∀ j, ((s.upd i fun m => { m with use := !m.use }).imgs j).corners = (s.imgs j).corners := by
        intro j
        by_cases ej : j = i
        · subst ej
          simp [St.upd]
        · simp [St.upd, Function.update_of_ne ej]
      refine ⟨h.listed, h.thr, ?_, ?_⟩
      · intro j hj
        show ((s.upd i fun m => { m with use := !m.use }).imgs j).corners.isSome
        rw [hco]
        by_cases ej : j = i
        · rwa [ej]
        · refine h.use j ?_
          have : ((s.upd i fun m => { m with use := !m.use }).imgs j).use = true := hj
          simpa [St.upd, Function.update_of_ne ej] using this
      · intro t ht hp
        obtain ⟨c, h1, h2⟩ := h.got t ht hp
        exact ⟨c, h1, (hco t.img).trans h2⟩
  | work k => exact good_work h k
  | die k =>
    show Good det (s.die k)
    rcases die_cases s k with e | ⟨i, hi, e⟩
    · rwa [e]
    · rw [e]
      exact ⟨h.listed, fun t ht => h.thr t (List.mem_of_mem_eraseIdx ht), h.use, fun t ht => h.got t (List.mem_of_mem_eraseIdx ht)⟩
  | deliver =>
    show Good det s.deliver
    rcases deliver_cases s with e | ⟨e, -⟩
    · rwa [e]
    · rw [e]
      exact good_next ⟨h.listed, h.thr, h.use, h.got⟩
  | deliverRow k =>
    show Good det (s.deliverRow k)
    rcases deliverRow_cases s k with ⟨e, -⟩ | ⟨i, -, e⟩
    · rwa [e]
    · rw [e]
      exact ⟨h.listed, h.thr, h.use, h.got⟩
  | drop => exact ⟨h.listed, h.thr, h.use, h.got⟩
  | dropRow k => exact ⟨h.listed, h.thr, h.use, h.got⟩

theorem Reached.step {det : ℕ → Option D} {s : St D} (h : Reached det s) (a : Act D) : Reached det (s.act det a) := by
  obtain ⟨acts, rfl⟩ := h
  exact ⟨acts ++ [a], by simp⟩

theorem Reached.good {det : ℕ → Option D} {s : St D} (h : Reached det s) : Good det s := by
  obtain ⟨acts, rfl⟩ := h
  have : ∀ (l : List (Act D)) (s : St D), Good det s → Good det (l.foldl (St.act det) s) := by
    intro l
    induction l with
    | nil => exact fun s h => h
    | cons a l ih => exact fun s h => ih _ (good_act h a)
  refine this acts _ ⟨?_, ?_, ?_, ?_⟩ <;> simp [St.init, Img.new]

end CalWin
