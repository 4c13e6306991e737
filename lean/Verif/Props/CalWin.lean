import Verif.Proofs.CalWin

/-! # C135: the "Process" button processes every image once, in order, and ends -/

namespace CalWin

variable {D : Type}

/-- Before the status is written. -/
def Pc.early : Pc → Prop
  | .begin | .started | .detecting | .gotCorners => True
  | _ => False

/-- Before everything is written. -/
def Pc.open : Pc → Prop
  | .written | .signalled => False
  | _ => True

/-- The status that a processed image has. -/
def resStatus (found : Option D) : Status := if found.isSome then .yes else .failed

/-- What holds after a click on "Process" with the images `l`. -/
structure Run (det : ℕ → Option D) (l : List ℕ) (s : St D) : Prop where
  images : s.images = l
  le : s.index ≤ l.length
  log : s.log = l.take s.index

/-- What holds as long as no thread dies. -/
structure Live (det : ℕ → Option D) (l : List ℕ) (s : St D) : Prop extends Run det l s where
  go : s.index < l.length → s.calls ≠ 0 ∨ ∃ t ∈ s.threads, s.conn t.img ≠ 0
  st : ∀ i ∈ s.log, (s.imgs i).status = resStatus (det i) ∨ ∃ t ∈ s.threads, t.img = i ∧ t.pc.early
  co : ∀ i ∈ s.log, ∀ c, det i = some c → ((s.imgs i).corners = some c ∧ (s.imgs i).use = true) ∨ ∃ t ∈ s.threads, t.img = i ∧ t.pc.open

theorem run_next {det : ℕ → Option D} {l : List ℕ} {s : St D} (h : Run det l s) : Run det l s.next := by
  rcases next_cases s with ⟨e, -⟩ | ⟨i, hi, e⟩
  · rwa [e]
  · rw [e]
    rw [h.images] at hi
    have hlt := (List.getElem?_eq_some_iff.1 hi).1
    refine ⟨h.images, hlt, ?_⟩
    show s.log ++ [i] = _
    rw [h.log, List.take_add_one, hi]
    rfl

theorem live_next {det : ℕ → Option D} {l : List ℕ} {s : St D} (h : Run det l s)
    (st : ∀ i ∈ s.log, (s.imgs i).status = resStatus (det i) ∨ ∃ t ∈ s.threads, t.img = i ∧ t.pc.early)
    (co : ∀ i ∈ s.log, ∀ c, det i = some c → ((s.imgs i).corners = some c ∧ (s.imgs i).use = true) ∨
      ∃ t ∈ s.threads, t.img = i ∧ t.pc.open) : Live det l s.next := by
  refine ⟨run_next h, ?_, ?_, ?_⟩
  · rcases next_cases s with ⟨e, hle⟩ | ⟨i, hi, e⟩
    · rw [e]
      intro hlt
      rw [h.images] at hle
      exact absurd hlt (not_lt.2 hle)
    · rw [e]
      intro _
      exact Or.inr ⟨⟨i, .begin⟩, List.mem_cons_self, by simp⟩
  · rcases next_cases s with ⟨e, hle⟩ | ⟨i, hi, e⟩
    · rw [e]
      exact st
    · rw [e]
      intro j hj
      rcases List.mem_append.1 hj with hj | hj
      · rcases st j hj with h1 | ⟨t, ht, h1⟩
        · exact Or.inl h1
        · exact Or.inr ⟨t, List.mem_cons_of_mem _ ht, h1⟩
      · exact Or.inr ⟨⟨i, .begin⟩, List.mem_cons_self, (List.mem_singleton.1 hj).symm, trivial⟩
  · rcases next_cases s with ⟨e, hle⟩ | ⟨i, hi, e⟩
    · rw [e]
      exact co
    · rw [e]
      intro j hj c hc
      rcases List.mem_append.1 hj with hj | hj
      · rcases co j hj c hc with h1 | ⟨t, ht, h1⟩
        · exact Or.inl h1
        · exact Or.inr ⟨t, List.mem_cons_of_mem _ ht, h1⟩
      · exact Or.inr ⟨⟨i, .begin⟩, List.mem_cons_self, (List.mem_singleton.1 hj).symm, trivial⟩

theorem run_work {det : ℕ → Option D} {l : List ℕ} {s : St D} (h : Run det l s) (k : ℕ) : Run det l (s.work det k) := by
  rcases work_cases s det k with ⟨e, -⟩ | ⟨i, pc, hk, hc⟩
  · rwa [e]
  cases pc
  case detecting =>
    rcases hc with ⟨-, hc⟩ | ⟨c, -, hc⟩ <;> rw [hc] <;> exact ⟨h.images, h.le, h.log⟩
  all_goals
    simp only at hc
    rw [hc]
    exact ⟨h.images, h.le, h.log⟩

/-- A step of a thread leaves the claims about the other images and threads. -/
theorem live_work {det : ℕ → Option D} {l : List ℕ} {s : St D} (g : Good det s) (h : Live det l s) (k : ℕ) : Live det l (s.work det k) := by
  refine ⟨run_work h.toRun k, ?_, ?_, ?_⟩
  · -- someone will go on
    rcases work_cases s det k with ⟨e, -⟩ | ⟨i, pc, hk, hc⟩
    · rw [e]
      exact h.go
    have keep : ∀ pc', (s.calls ≠ 0 ∨ ∃ t ∈ s.threads, s.conn t.img ≠ 0) → (s.calls ≠ 0 ∨ ∃ t ∈ s.threads.set k ⟨i, pc'⟩, s.conn t.img ≠ 0) := by
      intro pc' hh
      rcases hh with h1 | ⟨t, ht, h1⟩
      · exact Or.inl h1
      · by_cases e : t = ⟨i, pc⟩
        · subst e
          exact Or.inr ⟨⟨i, pc'⟩, mem_set_self' hk, h1⟩
        · exact Or.inr ⟨t, mem_set_of_ne hk ht e, h1⟩
    cases pc
    case detecting =>
      rcases hc with ⟨-, hc⟩ | ⟨c, -, hc⟩ <;> rw [hc] <;> exact fun hlt => keep _ (h.go hlt)
    case signalled =>
      simp only at hc
      rw [hc]
      intro hlt
      rcases h.go hlt with h1 | ⟨t, ht, h1⟩
      · left
        show s.calls + s.conn i ≠ 0
        omega
      · by_cases e : t = ⟨i, .signalled⟩
        · subst e
          left
          show s.calls + s.conn i ≠ 0
          simp only at h1
          omega
        · exact Or.inr ⟨t, mem_erase_of_ne hk ht e, h1⟩
    all_goals
      simp only at hc
      rw [hc]
      exact fun hlt => keep _ (h.go hlt)
  · rcases work_cases s det k with ⟨e, -⟩ | ⟨i, pc, hk, hc⟩
    · rw [e]
      exact h.st
    have keep : ∀ pc' (j : ℕ), (pc.early → pc'.early) → ((s.imgs j).status = resStatus (det j) ∨ ∃ t ∈ s.threads, t.img = j ∧ t.pc.early) →
        ((s.imgs j).status = resStatus (det j) ∨ ∃ t ∈ s.threads.set k ⟨i, pc'⟩, t.img = j ∧ t.pc.early) := by
      intro pc' j hp hh
      rcases hh with h1 | ⟨t, ht, h1, h2⟩
      · exact Or.inl h1
      · by_cases e : t = ⟨i, pc⟩
        · subst e
          exact Or.inr ⟨⟨i, pc'⟩, mem_set_self' hk, h1, hp h2⟩
        · exact Or.inr ⟨t, mem_set_of_ne hk ht e, h1, h2⟩
    have other : ∀ pc' (j : ℕ) (f : Img D → Img D), j ≠ i → ((s.imgs j).status = resStatus (det j) ∨ ∃ t ∈ s.threads, t.img = j ∧ t.pc.early) →
        (((s.upd i f).imgs j).status = resStatus (det j) ∨ ∃ t ∈ s.threads.set k ⟨i, pc'⟩, t.img = j ∧ t.pc.early) := by
      intro pc' j f hj hh
      rcases hh with h1 | ⟨t, ht, h1, h2⟩
      · left
        simpa [St.upd, Function.update_of_ne hj] using h1
      · refine Or.inr ⟨t, mem_set_of_ne hk ht ?_, h1, h2⟩
        rintro rfl
        exact hj h1.symm
    cases pc
    case begin =>
      simp only at hc
      rw [hc]
      intro j hj
      by_cases e : j = i
      · exact Or.inr ⟨⟨i, .started⟩, mem_set_self' hk, e.symm, trivial⟩
      · exact other .started j (fun m => { m with status := .progress }) e (h.st j hj)
    case started =>
      simp only at hc
      rw [hc]
      exact fun j hj => keep _ j (fun _ => trivial) (h.st j hj)
    case detecting =>
      rcases hc with ⟨hd, hc⟩ | ⟨c, hd, hc⟩ <;> rw [hc] <;> intro j hj
      · by_cases e : j = i
        · left
          subst e
          simp [St.upd, resStatus, hd]
        · exact other .written j (fun m => { m with status := .failed }) e (h.st j hj)
      · by_cases e : j = i
        · exact Or.inr ⟨⟨i, .gotCorners⟩, mem_set_self' hk, e.symm, trivial⟩
        · exact other .gotCorners j (fun m => { m with corners := some c }) e (h.st j hj)
    case gotCorners =>
      simp only at hc
      rw [hc]
      obtain ⟨c, h1, -⟩ := g.got _ (mem_of_get hk) (Or.inl rfl)
      simp only at h1
      intro j hj
      by_cases e : j = i
      · left
        subst e
        simp [St.upd, resStatus, h1]
      · exact other .gotStatus j (fun m => { m with status := .yes }) e (h.st j hj)
    case gotStatus =>
      simp only at hc
      rw [hc]
      intro j hj
      by_cases e : j = i
      · rcases keep .written j (fun hh => hh.elim) (h.st j hj) with h1 | h1
        · left
          subst e
          simpa [St.upd] using h1
        · exact Or.inr h1
      · exact other .written j (fun m => { m with use := true }) e (h.st j hj)
    case written =>
      simp only at hc
      rw [hc]
      exact fun j hj => keep _ j (fun hh => hh.elim) (h.st j hj)
    case signalled =>
      simp only at hc
      rw [hc]
      intro j hj
      rcases h.st j hj with h1 | ⟨t, ht, h1, h2⟩
      · exact Or.inl h1
      · refine Or.inr ⟨t, mem_erase_of_ne hk ht ?_, h1, h2⟩
        rintro rfl
        exact h2
  · rcases work_cases s det k with ⟨e, -⟩ | ⟨i, pc, hk, hc⟩
    · rw [e]
      exact h.co
    have keep : ∀ pc' (j : ℕ) (c : D), (pc.open → pc'.open) →
        (((s.imgs j).corners = some c ∧ (s.imgs j).use = true) ∨ ∃ t ∈ s.threads, t.img = j ∧ t.pc.open) →
        (((s.imgs j).corners = some c ∧ (s.imgs j).use = true) ∨ ∃ t ∈ s.threads.set k ⟨i, pc'⟩, t.img = j ∧ t.pc.open) := by
      intro pc' j c hp hh
      rcases hh with h1 | ⟨t, ht, h1, h2⟩
      · exact Or.inl h1
      · by_cases e : t = ⟨i, pc⟩
        · subst e
          exact Or.inr ⟨⟨i, pc'⟩, mem_set_self' hk, h1, hp h2⟩
        · exact Or.inr ⟨t, mem_set_of_ne hk ht e, h1, h2⟩
    have other : ∀ pc' (j : ℕ) (c : D) (f : Img D → Img D), j ≠ i →
        (((s.imgs j).corners = some c ∧ (s.imgs j).use = true) ∨ ∃ t ∈ s.threads, t.img = j ∧ t.pc.open) →
        ((((s.upd i f).imgs j).corners = some c ∧ ((s.upd i f).imgs j).use = true) ∨ ∃ t ∈ s.threads.set k ⟨i, pc'⟩, t.img = j ∧ t.pc.open) := by
      intro pc' j c f hj hh
      rcases hh with h1 | ⟨t, ht, h1, h2⟩
      · left
        simpa [St.upd, Function.update_of_ne hj] using h1
      · refine Or.inr ⟨t, mem_set_of_ne hk ht ?_, h1, h2⟩
        rintro rfl
        exact hj h1.symm
    cases pc
    case begin =>
      simp only at hc
      rw [hc]
      intro j hj c hd
      by_cases e : j = i
      · exact Or.inr ⟨⟨i, .started⟩, mem_set_self' hk, e.symm, trivial⟩
      · exact other .started j c (fun m => { m with status := .progress }) e (h.co j hj c hd)
    case started =>
      simp only at hc
      rw [hc]
      exact fun j hj c hd => keep _ j c (fun _ => trivial) (h.co j hj c hd)
    case detecting =>
      rcases hc with ⟨hd, hc⟩ | ⟨c, hd, hc⟩ <;> rw [hc] <;> intro j hj c' hd'
      · by_cases e : j = i
        · subst e
          rw [hd] at hd'
          cases hd'
        · exact other .written j c' (fun m => { m with status := .failed }) e (h.co j hj c' hd')
      · by_cases e : j = i
        · exact Or.inr ⟨⟨i, .gotCorners⟩, mem_set_self' hk, e.symm, trivial⟩
        · exact other .gotCorners j c' (fun m => { m with corners := some c }) e (h.co j hj c' hd')
    case gotCorners =>
      simp only at hc
      rw [hc]
      intro j hj c hd
      by_cases e : j = i
      · exact Or.inr ⟨⟨i, .gotStatus⟩, mem_set_self' hk, e.symm, trivial⟩
      · exact other .gotStatus j c (fun m => { m with status := .yes }) e (h.co j hj c hd)
    case gotStatus =>
      simp only at hc
      rw [hc]
      obtain ⟨c0, h1, h2⟩ := g.got _ (mem_of_get hk) (Or.inr rfl)
      simp only at h1 h2
      intro j hj c hd
      by_cases e : j = i
      · left
        subst e
        rw [h1] at hd
        cases hd
        simp [St.upd, h2]
      · exact other .written j c (fun m => { m with use := true }) e (h.co j hj c hd)
    case written =>
      simp only at hc
      rw [hc]
      exact fun j hj c hd => keep _ j c (fun hh => hh.elim) (h.co j hj c hd)
    case signalled =>
      simp only at hc
      rw [hc]
      intro j hj c hd
      rcases h.co j hj c hd with h1 | ⟨t, ht, h1, h2⟩
      · exact Or.inl h1
      · refine Or.inr ⟨t, mem_erase_of_ne hk ht ?_, h1, h2⟩
        rintro rfl
        exact h2

theorem live_own {det : ℕ → Option D} {l : List ℕ} {s : St D} (g : Good det s) (h : Live det l s) {a : Act D} (ha : a.own) :
    Live det l (s.act det a) := by
  cases a with
  | work k => exact live_work g h k
  | deliver =>
    show Live det l s.deliver
    rcases deliver_cases s with e | ⟨e, -⟩
    · rwa [e]
    · rw [e]
      exact live_next ⟨h.images, h.le, h.log⟩ h.st h.co
  | deliverRow k =>
    show Live det l (s.deliverRow k)
    rcases deliverRow_cases s k with ⟨e, -⟩ | ⟨i, -, e⟩
    · rwa [e]
    · rw [e]
      exact ⟨⟨h.images, h.le, h.log⟩, h.go, h.st, h.co⟩
  | _ => exact ha.elim

theorem live_click {det : ℕ → Option D} (s : St D) : Live det s.images s.click :=
  live_next (s := { s with index := 0, log := [] }) ⟨rfl, Nat.zero_le _, by simp⟩ (by simp) (by simp)

theorem live_all {det : ℕ → Option D} {l : List ℕ} (as : List (Act D)) (ha : ∀ a ∈ as, a.own) {s : St D} (g : Good det s) (h : Live det l s) :
    Live det l (as.foldl (St.act det) s) := by
  induction as generalizing s with
  | nil => exact h
  | cons a as ih => exact ih (fun b hb => ha b (List.mem_cons_of_mem _ hb)) (good_act g a) (live_own g h (ha a List.mem_cons_self))

/-- Everything that leaves the list of images and does not click. -/
def Act.noUser : Act D → Prop
  | .click | .clear | .load _ => False
  | _ => True

theorem run_noUser {det : ℕ → Option D} {l : List ℕ} {s : St D} (h : Run det l s) {a : Act D} (ha : a.noUser) : Run det l (s.act det a) := by
  cases a with
  | work k => exact run_work h k
  | deliver =>
    show Run det l s.deliver
    rcases deliver_cases s with e | ⟨e, -⟩
    · rwa [e]
    · rw [e]
      exact run_next ⟨h.images, h.le, h.log⟩
  | deliverRow k =>
    show Run det l (s.deliverRow k)
    rcases deliverRow_cases s k with ⟨e, -⟩ | ⟨i, -, e⟩
    · rwa [e]
    · rw [e]
      exact ⟨h.images, h.le, h.log⟩
  | toggle r =>
    show Run det l (s.toggle r)
    rcases toggle_cases s r with e | ⟨i, hi, hc, e⟩
    · rwa [e]
    · rw [e]
      exact ⟨h.images, h.le, h.log⟩
  | die k =>
    show Run det l (s.die k)
    rcases die_cases s k with e | ⟨i, hi, e⟩
    · rwa [e]
    · rw [e]
      exact ⟨h.images, h.le, h.log⟩
  | drop => exact ⟨h.images, h.le, h.log⟩
  | dropRow k => exact ⟨h.images, h.le, h.log⟩
  | _ => exact ha.elim

/-- How much a thread has to do. -/
def Pc.left : Pc → ℕ
  | .begin => 7
  | .started => 6
  | .detecting => 5
  | .gotCorners => 4
  | .gotStatus => 3
  | .written => 2
  | .signalled => 1

/-- What has to be done: images, steps of threads, calls, rows. -/
def St.todo (s : St D) : ℕ ×ₗ ℕ ×ₗ ℕ ×ₗ ℕ :=
  toLex (s.images.length - s.index, toLex ((s.threads.map fun t => t.pc.left).sum, toLex (s.calls, s.rows.length)))

theorem sum_set {l : List Thr} {k i : ℕ} {pc pc' : Pc} (hk : l[k]? = some ⟨i, pc⟩) (h : pc'.left < pc.left) :
    ((l.set k ⟨i, pc'⟩).map fun t => t.pc.left).sum < (l.map fun t => t.pc.left).sum := by
  induction l generalizing k with
  | nil => simp at hk
  | cons a l ih =>
    cases k with
    | zero =>
      simp only [List.getElem?_cons_zero, Option.some.injEq] at hk
      subst hk
      simpa using h
    | succ k =>
      simp only [List.getElem?_cons_succ] at hk
      have := ih hk
      simpa using this

theorem sum_erase {l : List Thr} {k i : ℕ} {pc : Pc} (hk : l[k]? = some ⟨i, pc⟩) :
    ((l.eraseIdx k).map fun t => t.pc.left).sum < (l.map fun t => t.pc.left).sum := by
  induction l generalizing k with
  | nil => simp at hk
  | cons a l ih =>
    cases k with
    | zero =>
      simp only [List.getElem?_cons_zero, Option.some.injEq] at hk
      subst hk
      cases pc <;> simp [Pc.left]
    | succ k =>
      simp only [List.getElem?_cons_succ] at hk
      have := ih hk
      simpa using this

theorem todo_lt {det : ℕ → Option D} {s : St D} {a : Act D} (hc : s.can a) : (s.act det a).todo < s.todo := by
  have lt1 : ∀ {s t : St D}, t.images.length - t.index = s.images.length - s.index →
      (t.threads.map fun t => t.pc.left).sum < (s.threads.map fun t => t.pc.left).sum → t.todo < s.todo := by
    intro s t h1 h2
    unfold St.todo
    rw [h1]
    exact Prod.Lex.toLex_lt_toLex.2 (Or.inr ⟨rfl, Prod.Lex.toLex_lt_toLex.2 (Or.inl h2)⟩)
  cases a with
  | work k =>
    show (s.work det k).todo < s.todo
    rcases work_cases s det k with ⟨-, e⟩ | ⟨i, pc, hk, hw⟩
    · exact absurd hc (not_lt.2 e)
    cases pc
    case detecting =>
      rcases hw with ⟨-, hw⟩ | ⟨c, -, hw⟩ <;> rw [hw] <;> exact lt1 rfl (sum_set hk (by simp [Pc.left]))
    case signalled =>
      simp only at hw
      rw [hw]
      exact lt1 rfl (sum_erase hk)
    all_goals
      simp only at hw
      rw [hw]
      exact lt1 rfl (sum_set hk (by simp [Pc.left]))
  | deliver =>
    show s.deliver.todo < s.todo
    have hc' : s.calls ≠ 0 := hc
    rcases deliver_cases s with e | ⟨e, -⟩
    · unfold St.deliver at e
      rw [if_neg hc'] at e
      have := congrArg St.calls e
      rcases next_cases { s with calls := s.calls - 1 } with ⟨e', -⟩ | ⟨i, -, e'⟩ <;> rw [e'] at this <;> simp only at this <;> omega
    · rw [e]
      rcases next_cases { s with calls := s.calls - 1 } with ⟨e', -⟩ | ⟨i, hi, e'⟩ <;> rw [e']
      · unfold St.todo
        refine Prod.Lex.toLex_lt_toLex.2 (Or.inr ⟨rfl, Prod.Lex.toLex_lt_toLex.2 (Or.inr ⟨rfl, Prod.Lex.toLex_lt_toLex.2 (Or.inl ?_)⟩)⟩)
        show s.calls - 1 < s.calls
        omega
      · unfold St.todo
        refine Prod.Lex.toLex_lt_toLex.2 (Or.inl ?_)
        have := (List.getElem?_eq_some_iff.1 hi).1
        simp only at this ⊢
        omega
  | deliverRow k =>
    show (s.deliverRow k).todo < s.todo
    have hc' : k < s.rows.length := hc
    rcases deliverRow_cases s k with ⟨-, e⟩ | ⟨i, -, e⟩
    · exact absurd hc' (not_lt.2 e)
    · rw [e]
      unfold St.todo
      refine Prod.Lex.toLex_lt_toLex.2 (Or.inr ⟨rfl, Prod.Lex.toLex_lt_toLex.2 (Or.inr ⟨rfl, Prod.Lex.toLex_lt_toLex.2 (Or.inr ⟨rfl, ?_⟩)⟩)⟩)
      show (s.rows.eraseIdx k).length < s.rows.length
      rw [List.length_eraseIdx_of_lt hc']
      omega
  | _ => exact hc.elim

end CalWin

open CalWin

/-- **C135.**  In any state, after a click on "Process", and however the threads run, the calls are delivered or lost, threads die and the
user marks images, as long as there is no further click and the list is not changed: the images whose processing was started are the
first ones of the list, each once and in the order of the list. -/
theorem C135_order {D : Type} (det : ℕ → Option D) (s : St D) (as : List (Act D)) (ha : ∀ a ∈ as, a.noUser) :
    let t := as.foldl (St.act det) s.click
    t.log <+: s.images ∧ t.images = s.images ∧ t.log.length = t.index := by
  intro t
  have key : ∀ (as : List (Act D)), (∀ a ∈ as, a.noUser) → ∀ u : St D, Run det s.images u → Run det s.images (as.foldl (St.act det) u) := by
    intro as
    induction as with
    | nil => exact fun _ u h => h
    | cons a as ih =>
      exact fun ha u h => ih (fun b hb => ha b (List.mem_cons_of_mem _ hb)) _ (run_noUser h (ha a List.mem_cons_self))
  have h := key as ha _ (live_click (det := det) s).toRun
  refine ⟨?_, h.images, ?_⟩
  · rw [h.log]
    exact List.take_prefix _ _
  · rw [h.log, List.length_take, min_eq_left h.le]

/-- **C135, partial.**  After any history of the window and a click on "Process", when no thread dies, no call is lost and the user does
nothing: as soon as nothing is running and no call waits, every image of the list was started exactly once, in order, and shows its
result. -/
theorem C135_all_partial {D : Type} (det : ℕ → Option D) {s : St D} (hs : Reached det s) (as : List (Act D)) (ha : ∀ a ∈ as, a.own)
    (hidle : (as.foldl (St.act det) s.click).idle) :
    let t := as.foldl (St.act det) s.click
    t.log = s.images ∧ ∀ i ∈ s.images, Result (det i) (t.imgs i) := by
  intro t
  have h := live_all as ha (good_act hs.good .click) (live_click (det := det) s)
  change Live det s.images t at h
  obtain ⟨h1, h2, -⟩ := hidle
  change t.threads = [] at h1
  change t.calls = 0 at h2
  have hidx : s.images.length ≤ t.index := by
    by_contra hlt
    rcases h.go (not_le.1 hlt) with h3 | ⟨x, hx, -⟩
    · exact h3 h2
    · rw [h1] at hx
      simp at hx
  have hlog : t.log = s.images := by
    rw [h.log, List.take_of_length_le hidx]
  refine ⟨hlog, fun i hi => ?_⟩
  have hi' : i ∈ t.log := by rw [hlog]; exact hi
  have e1 : (t.imgs i).status = resStatus (det i) := by
    rcases h.st i hi' with h3 | ⟨x, hx, -⟩
    · exact h3
    · rw [h1] at hx
      simp at hx
  unfold Result
  cases hd : det i with
  | none =>
    rw [hd] at e1
    exact e1
  | some c =>
    rw [hd] at e1
    rcases h.co i hi' c hd with ⟨h3, h4⟩ | ⟨x, hx, -⟩
    · exact ⟨e1, h4, h3⟩
    · rw [h1] at hx
      simp at hx

/-- **C135.**  The processing ends: there is no infinite sequence of steps of threads and deliveries, from any state. -/
theorem C135_ends {D : Type} (det : ℕ → Option D) : WellFounded fun t s : St D => ∃ a, s.can a ∧ t = s.act det a := by
  refine Subrelation.wf ?_ (InvImage.wf St.todo wellFounded_lt)
  rintro t s ⟨a, hc, rfl⟩
  exact todo_lt hc

/-- A state in which nothing of this is possible is idle. -/
theorem C135_idle {D : Type} (s : St D) (h : ∀ a, ¬s.can a) : s.idle := by
  refine ⟨?_, ?_, ?_⟩
  · by_contra h1
    exact h (.work 0) (List.length_pos_iff.2 h1)
  · by_contra h1
    exact h .deliver h1
  · by_contra h1
    exact h (.deliverRow 0) (List.length_pos_iff.2 h1)

open CalWin in
/-- One image is loaded and processed without corners being found, until nothing is left to do. -/
example : ∃ (s : St Unit) (as : List (Act Unit)), Reached (fun _ => none) s ∧ (∀ a ∈ as, a.own) ∧ (∀ a ∈ as, a.noUser) ∧ (as.foldl (St.act fun _ => none) s.click).idle ∧
    (as.foldl (St.act fun _ => none) s.click).log = [0] := by
  refine ⟨(St.init Unit).load [("a.jpg", none)], [.work 0, .work 0, .work 0, .work 0, .work 0, .deliver, .deliverRow 0, .deliverRow 0],
    ⟨[.load [("a.jpg", none)]], rfl⟩, ?_, ?_, ⟨rfl, rfl, rfl⟩, ?_⟩
  · simp [Act.own]
  · simp [Act.noUser]
  · exact (C135_all_partial (fun _ => none) ⟨[.load [("a.jpg", none)]], rfl⟩ _ (by simp [Act.own]) ⟨rfl, rfl, rfl⟩).1

open CalWin in
/-- At the start of the window nothing of this is possible. -/
example : (St.init Unit).idle := C135_idle _ fun a h => by cases a <;> simp [St.can, St.init] at h
