import Verif.Props.CalWin

/-! # C135: one image at a time, and when not -/

namespace CalWin

variable {D : Type}

/-- One thread or one waiting call, and the images that are still to come were never connected. -/
structure Single (l : List ℕ) (s : St D) : Prop where
  images : s.images = l
  one : s.threads.length + s.calls ≤ 1
  thr : ∀ t ∈ s.threads, s.conn t.img ≤ 1
  new : ∀ i ∈ l.drop s.index, s.conn i = 0

theorem single_next {l : List ℕ} (hn : l.Nodup) {s : St D} (hi : s.images = l) (h0 : s.threads = []) (h1 : s.calls = 0)
    (new : ∀ i ∈ l.drop s.index, s.conn i = 0) : Single l s.next := by
  rcases next_cases s with ⟨e, -⟩ | ⟨i, hk, e⟩
  · rw [e]
    exact ⟨hi, by simp [h0, h1], by simp [h0], new⟩
  · rw [hi] at hk
    have hlt := (List.getElem?_eq_some_iff.1 hk).1
    have hd : l.drop s.index = i :: l.drop (s.index + 1) := by
      rw [List.drop_eq_getElem_cons hlt]
      rw [List.getElem?_eq_getElem hlt] at hk
      rw [Option.some.inj hk]
    have hc : s.conn i = 0 := new i (by rw [hd]; exact List.mem_cons_self)
    have hnd : (i :: l.drop (s.index + 1)).Nodup := by
      rw [← hd]
      exact hn.sublist (List.drop_sublist _ _)
    rw [e]
    refine ⟨hi, by simp [h0, h1], ?_, ?_⟩
    · intro t ht
      simp only [h0, List.mem_singleton] at ht
      subst ht
      simp [hc]
    · intro j hj
      have hne : j ≠ i := by
        rintro rfl
        exact (List.nodup_cons.1 hnd).1 hj
      simp only [Function.update_of_ne hne]
      exact new j (by rw [hd]; exact List.mem_cons_of_mem _ hj)

theorem single_own {det : ℕ → Option D} {l : List ℕ} (hn : l.Nodup) {s : St D} (h : Single l s) {a : Act D} (ha : a.own) :
    Single l (s.act det a) := by
  cases a with
  | work k =>
    show Single l (s.work det k)
    rcases work_cases s det k with ⟨e, -⟩ | ⟨i, pc, hk, hw⟩
    · rwa [e]
    have hset : ∀ pc', ∀ t ∈ s.threads.set k ⟨i, pc'⟩, s.conn t.img ≤ 1 := by
      intro pc' t ht
      rcases List.mem_or_eq_of_mem_set ht with ht | rfl
      · exact h.thr t ht
      · exact h.thr ⟨i, pc⟩ (mem_of_get hk)
    cases pc
    case detecting =>
      rcases hw with ⟨-, hw⟩ | ⟨c, -, hw⟩ <;> rw [hw] <;>
        exact ⟨h.images, (congrArg (· + s.calls) List.length_set).trans_le h.one, hset _, h.new⟩
    case signalled =>
      simp only at hw
      rw [hw]
      have hi := h.thr _ (mem_of_get hk)
      simp only at hi
      have hl := (List.getElem?_eq_some_iff.1 hk).1
      refine ⟨h.images, ?_, fun t ht => h.thr t (List.mem_of_mem_eraseIdx ht), h.new⟩
      show (s.threads.eraseIdx k).length + (s.calls + s.conn i) ≤ 1
      rw [List.length_eraseIdx_of_lt hl]
      have := h.one
      omega
    all_goals
      simp only at hw
      rw [hw]
      exact ⟨h.images, (congrArg (· + s.calls) List.length_set).trans_le h.one, hset _, h.new⟩
  | deliver =>
    show Single l s.deliver
    rcases deliver_cases s with e | ⟨e, hc⟩
    · rwa [e]
    · rw [e]
      have h1 := h.one
      have ht : s.threads = [] := List.eq_nil_of_length_eq_zero (by omega)
      refine single_next hn (s := { s with calls := s.calls - 1 }) h.images ht ?_ h.new
      show s.calls - 1 = 0
      omega
  | deliverRow k =>
    show Single l (s.deliverRow k)
    rcases deliverRow_cases s k with ⟨e, -⟩ | ⟨i, -, e⟩
    · rwa [e]
    · rw [e]
      exact ⟨h.images, h.one, h.thr, h.new⟩
  | _ => exact ha.elim

theorem single_noUser {det : ℕ → Option D} {l : List ℕ} (hn : l.Nodup) {s : St D} (h : Single l s) {a : Act D} (ha : a.noUser) :
    Single l (s.act det a) := by
  cases a with
  | work k => exact single_own hn h (a := .work k) trivial
  | deliver => exact single_own hn h (a := .deliver) trivial
  | deliverRow k => exact single_own hn h (a := .deliverRow k) trivial
  | toggle r =>
    show Single l (s.toggle r)
    unfold St.toggle
    split
    · exact h
    · split_ifs
      · exact ⟨h.images, h.one, h.thr, h.new⟩
      · exact h
  | die k =>
    show Single l (s.die k)
    unfold St.die
    split
    · refine ⟨h.images, ?_, fun t ht => h.thr t (List.mem_of_mem_eraseIdx ht), h.new⟩
      have h1 := h.one
      have h2 := List.length_eraseIdx_le s.threads k
      show (s.threads.eraseIdx k).length + s.calls ≤ 1
      omega
    · exact h
  | drop =>
    refine ⟨h.images, ?_, h.thr, h.new⟩
    have h1 := h.one
    show s.threads.length + (s.calls - 1) ≤ 1
    omega
  | dropRow k => exact ⟨h.images, h.one, h.thr, h.new⟩
  | _ => exact ha.elim

/-- A thread that is alone runs to its end. -/
theorem runs (det : ℕ → Option D) (s : St D) (i : ℕ) (h : s.threads = [⟨i, .begin⟩]) :
    ∃ n, (List.replicate n (Act.work 0)).foldl (St.act det) s =
      { (List.replicate n (Act.work 0)).foldl (St.act det) s with
        images := s.images, index := s.index, conn := s.conn, threads := [], calls := s.calls + s.conn i, log := s.log } := by
  cases hd : det i with
  | none =>
    refine ⟨5, ?_⟩
    simp only [List.replicate, List.foldl, St.act]
    simp [St.work, h, hd, St.upd]
  | some c =>
    refine ⟨7, ?_⟩
    simp only [List.replicate, List.foldl, St.act]
    simp [St.work, h, hd, St.upd]

end CalWin

open CalWin

/-- **C135, partial.**  When nothing runs and no image of the list was ever processed in this window, then after a click on "Process" the
images are processed one at a time, also when threads die, calls are lost and the user marks images: there is never more than one thread
(and a thread runs only while no call waits). -/
theorem C135_single_partial {D : Type} (det : ℕ → Option D) (s : St D) (hn : s.images.Nodup) (h0 : s.threads = []) (h1 : s.calls = 0)
    (hc : ∀ i ∈ s.images, s.conn i = 0) (as : List (Act D)) (ha : ∀ a ∈ as, a.noUser) :
    (as.foldl (St.act det) s.click).threads.length + (as.foldl (St.act det) s.click).calls ≤ 1 := by
  have key : ∀ (as : List (Act D)), (∀ a ∈ as, a.noUser) → ∀ u : St D, Single s.images u → Single s.images (as.foldl (St.act det) u) := by
    intro as
    induction as with
    | nil => exact fun _ u h => h
    | cons a as ih =>
      exact fun ha u h => ih (fun b hb => ha b (List.mem_cons_of_mem _ hb)) _ (single_noUser hn h (ha a List.mem_cons_self))
  exact (key as ha _ (single_next (s := { s with index := 0, log := [] }) hn rfl h0 h1 (by simpa using hc))).one

/-- **C135 violated.**  The second click on "Process" connects the images again: when the first image was processed before, its end starts
two further images, which are then processed at the same time. -/
theorem C135_parallel_violated {D : Type} (det : ℕ → Option D) (s : St D) (h0 : s.threads = []) {i j k : ℕ} {rest : List ℕ}
    (hl : s.images = i :: j :: k :: rest) (hc : s.conn i ≠ 0) :
    ∃ as : List (Act D), (∀ a ∈ as, a.own) ∧ (as.foldl (St.act det) s.click).threads = [⟨k, .begin⟩, ⟨j, .begin⟩] := by
  have hclick : s.click = { s with index := 1, conn := Function.update s.conn i (s.conn i + 1), threads := [⟨i, .begin⟩], log := [i] } := by
    simp [St.click, St.next, hl, h0]
  obtain ⟨n, hn⟩ := runs det s.click i (by rw [hclick])
  refine ⟨List.replicate n (.work 0) ++ [.deliver, .deliver], ?_, ?_⟩
  · intro a ha
    rcases List.mem_append.1 ha with ha | ha
    · rw [List.eq_of_mem_replicate ha]
      trivial
    · simp only [List.mem_cons, List.not_mem_nil, or_false] at ha
      rcases ha with rfl | rfl <;> trivial
  · rw [List.foldl_append, hn]
    generalize (List.replicate n (Act.work 0)).foldl (St.act det) s.click = t
    simp only [List.foldl, St.act]
    have e1 : s.click.images = i :: j :: k :: rest := by rw [hclick]; exact hl
    have e2 : s.click.index = 1 := by rw [hclick]
    have e3 : s.click.calls + s.click.conn i = s.calls + (s.conn i + 1) := by rw [hclick]; simp
    rw [e1, e2, e3]
    simp [St.deliver, St.next, hc]

/-- **C135 violated.**  When the processing of an image raises, nothing more happens: the window is idle and all images after this one
are left out. -/
theorem C135_stall_violated {D : Type} (det : ℕ → Option D) (s : St D) (hs : s.idle) {i j : ℕ} {rest : List ℕ}
    (hl : s.images = i :: j :: rest) :
    let t := [.work 0, .work 0, .die 0, .deliverRow 0].foldl (St.act det) s.click
    t.idle ∧ t.log = [i] ∧ t.images = s.images := by
  obtain ⟨h1, h2, h3⟩ := hs
  intro t
  have : t = { t with threads := [], calls := 0, rows := [], log := [i], images := s.images } := by
    show [Act.work 0, .work 0, .die 0, .deliverRow 0].foldl (St.act det) s.click = _
    simp only [t, List.foldl, St.act]
    simp [St.click, St.next, hl, h1, h2, h3, St.work, St.die, St.deliverRow, St.upd, St.setRow]
  rw [this]
  exact ⟨⟨rfl, rfl, rfl⟩, rfl, rfl⟩

/-- The hypotheses can be met: three images are added to a new window; all of them are new. -/
example : ∃ s : St Unit, Reached (fun _ => none) s ∧ s.images = [0, 1, 2] ∧ s.images.Nodup ∧ s.idle ∧ ∀ i ∈ s.images, s.conn i = 0 := by
  refine ⟨(St.init Unit).act (fun _ => none) (.load [("a", none), ("b", none), ("c", none)]), ⟨[.load [("a", none), ("b", none), ("c", none)]], rfl⟩, ?_⟩
  obtain ⟨tb, e, -⟩ := updateTable_eq ((St.init Unit).create [("a", none), ("b", none), ("c", none)])
  show (St.updateTable _).images = _ ∧ (St.updateTable _).images.Nodup ∧ (St.updateTable _).idle ∧ ∀ i ∈ (St.updateTable _).images, _
  rw [e]
  refine ⟨rfl, ?_, ⟨rfl, rfl, rfl⟩, fun _ _ => rfl⟩
  show [0, 1, 2].Nodup
  simp

/-- The hypotheses can be met: after the first run of these images the first is connected and nothing runs; the runs end idle. -/
example : ∃ s : St Unit, Reached (fun _ => none) s ∧ s.idle ∧ s.images = [0, 1, 2] ∧ s.conn 0 ≠ 0 := by
  have w : WellFounded fun t s : St Unit => ∃ a, s.can a ∧ t = s.act (fun _ => none) a := C135_ends _
  have key : ∀ s : St Unit, (Reached (fun _ => none) s ∧ s.images = [0, 1, 2] ∧ s.conn 0 ≠ 0) →
      ∃ s : St Unit, Reached (fun _ => none) s ∧ s.idle ∧ s.images = [0, 1, 2] ∧ s.conn 0 ≠ 0 := by
    intro s
    induction s using w.induction with
    | _ s ih =>
      rintro ⟨h1, h2, h3⟩
      by_cases hh : ∃ a, s.can a
      · obtain ⟨a, ha⟩ := hh
        refine ih _ ⟨a, ha, rfl⟩ ⟨h1.step a, ?_⟩
        have nx : ∀ u : St Unit, u.images = [0, 1, 2] → u.conn 0 ≠ 0 → u.next.images = [0, 1, 2] ∧ u.next.conn 0 ≠ 0 := by
          intro u h2 h3
          rcases next_cases u with ⟨e, -⟩ | ⟨i, -, e⟩ <;> rw [e]
          · exact ⟨h2, h3⟩
          · refine ⟨h2, ?_⟩
            by_cases e0 : 0 = i
            · subst e0
              simp
            · simp [Function.update_of_ne e0, h3]
        cases a with
        | work k =>
          show (s.work _ k).images = _ ∧ (s.work _ k).conn 0 ≠ 0
          rcases work_cases s (fun _ => none) k with ⟨e, -⟩ | ⟨i, pc, hk, hw⟩
          · rw [e]
            exact ⟨h2, h3⟩
          cases pc
          case detecting => rcases hw with ⟨-, hw⟩ | ⟨c, -, hw⟩ <;> rw [hw] <;> exact ⟨h2, h3⟩
          all_goals
            simp only at hw
            rw [hw]
            exact ⟨h2, h3⟩
        | deliver =>
          show s.deliver.images = _ ∧ s.deliver.conn 0 ≠ 0
          rcases deliver_cases s with e | ⟨e, -⟩ <;> rw [e]
          · exact ⟨h2, h3⟩
          · exact nx _ h2 h3
        | deliverRow k =>
          show (s.deliverRow k).images = _ ∧ (s.deliverRow k).conn 0 ≠ 0
          rcases deliverRow_cases s k with ⟨e, -⟩ | ⟨i, -, e⟩ <;> rw [e] <;> exact ⟨h2, h3⟩
        | _ => exact ha.elim
      · exact ⟨s, h1, C135_idle s (not_exists.1 hh), h2, h3⟩
  refine key ((St.init Unit).act (fun _ => none) (.load [("a", none), ("b", none), ("c", none)])).click ⟨⟨[.load [("a", none), ("b", none), ("c", none)], .click], rfl⟩, ?_⟩
  obtain ⟨tb, e, -⟩ := updateTable_eq ((St.init Unit).create [("a", none), ("b", none), ("c", none)])
  show (St.click (St.updateTable _)).images = _ ∧ (St.click (St.updateTable _)).conn 0 ≠ 0
  rw [e]
  refine ⟨rfl, ?_⟩
  show Function.update (fun _ => 0) 0 (0 + 1) 0 ≠ 0
  simp
