import Verif.Proofs.CalWin

/-! # C136: the table shows the images, and the fit uses the images that are marked -/

namespace CalWin

variable {D : Type}

/-- Something was written that was not signalled yet. -/
def Pc.dirty : Pc → Prop
  | .started | .gotStatus | .written => True
  | _ => False

/-- What happens without clearing the list and without losing calls. -/
def Act.keeps : Act D → Prop
  | .clear | .drop | .dropRow _ => False
  | _ => True

/-- The rows of the table are right or will be corrected. -/
structure Tab (s : St D) : Prop where
  len : s.table.length = s.images.length
  lt : ∀ i ∈ s.images, i < s.count
  thr : ∀ t ∈ s.threads, t.img ∈ s.images
  rws : ∀ i ∈ s.rows, i ∈ s.images
  row : ∀ i r : ℕ, s.images[r]? = some i → (s.imgs i).row = r
  ok : ∀ i r : ℕ, s.images[r]? = some i → s.table[r]? = some (s.imgs i).data ∨ i ∈ s.rows ∨ ∃ t ∈ s.threads, t.img = i ∧ t.pc.dirty

theorem get_of_mem {l : List ℕ} {i : ℕ} (h : i ∈ l) : ∃ r : ℕ, l[r]? = some i := List.mem_iff_getElem?.1 h

theorem tab_next {s : St D} (h : Tab s) : Tab s.next := by
  rcases next_cases s with ⟨e, -⟩ | ⟨i, hi, e⟩
  · rwa [e]
  · rw [e]
    refine ⟨h.len, h.lt, ?_, h.rws, h.row, ?_⟩
    · intro t ht
      rcases List.mem_cons.1 ht with rfl | ht
      · exact mem_of_get hi
      · exact h.thr t ht
    · intro j r hj
      rcases h.ok j r hj with h1 | h1 | ⟨t, ht, h1⟩
      · exact Or.inl h1
      · exact Or.inr (Or.inl h1)
      · exact Or.inr (Or.inr ⟨t, List.mem_cons_of_mem _ ht, h1⟩)

/-- Writing the row of an image that is in the list makes this row right. -/
theorem set_row {s : St D} (hlen : s.table.length = s.images.length) (hrow : ∀ i r : ℕ, s.images[r]? = some i → (s.imgs i).row = r) {i j r : ℕ}
    (hi : i ∈ s.images) (hj : s.images[r]? = some j) :
    (j = i ∧ (s.setRow i).table[r]? = some (s.imgs j).data) ∨ (j ≠ i ∧ (s.setRow i).table[r]? = s.table[r]?) := by
  have hr := (List.getElem?_eq_some_iff.1 hj).1
  by_cases e : j = i
  · left
    subst e
    refine ⟨rfl, ?_⟩
    simp only [St.setRow, hrow j r hj]
    rw [List.getElem?_set_self (by rw [hlen]; exact hr)]
  · right
    refine ⟨e, ?_⟩
    obtain ⟨q, hq⟩ := get_of_mem hi
    simp only [St.setRow, hrow i q hq]
    rw [List.getElem?_set_ne]
    rintro rfl
    rw [hq] at hj
    exact e (Option.some.inj hj).symm

theorem tab_setRow {s : St D} (h : Tab s) {i : ℕ} (hi : i ∈ s.images) : Tab (s.setRow i) := by
  refine ⟨?_, h.lt, h.thr, h.rws, h.row, ?_⟩
  · show (s.table.set _ _).length = _
    rw [List.length_set]
    exact h.len
  · intro j r hj
    rcases set_row h.len h.row hi hj with ⟨-, h1⟩ | ⟨-, h1⟩
    · exact Or.inl h1
    · rw [h1]
      exact h.ok j r hj

theorem fold_setRow {s : St D} (l : List ℕ) (hl : ∀ i ∈ l, i ∈ s.images) (hrow : ∀ i r : ℕ, s.images[r]? = some i → (s.imgs i).row = r)
    (ht : s.tableRight) : l.foldl St.setRow s = s := by
  induction l with
  | nil => rfl
  | cons a l ih =>
    have : s.setRow a = s := by
      have e : s.table.set (s.imgs a).row (s.imgs a).data = s.table := by
        refine List.ext_getElem? fun r => ?_
        obtain ⟨q, hq⟩ := get_of_mem (hl a List.mem_cons_self)
        rw [hrow a q hq]
        have hlen : s.table.length = s.images.length := by
          rw [show s.table = _ from ht]
          simp
        by_cases e : q = r
        · subst e
          rw [List.getElem?_set_self (by rw [hlen]; exact (List.getElem?_eq_some_iff.1 hq).1)]
          rw [show s.table = _ from ht, List.getElem?_map, hq]
          rfl
        · rw [List.getElem?_set_ne e]
      unfold St.setRow
      rw [e]
    rw [List.foldl_cons, this]
    exact ih fun i hi => hl i (List.mem_cons_of_mem _ hi)

theorem updateTable_right {s : St D} (hrow : ∀ i r : ℕ, s.images[r]? = some i → (s.imgs i).row = r) :
    s.updateTable = { s with table := s.images.map fun i => (s.imgs i).data } := by
  unfold St.updateTable
  exact fold_setRow (s := { s with table := s.images.map fun i => (s.imgs i).data }) _ (fun i hi => hi) hrow rfl

/-- The list of images while images are created. -/
structure Listed (s : St D) : Prop where
  lt : ∀ i ∈ s.images, i < s.count
  thr : ∀ t ∈ s.threads, t.img ∈ s.images
  rws : ∀ i ∈ s.rows, i ∈ s.images
  row : ∀ i r : ℕ, s.images[r]? = some i → (s.imgs i).row = r

theorem listed_create (fs : List (String × Option D)) {s : St D} (h : Listed s) : Listed (s.create fs) := by
  induction fs generalizing s with
  | nil => exact h
  | cons x xs ih =>
    refine ih ⟨?_, fun t ht => List.mem_append_left _ (h.thr t ht), fun i hi => List.mem_append_left _ (h.rws i hi), ?_⟩
    · intro i hi
      rcases List.mem_append.1 hi with hi | hi
      · exact (h.lt i hi).trans (Nat.lt_succ_self _)
      · rw [List.mem_singleton.1 hi]
        exact Nat.lt_succ_self _
    · intro i r hi
      rcases lt_trichotomy r s.images.length with hr | hr | hr
      · have hi' : s.images[r]? = some i := by
          have : (s.images ++ [s.count])[r]? = some i := hi
          rwa [List.getElem?_append_left hr] at this
        have hne : i ≠ s.count := (h.lt i (mem_of_get hi')).ne
        simp only [Function.update_of_ne hne]
        exact h.row i r hi'
      · have : (s.images ++ [s.count])[r]? = some i := hi
        rw [hr, List.getElem?_append_right le_rfl, Nat.sub_self] at this
        have hic : i = s.count := (Option.some.inj this).symm
        rw [hic, hr]
        simp only [Function.update_self]
        cases x.2 <;> rfl
      · have : (s.images ++ [s.count])[r]? = some i := hi
        rw [List.getElem?_eq_none (by simp; omega)] at this
        cases this

theorem tab_work {s : St D} (h : Tab s) (det : ℕ → Option D) (k : ℕ) : Tab (s.work det k) := by
  rcases work_cases s det k with ⟨e, -⟩ | ⟨i, pc, hk, hw⟩
  · rwa [e]
  have hi : i ∈ s.images := h.thr _ (mem_of_get hk)
  have thr' : ∀ pc', ∀ t ∈ s.threads.set k ⟨i, pc'⟩, t.img ∈ s.images := by
    intro pc' t ht
    rcases List.mem_or_eq_of_mem_set ht with ht | rfl
    · exact h.thr t ht
    · exact hi
  have dirty : ∀ (pc' : Pc) (f : Img D → Img D), pc'.dirty → (∀ m, (f m).row = m.row) →
      Tab { s.upd i f with threads := s.threads.set k ⟨i, pc'⟩ } := by
    intro pc' f hp hf
    refine ⟨h.len, h.lt, thr' _, h.rws, ?_, ?_⟩
    · intro j r hj
      by_cases e : j = i
      · subst e
        simp only [St.upd, Function.update_self, hf]
        exact h.row j r hj
      · simp only [St.upd, Function.update_of_ne e]
        exact h.row j r hj
    · intro j r hj
      by_cases e : j = i
      · exact Or.inr (Or.inr ⟨⟨i, pc'⟩, mem_set_self' hk, e.symm, hp⟩)
      · simp only [St.upd, Function.update_of_ne e]
        rcases h.ok j r hj with h1 | h1 | ⟨t, ht, h1, h2⟩
        · exact Or.inl h1
        · exact Or.inr (Or.inl h1)
        · refine Or.inr (Or.inr ⟨t, mem_set_of_ne hk ht ?_, h1, h2⟩)
          rintro rfl
          exact e h1.symm
  have sig : ∀ pc', Tab { s with rows := i :: s.rows, threads := s.threads.set k ⟨i, pc'⟩ } := by
    intro pc'
    refine ⟨h.len, h.lt, thr' _, ?_, h.row, ?_⟩
    · intro j hj
      rcases List.mem_cons.1 hj with rfl | hj
      · exact hi
      · exact h.rws j hj
    · intro j r hj
      by_cases e : j = i
      · exact Or.inr (Or.inl (by rw [e]; exact List.mem_cons_self))
      · rcases h.ok j r hj with h1 | h1 | ⟨t, ht, h1, h2⟩
        · exact Or.inl h1
        · exact Or.inr (Or.inl (List.mem_cons_of_mem _ h1))
        · refine Or.inr (Or.inr ⟨t, mem_set_of_ne hk ht ?_, h1, h2⟩)
          rintro rfl
          exact e h1.symm
  cases pc
  case begin =>
    simp only at hw
    rw [hw]
    exact dirty _ _ trivial fun _ => rfl
  case started =>
    simp only at hw
    rw [hw]
    exact sig _
  case detecting =>
    rcases hw with ⟨-, hw⟩ | ⟨c, -, hw⟩ <;> rw [hw]
    · exact dirty _ _ trivial fun _ => rfl
    · have hdata : ∀ j, ((s.upd i fun m => { m with corners := some c }).imgs j).data = (s.imgs j).data := by
        intro j
        by_cases e : j = i
        · subst e
          simp [St.upd, Img.data]
        · simp [St.upd, Function.update_of_ne e]
      refine ⟨h.len, h.lt, thr' _, h.rws, ?_, ?_⟩
      · intro j r hj
        by_cases e : j = i
        · subst e
          simp only [St.upd, Function.update_self]
          exact h.row j r hj
        · simp only [St.upd, Function.update_of_ne e]
          exact h.row j r hj
      · intro j r hj
        rcases h.ok j r hj with h1 | h1 | ⟨t, ht, h1, h2⟩
        · exact Or.inl (by rw [hdata]; exact h1)
        · exact Or.inr (Or.inl h1)
        · refine Or.inr (Or.inr ⟨t, mem_set_of_ne hk ht ?_, h1, h2⟩)
          rintro rfl
          exact h2
  case gotCorners =>
    simp only at hw
    rw [hw]
    exact dirty _ _ trivial fun _ => rfl
  case gotStatus =>
    simp only at hw
    rw [hw]
    exact dirty _ _ trivial fun _ => rfl
  case written =>
    simp only at hw
    rw [hw]
    exact sig _
  case signalled =>
    simp only at hw
    rw [hw]
    refine ⟨h.len, h.lt, fun t ht => h.thr t (List.mem_of_mem_eraseIdx ht), h.rws, h.row, ?_⟩
    intro j r hj
    rcases h.ok j r hj with h1 | h1 | ⟨t, ht, h1, h2⟩
    · exact Or.inl h1
    · exact Or.inr (Or.inl h1)
    · refine Or.inr (Or.inr ⟨t, mem_erase_of_ne hk ht ?_, h1, h2⟩)
      rintro rfl
      exact h2

theorem tab_act {s : St D} (h : Tab s) (det : ℕ → Option D) {a : Act D} (ha : a.keeps) : Tab (s.act det a) := by
  cases a with
  | click => exact tab_next ⟨h.len, h.lt, h.thr, h.rws, h.row, h.ok⟩
  | load fs =>
    have hl := listed_create fs (s := s) ⟨h.lt, h.thr, h.rws, h.row⟩
    show Tab (St.updateTable (s.create fs))
    rw [updateTable_right hl.row]
    refine ⟨by simp, hl.lt, hl.thr, hl.rws, hl.row, ?_⟩
    intro i r hi
    left
    show (List.map _ (s.create fs).images)[r]? = _
    rw [List.getElem?_map, show (s.create fs).images[r]? = some i from hi]
    rfl
  | toggle r =>
    show Tab (s.toggle r)
    rcases toggle_cases s r with e | ⟨i, hi, hc, e⟩
    · rwa [e]
    · rw [e]
      have hm : i ∈ s.images := mem_of_get hi
      have hrow : ∀ j q : ℕ, s.images[q]? = some j → ((s.upd i fun m => { m with use := !m.use }).imgs j).row = q := by
        intro j q hj
        by_cases e : j = i
        · subst e
          simp only [St.upd, Function.update_self]
          exact h.row j q hj
        · simp only [St.upd, Function.update_of_ne e]
          exact h.row j q hj
      refine ⟨?_, h.lt, h.thr, h.rws, hrow, ?_⟩
      · show (List.set _ _ _).length = _
        rw [List.length_set]
        exact h.len
      · intro j q hj
        rcases set_row (s := s.upd i fun m => { m with use := !m.use }) h.len hrow hm hj with ⟨-, h1⟩ | ⟨hne, h1⟩
        · exact Or.inl h1
        · rw [h1]
          rcases h.ok j q hj with h2 | h2 | h2
          · left
            have : ((s.upd i fun m => { m with use := !m.use }).imgs j) = s.imgs j := by simp [St.upd, Function.update_of_ne hne]
            show _ = some ((s.upd i fun m => { m with use := !m.use }).imgs j).data
            rw [this]
            exact h2
          · exact Or.inr (Or.inl h2)
          · exact Or.inr (Or.inr h2)
  | work k => exact tab_work h det k
  | die k =>
    show Tab (s.die k)
    rcases die_cases s k with e | ⟨i, hi, e⟩
    · rwa [e]
    · rw [e]
      refine ⟨h.len, h.lt, fun t ht => h.thr t (List.mem_of_mem_eraseIdx ht), h.rws, h.row, ?_⟩
      intro j r hj
      rcases h.ok j r hj with h1 | h1 | ⟨t, ht, h1, h2⟩
      · exact Or.inl h1
      · exact Or.inr (Or.inl h1)
      · refine Or.inr (Or.inr ⟨t, mem_erase_of_ne hi ht ?_, h1, h2⟩)
        rintro rfl
        exact h2
  | deliver =>
    show Tab s.deliver
    rcases deliver_cases s with e | ⟨e, -⟩
    · rwa [e]
    · rw [e]
      exact tab_next ⟨h.len, h.lt, h.thr, h.rws, h.row, h.ok⟩
  | deliverRow k =>
    show Tab (s.deliverRow k)
    rcases deliverRow_cases s k with ⟨e, -⟩ | ⟨i, hi, e⟩
    · rwa [e]
    · rw [e]
      have hm : i ∈ s.images := h.rws i (mem_of_get hi)
      refine ⟨?_, h.lt, h.thr, fun j hj => h.rws j (List.mem_of_mem_eraseIdx hj), h.row, ?_⟩
      · show (s.table.set _ _).length = _
        rw [List.length_set]
        exact h.len
      · intro j r hj
        rcases set_row (s := { s with rows := s.rows.eraseIdx k }) h.len h.row hm hj with ⟨-, h1⟩ | ⟨hne, h1⟩
        · exact Or.inl h1
        · rw [h1]
          rcases h.ok j r hj with h2 | h2 | h2
          · exact Or.inl h2
          · exact Or.inr (Or.inl (mem_erase_of_ne hi h2 hne))
          · exact Or.inr (Or.inr h2)
  | _ => exact ha.elim

end CalWin

open CalWin

/-- **C136.**  At every time, an image that is marked as used has corners. -/
theorem C136_use {D : Type} {det : ℕ → Option D} {s : St D} (hs : Reached det s) (i : ℕ) (h : (s.imgs i).use = true) :
    (s.imgs i).corners.isSome := hs.good.use i h

/-- **C136.**  At every time the fit gets the corners of exactly the images of the list that are marked as used, in the order of the list. -/
theorem C136_fit {D : Type} {det : ℕ → Option D} {s : St D} (hs : Reached det s) :
    s.fitted.map some = (s.images.filter fun i => (s.imgs i).use).map fun i => (s.imgs i).corners := by
  unfold St.fitted
  generalize s.images = l
  induction l with
  | nil => rfl
  | cons i l ih =>
    cases hu : (s.imgs i).use with
    | false =>
      rw [List.filterMap_cons, List.filter_cons]
      simpa [hu] using ih
    | true =>
      obtain ⟨c, hc⟩ := Option.isSome_iff_exists.1 (hs.good.use i hu)
      rw [List.filterMap_cons, List.filter_cons]
      simpa [hu, hc] using ih

/-- **C136, partial.**  In every history in which the list is not cleared and no call is lost, whatever the threads do: when nothing is
running and no call waits, the rows of the table are the names, states and marks of the images of the list; so the fit gets as many
images as rows are marked. -/
theorem C136_table_partial {D : Type} (det : ℕ → Option D) (as : List (Act D)) (ha : ∀ a ∈ as, a.keeps)
    (hidle : (as.foldl (St.act det) (St.init D)).idle) :
    let t := as.foldl (St.act det) (St.init D)
    t.tableRight ∧ t.fitted.length = (t.table.filter Row.use).length := by
  intro t
  have key : ∀ (as : List (Act D)), (∀ a ∈ as, a.keeps) → ∀ u : St D, Tab u → Tab (as.foldl (St.act det) u) := by
    intro as
    induction as with
    | nil => exact fun _ u h => h
    | cons a as ih =>
      exact fun ha u h => ih (fun b hb => ha b (List.mem_cons_of_mem _ hb)) _ (tab_act h det (ha a List.mem_cons_self))
  have h : Tab t := key as ha _ (by constructor <;> simp [St.init])
  obtain ⟨h1, -, h3⟩ := hidle
  change t.threads = [] at h1
  change t.rows = [] at h3
  have hr : t.tableRight := by
    refine List.ext_getElem? fun r => ?_
    rw [List.getElem?_map]
    cases hj : t.images[r]? with
    | none =>
      rw [List.getElem?_eq_none]
      · rfl
      · rw [h.len]
        exact List.getElem?_eq_none_iff.1 hj
    | some i =>
      rcases h.ok i r hj with h4 | h4 | ⟨x, hx, -⟩
      · exact h4
      · rw [h3] at h4
        simp at h4
      · rw [h1] at hx
        simp at hx
  refine ⟨hr, ?_⟩
  have hf := congrArg List.length (C136_fit (det := det) (s := t) ⟨as, rfl⟩)
  rw [List.length_map, List.length_map] at hf
  rw [hf, show t.table = _ from hr, List.filter_map, List.length_map]
  rfl

/-- **C136 violated.**  When the list is cleared while an image is processed and other images are added, the thread of the old image writes
its row over the row of the new image, whatever their names and results are, and nobody corrects it. -/
theorem C136_table_violated {D : Type} (det : ℕ → Option D) (a b : String) (hab : a ≠ b) :
    ∃ as : List (Act D), let t := as.foldl (St.act det) (St.init D)
      t.idle ∧ t.images = [1] ∧ (t.imgs 1).name = b ∧ t.table.map Row.name = [a] ∧ ¬t.tableRight := by
  have gen : ∃ as : List (Act D), let t := as.foldl (St.act det) (St.init D)
      t.idle ∧ t.images = [1] ∧ (t.imgs 1).name = b ∧ t.table.map Row.name = [a] := by
    cases hd : det 0 with
    | none =>
      refine ⟨[.load [(a, none)], .click, .work 0, .clear, .load [(b, none)], .work 0, .deliverRow 0, .work 0, .work 0, .work 0, .deliver,
        .dropRow 0], ?_⟩
      simp [St.act, St.load, St.create, St.updateTable, St.setRow, St.init, St.click, St.next, St.work, St.clear, St.deliver, St.deliverRow,
        St.upd, hd, Img.new, Img.data, St.idle]
    | some c =>
      refine ⟨[.load [(a, none)], .click, .work 0, .clear, .load [(b, none)], .work 0, .deliverRow 0, .work 0, .work 0, .work 0, .work 0,
        .work 0, .deliver, .dropRow 0], ?_⟩
      simp [St.act, St.load, St.create, St.updateTable, St.setRow, St.init, St.click, St.next, St.work, St.clear, St.deliver, St.deliverRow,
        St.upd, hd, Img.new, Img.data, St.idle]
  obtain ⟨as, h1, h2, h3, h4⟩ := gen
  refine ⟨as, h1, h2, h3, h4, ?_⟩
  intro hr
  rw [show (as.foldl (St.act det) (St.init D)).table = _ from hr, h2] at h4
  simp only [List.map_cons, List.map_nil, List.cons.injEq, and_true] at h4
  exact hab (h4.symm.trans h3)

/-- The hypotheses can be met: two images are added, processed and one of them is marked by hand. -/
example : ∃ as : List (Act Unit), (∀ a ∈ as, a.keeps) ∧ (as.foldl (St.act fun _ => none) (St.init Unit)).idle ∧
    (as.foldl (St.act fun _ => none) (St.init Unit)).images = [0, 1] ∧ (as.foldl (St.act fun _ => none) (St.init Unit)).fitted = [()] := by
  refine ⟨[.load [("a", some ()), ("b", some ())], .toggle 1, .click, .work 0, .work 0, .work 0, .work 0, .work 0, .deliver, .work 0, .work 0,
    .work 0, .work 0, .work 0, .deliver, .deliverRow 0, .deliverRow 0, .deliverRow 0, .deliverRow 0], ?_⟩
  simp [St.act, St.load, St.create, St.updateTable, St.setRow, St.init, St.click, St.next, St.work, St.deliver, St.deliverRow,
    St.upd, Img.new, Img.data, St.idle, Act.keeps, St.toggle, St.fitted]

namespace CalWin

variable {D : Type}

theorem create_spec (fs : List (String × Option D)) (s : St D) :
    (s.create fs).images = s.images ++ (List.range' s.count fs.length) ∧ (s.create fs).count = s.count + fs.length ∧
    (∀ i, i < s.count → (s.create fs).imgs i = s.imgs i) ∧
    ∀ k x, fs[k]? = some x → ∃ r, (s.create fs).imgs (s.count + k) = Img.new x.1 x.2 r := by
  induction fs generalizing s with
  | nil => simp [St.create]
  | cons y ys ih =>
    obtain ⟨h1, h2, h3, h4⟩ := ih { s with imgs := Function.update s.imgs s.count (Img.new y.1 y.2 s.images.length), count := s.count + 1,
                                           images := s.images ++ [s.count] }
    refine ⟨?_, ?_, fun i hi => ?_, fun k x hx => ?_⟩
    · rw [St.create, h1]; simp [List.range'_succ]
    · rw [St.create, h2]; simp; omega
    · rw [St.create, h3 i (Nat.lt_succ_of_lt hi)]
      exact Function.update_of_ne hi.ne _ _
    · rw [St.create]
      cases k with
      | zero =>
        simp only [List.getElem?_cons_zero, Option.some.injEq] at hx
        subst hx
        exact ⟨s.images.length, (h3 s.count (Nat.lt_succ_self _)).trans (Function.update_self _ _ _)⟩
      | succ k =>
        have := h4 k x (by simpa using hx)
        rwa [show s.count + (k + 1) = s.count + 1 + k by omega]

end CalWin

open CalWin in
/-- **C136.**  Loading adds one image for every file at the end of the list and changes no other; an image whose corners are stored in the
output folder has them, is shown as found and is used in the fit; any other has none, is shown as not processed and is not used. -/
theorem C136_load {D : Type} (s : St D) (fs : List (String × Option D)) :
    (s.load fs).images = s.images ++ List.range' s.count fs.length ∧ (∀ i, i < s.count → (s.load fs).imgs i = s.imgs i) ∧
    ∀ k name c, fs[k]? = some (name, c) → let i := (s.load fs).imgs (s.count + k)
      i.name = name ∧ i.corners = c ∧ (i.use = true ↔ c ≠ none) ∧ (c ≠ none → i.status = .yes) ∧ (c = none → i.status = .no) := by
  obtain ⟨h1, -, h3, h4⟩ := create_spec fs s
  obtain ⟨tb, e, -⟩ := updateTable_eq (s.create fs)
  unfold St.load
  rw [e]
  refine ⟨h1, h3, fun k name c hk => ?_⟩
  obtain ⟨r, hr⟩ := h4 k _ hk
  simp only [hr]
  cases c <;> simp [Img.new]
