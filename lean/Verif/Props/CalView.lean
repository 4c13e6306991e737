import Verif.Spec.CalView
import Verif.Props.QInput
import Verif.Props.CalLoad

/-! # C144: the views of the calibration tool show the selected image -/

namespace CalView

variable {K : Type}

/-- What is there. -/
structure Base (s : St K) : Prop where
  lt : ∀ i ∈ s.c.images, i < s.c.count
  thr : ∀ t ∈ s.c.threads, t.img < s.c.count ∧ 0 < s.conn t.img ∧ (t.pc ≠ .begin → s.data t.img = true)
  calls : ∀ j ∈ s.calls, j < s.c.count ∧ s.data j = true
  und : ∀ j p, s.c.und j = some p → s.data j = true
  sel : ∀ r, s.sel = some r → r < s.c.images.length

/-- The selected image is displayed or is going to be. -/
def Coming (s : St K) : Prop :=
  ∀ i, s.selected = some i → (s.data i = true ∧ Shown s i) ∨ (∃ t ∈ s.c.threads, t.img = i) ∨ i ∈ s.calls

theorem selected_mem {s : St K} {i : ℕ} (h : s.selected = some i) : i ∈ s.c.images := by
  unfold St.selected at h
  split at h
  · exact List.mem_of_mem_head? h
  · split at h
    · rename_i h1
      rw [← Option.some.inj h]
      exact List.mem_of_getElem? h1
    · exact List.mem_of_mem_head? h

theorem display_data {s : St K} {i : ℕ} (hi : s.selected = some i) (hd : s.data i = true) :
    s.display = { s with view1 := some i, view2 := some (i, if s.box.value then (s.c.und i).getD none else none) } := by
  unfold St.display
  rw [hi]
  simp only [hd, if_true]
  cases hb : s.box.value <;> cases hu : s.c.und i <;> simp

theorem display_rest (s : St K) : s.display.c = s.c ∧ s.display.data = s.data ∧ s.display.sel = s.sel ∧ s.display.box = s.box ∧
    s.display.conn = s.conn ∧ s.display.calls = s.calls := by
  unfold St.display
  split
  · simp
  · rename_i i _
    by_cases hd : s.data i = true <;> simp only [hd] <;> split <;> simp

theorem display_selected (s : St K) : s.display.selected = s.selected := by
  obtain ⟨h1, -, h3, -⟩ := display_rest s
  unfold St.selected
  rw [h1, h3]

theorem base_display {s : St K} (h : Base s) : Base s.display := by
  obtain ⟨h1, h2, h3, h4, h5, h6⟩ := display_rest s
  refine ⟨?_, ?_, ?_, ?_, ?_⟩
  · rw [h1]; exact h.lt
  · rw [h1, h5, h2]; exact h.thr
  · rw [h6, h1, h2]; exact h.calls
  · rw [h1, h2]; exact h.und
  · rw [h3, h1]; exact h.sel

/-- After `displayImage` the selected image is displayed, if it is there. -/
theorem coming_display {s : St K} (h : ∀ i, s.selected = some i → s.data i = true ∨ (∃ t ∈ s.c.threads, t.img = i) ∨ i ∈ s.calls) :
    Coming s.display := by
  intro i hi
  rw [display_selected] at hi
  obtain ⟨h1, h2, h3, h4, h5, h6⟩ := display_rest s
  rcases h i hi with hd | hd | hd
  · refine Or.inl ⟨by rw [h2]; exact hd, ?_⟩
    rw [display_data hi hd]
    exact ⟨rfl, rfl⟩
  · exact Or.inr (Or.inl (by rw [h1]; exact hd))
  · exact Or.inr (Or.inr (by rw [h6]; exact hd))

theorem coming_weak {s : St K} (h : Coming s) (i : ℕ) (hi : s.selected = some i) :
    s.data i = true ∨ (∃ t ∈ s.c.threads, t.img = i) ∨ i ∈ s.calls := by
  rcases h i hi with hd | hd
  · exact Or.inl hd.1
  · exact Or.inr hd

/-! ### The actions -/

theorem base_imageSelected {s : St K} (h : Base s) : Base s.imageSelected := by
  unfold St.imageSelected
  split
  · exact h
  · rename_i i hi
    have hm := selected_mem hi
    have hc : s.c.select i = { s.c with threads := s.c.threads ++ [⟨i, s.c.calib.isSome, .begin⟩] } := by
      unfold CalLoad.St.select; rw [if_pos hm]
    rw [hc]
    refine ⟨h.lt, ?_, h.calls, h.und, h.sel⟩
    intro t ht
    rcases List.mem_append.1 ht with ht | ht
    · obtain ⟨a, b, c⟩ := h.thr t ht
      refine ⟨a, ?_, c⟩
      show 0 < Function.update s.conn i (s.conn i + 1) t.img
      by_cases e : t.img = i
      · rw [e, Function.update_self]; omega
      · rw [Function.update_of_ne e]; exact b
    · rw [List.mem_singleton.1 ht]
      refine ⟨h.lt i hm, ?_, fun h => absurd rfl h⟩
      show 0 < Function.update s.conn i (s.conn i + 1) i
      rw [Function.update_self]; omega

theorem coming_imageSelected (s : St K) : Coming s.imageSelected := by
  unfold St.imageSelected
  split
  · rename_i hn
    intro i hi
    rw [hn] at hi; cases hi
  · rename_i i hi
    have hm := selected_mem hi
    have hc : s.c.select i = { s.c with threads := s.c.threads ++ [⟨i, s.c.calib.isSome, .begin⟩] } := by
      unfold CalLoad.St.select; rw [if_pos hm]
    rw [hc]
    intro j hj
    have hj' : s.selected = some j := hj
    rw [hi] at hj'
    exact Or.inr (Or.inl ⟨_, List.mem_append_right _ (List.mem_singleton.2 rfl), Option.some.inj hj'⟩)

theorem add_iter (c : CalLoad.St K) (n : ℕ) : let d := (CalLoad.St.add)^[n] c
    d.count = c.count + n ∧ (∃ l, d.images = c.images ++ l ∧ l.length = n ∧ ∀ j ∈ l, c.count ≤ j ∧ j < c.count + n) ∧ d.threads = c.threads ∧
    (∀ j, j < c.count → d.und j = c.und j) ∧ (∀ j, c.count ≤ j → j < c.count + n → d.und j = none) ∧ (∀ j, c.count + n ≤ j → d.und j = c.und j) ∧
    d.calib = c.calib ∧ d.cam = c.cam ∧ d.map = c.map := by
  induction n with
  | zero => exact ⟨rfl, ⟨[], by simp⟩, rfl, fun _ _ => rfl, fun _ _ _ => by omega, fun _ _ => rfl, rfl, rfl, rfl⟩
  | succ n ih =>
    intro d
    have hd : d = ((CalLoad.St.add)^[n] c).add := Function.iterate_succ_apply' _ _ _
    generalize hD : (CalLoad.St.add)^[n] c = D at ih hd
    obtain ⟨i1, ⟨l, i2, il, i2'⟩, i3, i4, i5, i6, i7, i8, i9⟩ := ih
    rw [hd]
    refine ⟨by show D.count + 1 = _; omega, ⟨l ++ [D.count], ?_, by simp [il], ?_⟩, i3, ?_, ?_, ?_, i7, i8, i9⟩
    · show D.images ++ [D.count] = _
      rw [i2, List.append_assoc]
    · intro j hj
      rcases List.mem_append.1 hj with hj | hj
      · have := i2' j hj; omega
      · rw [List.mem_singleton.1 hj]; omega
    · intro j hj
      show Function.update D.und D.count none j = _
      rw [Function.update_of_ne (by omega)]; exact i4 j hj
    · intro j hj hj'
      show Function.update D.und D.count none j = _
      by_cases e : j = D.count
      · rw [e, Function.update_self]
      · rw [Function.update_of_ne e]; exact i5 j hj (by omega)
    · intro j hj
      show Function.update D.und D.count none j = _
      rw [Function.update_of_ne (by omega)]; exact i6 j (by omega)

theorem add_images (c : CalLoad.St K) (n : ℕ) : ((CalLoad.St.add)^[n] c).images = c.images ++ List.range' c.count n := by
  induction n with
  | zero => simp
  | succ n ih =>
    rw [Function.iterate_succ_apply', show ∀ d : CalLoad.St K, d.add.images = d.images ++ [d.count] from fun _ => rfl, ih,
      (add_iter c n).1, List.append_assoc, List.range'_concat, Nat.one_mul]

theorem loadBatch_eq {s : St K} (n : ℕ) : ∃ i, ((CalLoad.St.add)^[n + 1] s.c).images.head? = some i ∧
    s.loadBatch n = St.display { s with
      c := (CalLoad.St.add)^[n + 1] s.c
      data := Function.update (fun j => if s.c.count ≤ j ∧ j < ((CalLoad.St.add)^[n + 1] s.c).count then false else s.data j) i true } := by
  obtain ⟨-, ⟨l, e, hl, -⟩, -⟩ := add_iter s.c (n + 1)
  cases hh : ((CalLoad.St.add)^[n + 1] s.c).images.head? with
  | none =>
    rw [List.head?_eq_none_iff] at hh
    have hl0 : l = [] := (List.append_eq_nil_iff.1 (e.symm.trans hh)).2
    rw [hl0] at hl; simp at hl
  | some i =>
    refine ⟨i, rfl, ?_⟩
    unfold St.loadBatch
    simp only [hh]

theorem loadBatch_ok {s : St K} (h : Base s) (hc : ∀ i, s.selected = some i → s.data i = true ∨ (∃ t ∈ s.c.threads, t.img = i) ∨ i ∈ s.calls)
    (n : ℕ) : Base (s.loadBatch n) ∧ Coming (s.loadBatch n) := by
  obtain ⟨f, hf, e⟩ := loadBatch_eq (s := s) n
  rw [e]
  obtain ⟨c1, ⟨l, c2, -, c2'⟩, c3, c4, c5, c6, -⟩ := add_iter s.c (n + 1)
  generalize (CalLoad.St.add)^[n + 1] s.c = d at hf c1 c2 c3 c4 c5 c6 ⊢
  have hdat : ∀ j, j < s.c.count → s.data j = true →
      Function.update (fun j => if s.c.count ≤ j ∧ j < d.count then false else s.data j) f true j = true := by
    intro j hj hd
    by_cases e : j = f
    · rw [e, Function.update_self]
    · rw [Function.update_of_ne e, if_neg (by omega)]; exact hd
  constructor
  · refine base_display ⟨?_, ?_, ?_, ?_, ?_⟩
    · intro i hi
      show i < d.count
      have hi : i ∈ d.images := hi
      rw [c2] at hi
      rcases List.mem_append.1 hi with hi | hi
      · have := h.lt i hi; omega
      · have := c2' i hi; omega
    · intro t ht
      have ht : t ∈ d.threads := ht
      rw [c3] at ht
      obtain ⟨a, b, c⟩ := h.thr t ht
      exact ⟨by show t.img < d.count; omega, b, fun hp => hdat _ a (c hp)⟩
    · intro j hj
      obtain ⟨a, b⟩ := h.calls j hj
      exact ⟨by show j < d.count; omega, hdat j a b⟩
    · intro j p hp
      have hp : d.und j = some p := hp
      show Function.update (fun j => if s.c.count ≤ j ∧ j < d.count then false else s.data j) f true j = true
      by_cases e : j = f
      · rw [e, Function.update_self]
      · rw [Function.update_of_ne e]
        by_cases h1 : s.c.count ≤ j
        · by_cases h2 : j < s.c.count + (n + 1)
          · rw [c5 j h1 h2] at hp; cases hp
          · rw [if_neg (by omega)]
            rw [c6 j (by omega)] at hp
            exact h.und j p hp
        · rw [if_neg (by omega)]
          rw [c4 j (by omega)] at hp
          exact h.und j p hp
    · intro r hr
      have := h.sel r hr
      show r < d.images.length
      rw [c2, List.length_append]; omega
  · refine coming_display ?_
    intro i hi
    by_cases hne : s.c.images = []
    · have hs : s.sel = none := by
        cases hs : s.sel with
        | none => rfl
        | some r => have := h.sel r hs; rw [hne] at this; simp at this
      have hi : d.images.head? = some i := by
        unfold St.selected at hi
        simp only [hs] at hi
        exact hi
      rw [hf] at hi
      left
      rw [← Option.some.inj hi]
      show Function.update (fun j => if s.c.count ≤ j ∧ j < d.count then false else s.data j) f true f = true
      rw [Function.update_self]
    · have hi' : s.selected = some i := by
        have hh : d.images.head? = s.c.images.head? := by
          rw [c2]; cases hm : s.c.images with
          | nil => exact absurd hm hne
          | cons a l => rfl
        unfold St.selected at hi ⊢
        cases hs : s.sel with
        | none => simp only [hs] at hi ⊢; rw [← hh]; exact hi
        | some r =>
          have hr := h.sel r hs
          have he : d.images[r]? = s.c.images[r]? := by rw [c2]; exact List.getElem?_append_left hr
          simp only [hs, he, hh] at hi ⊢
          exact hi
      have hlt := h.lt i (selected_mem hi')
      rcases hc i hi' with hd | ⟨t, ht, hti⟩ | hd
      · exact Or.inl (hdat i hlt hd)
      · exact Or.inr (Or.inl ⟨t, by show t ∈ d.threads; rw [c3]; exact ht, hti⟩)
      · exact Or.inr (Or.inr hd)

theorem work_shape {c : CalLoad.St K} {n : ℕ} {t : CalLoad.Thr K} (hk : c.threads[n]? = some t) :
    (∃ pc, pc ≠ CalLoad.Pc.begin ∧ (c.work n).threads = c.threads.set n ⟨t.img, t.camera, pc⟩ ∧ (c.work n).und = c.und ∧
      (c.work n).images = c.images ∧ (c.work n).count = c.count ∧ (c.work n).calib = c.calib) ∨
    (t.pc ≠ CalLoad.Pc.begin ∧ (c.work n).threads = c.threads.eraseIdx n ∧ (∀ j, j ≠ t.img → (c.work n).und j = c.und j) ∧
      (c.work n).images = c.images ∧ (c.work n).count = c.count ∧ (c.work n).calib = c.calib) := by
  obtain ⟨i, cam, pc⟩ := t
  cases pc with
  | begin => left; exact ⟨.loaded, by simp, by simp only [CalLoad.St.work, hk]; simp⟩
  | loaded =>
    cases hu : c.und i with
    | none => left; exact ⟨.missing, by simp, by simp only [CalLoad.St.work, hk, hu]; simp⟩
    | some p => right; exact ⟨by simp, by simp only [CalLoad.St.work, hk, hu]; simp⟩
  | missing =>
    left
    cases cam with
    | false => exact ⟨.corrected none, by simp, by simp only [CalLoad.St.work, hk]; simp⟩
    | true =>
      cases hm : c.map with
      | none => exact ⟨.mapped c.cam, by simp, by simp only [CalLoad.St.work, hk, hm]; simp⟩
      | some k => exact ⟨.found k, by simp, by simp only [CalLoad.St.work, hk, hm]; simp⟩
  | mapped k => left; exact ⟨.found k, by simp, by simp only [CalLoad.St.work, hk]; simp⟩
  | found k => left; exact ⟨.corrected (some k), by simp, by simp only [CalLoad.St.work, hk]; simp⟩
  | corrected p =>
    right
    refine ⟨by simp, ?_⟩
    simp only [CalLoad.St.work, hk]
    refine ⟨by trivial, fun j hj => ?_, by trivial, by trivial, by trivial⟩
    exact Function.update_of_ne hj _ _

theorem work_ok {s : St K} (h : Base s) (hc : Coming s) (n : ℕ) : Base (s.work n) ∧ Coming (s.work n) := by
  cases hk : s.c.threads[n]? with
  | none =>
    have : s.work n = s := by unfold St.work; rw [hk]
    rw [this]; exact ⟨h, hc⟩
  | some t =>
    have hm : t ∈ s.c.threads := List.mem_of_getElem? hk
    obtain ⟨t1, t2, t3⟩ := h.thr t hm
    have hn : n < s.c.threads.length := (List.getElem?_eq_some_iff.1 hk).1
    have hdat : ∀ j, s.data j = true → (s.work n).data j = true := by
      intro j hj
      unfold St.work
      rw [hk]
      show (match t.pc with | .begin => Function.update s.data t.img true | _ => s.data) j = true
      generalize t.pc = q
      cases q with
      | begin =>
        show Function.update s.data t.img true j = true
        by_cases e : j = t.img
        · rw [e, Function.update_self]
        · rw [Function.update_of_ne e]; exact hj
      | _ => exact hj
    have hdt : (s.work n).data t.img = true := by
      by_cases e : t.pc = .begin
      · unfold St.work
        rw [hk]
        show (match t.pc with | .begin => Function.update s.data t.img true | _ => s.data) t.img = true
        rw [e]
        exact Function.update_self _ _ _
      · exact hdat _ (t3 e)
    have wc : (s.work n).c = s.c.work n := by unfold St.work; rw [hk]
    have wconn : (s.work n).conn = s.conn := by unfold St.work; rw [hk]
    have wsel : (s.work n).sel = s.sel := by unfold St.work; rw [hk]
    have wbox : (s.work n).box = s.box := by unfold St.work; rw [hk]
    have wv1 : (s.work n).view1 = s.view1 := by unfold St.work; rw [hk]
    have wv2 : (s.work n).view2 = s.view2 := by unfold St.work; rw [hk]
    have wcalls : (s.work n).calls = if (s.c.work n).threads.length < s.c.threads.length then List.replicate (s.conn t.img) t.img ++ s.calls
        else s.calls := by unfold St.work; rw [hk]
    have wselected : (s.c.work n).images = s.c.images → (s.work n).selected = s.selected := by
      intro e
      unfold St.selected
      rw [wc, wsel, e]
    rcases work_shape hk with ⟨pc, p0, p1, p2, p3, p4, -⟩ | ⟨p0, p1, p2, p3, p4, -⟩
    · have ec : (s.work n).calls = s.calls := by rw [wcalls, p1, List.length_set, if_neg (by omega)]
      constructor
      · refine ⟨?_, ?_, ?_, ?_, ?_⟩
        · rw [wc, p3, p4]; exact h.lt
        · rw [wc, p1, p4, wconn]
          intro t' ht'
          rcases List.mem_or_eq_of_mem_set ht' with ht' | rfl
          · obtain ⟨a, b, c⟩ := h.thr t' ht'
            exact ⟨a, b, fun hp => hdat _ (c hp)⟩
          · exact ⟨t1, t2, fun _ => hdt⟩
        · rw [ec, wc, p4]
          exact fun j hj => ⟨(h.calls j hj).1, hdat j (h.calls j hj).2⟩
        · rw [wc, p2]
          exact fun j p hp => hdat j (h.und j p hp)
        · rw [wsel, wc, p3]; exact h.sel
      · intro i hi
        rw [wselected p3] at hi
        rcases hc i hi with ⟨hd, hs⟩ | ⟨t', ht', hti⟩ | hd
        · refine Or.inl ⟨hdat i hd, ?_⟩
          unfold Shown
          rw [wv1, wv2, wbox, wc, p2]; exact hs
        · right; left
          rw [wc, p1]
          by_cases e : i = t.img
          · exact ⟨_, List.mem_set hn _, e.symm⟩
          · obtain ⟨m, hm1⟩ := List.mem_iff_getElem?.1 ht'
            refine ⟨t', ?_, hti⟩
            refine List.mem_iff_getElem?.2 ⟨m, ?_⟩
            rw [List.getElem?_set_ne ?_]
            · exact hm1
            · rintro rfl
              rw [hk] at hm1
              exact e (by rw [Option.some.inj hm1]; exact hti.symm)
        · exact Or.inr (Or.inr (by rw [ec]; exact hd))
    · have ec : (s.work n).calls = List.replicate (s.conn t.img) t.img ++ s.calls := by
        rw [wcalls, p1, List.length_eraseIdx_of_lt hn, if_pos (by omega)]
      constructor
      · refine ⟨?_, ?_, ?_, ?_, ?_⟩
        · rw [wc, p3, p4]; exact h.lt
        · rw [wc, p1, p4, wconn]
          intro t' ht'
          obtain ⟨a, b, c⟩ := h.thr t' (List.mem_of_mem_eraseIdx ht')
          exact ⟨a, b, fun hp => hdat _ (c hp)⟩
        · rw [ec, wc, p4]
          intro j hj
          rcases List.mem_append.1 hj with hj | hj
          · rw [List.eq_of_mem_replicate hj]; exact ⟨t1, hdt⟩
          · exact ⟨(h.calls j hj).1, hdat j (h.calls j hj).2⟩
        · rw [wc]
          intro j p hp
          by_cases e : j = t.img
          · rw [e]; exact hdt
          · rw [p2 j e] at hp; exact hdat j (h.und j p hp)
        · rw [wsel, wc, p3]; exact h.sel
      · intro i hi
        rw [wselected p3] at hi
        by_cases e : i = t.img
        · right; right
          rw [ec, e]
          exact List.mem_append_left _ (List.mem_replicate.2 ⟨by omega, rfl⟩)
        · rcases hc i hi with ⟨hd, hs⟩ | ⟨t', ht', hti⟩ | hd
          · refine Or.inl ⟨hdat i hd, ?_⟩
            unfold Shown
            rw [wv1, wv2, wbox, wc, p2 i e]; exact hs
          · right; left
            rw [wc, p1]
            obtain ⟨m, hm1⟩ := List.mem_iff_getElem?.1 ht'
            refine ⟨t', ?_, hti⟩
            refine List.mem_eraseIdx_iff_getElem?.2 ⟨m, ?_, hm1⟩
            rintro rfl
            rw [hk] at hm1
            exact e (by rw [Option.some.inj hm1]; exact hti.symm)
          · exact Or.inr (Or.inr (by rw [ec]; exact List.mem_append_right _ hd))

theorem work_weak {s : St K} (h : Base s) (hc : ∀ i, s.selected = some i → s.data i = true ∨ (∃ t ∈ s.c.threads, t.img = i) ∨ i ∈ s.calls)
    (n : ℕ) : Base (s.work n) ∧ ∀ i, (s.work n).selected = some i → (s.work n).data i = true ∨ (∃ t ∈ (s.work n).c.threads, t.img = i) ∨
      i ∈ (s.work n).calls := by
  obtain ⟨h1, h2, h3, h4, h5, h6⟩ := display_rest s
  obtain ⟨a, b⟩ := work_ok (base_display h) (coming_display hc) n
  have e : (s.display.work n).c = (s.work n).c ∧ (s.display.work n).data = (s.work n).data ∧ (s.display.work n).sel = (s.work n).sel ∧
      (s.display.work n).conn = (s.work n).conn ∧ (s.display.work n).calls = (s.work n).calls := by
    unfold St.work
    rw [h1]
    split
    · exact ⟨h1, h2, h3, h5, h6⟩
    · simp only [h2, h3, h5, h6]
      exact ⟨trivial, trivial, trivial, trivial, trivial⟩
  obtain ⟨e1, e2, e3, e4, e5⟩ := e
  have es : (s.display.work n).selected = (s.work n).selected := by unfold St.selected; rw [e1, e3]
  constructor
  · obtain ⟨a1, a2, a3, a4, a5⟩ := a
    rw [e1, e4, e2] at a2
    rw [e1] at a1
    rw [e5, e1, e2] at a3
    rw [e1, e2] at a4
    rw [e3, e1] at a5
    exact ⟨a1, a2, a3, a4, a5⟩
  · intro i hi
    have := coming_weak b i (by rw [es]; exact hi)
    rw [e2, e1, e5] at this
    exact this

/-- The box after a history in which the program did not set it: its value was sent, or it was never clicked. -/
def BoxOk (b : QInput.St Bool) : Prop := b.last = none ∨ b.last = some b.value

/-- All that is kept, in a history with clicks or with the key. -/
structure Inv (click : Bool) (s : St K) : Prop where
  base : Base s
  coming : Coming s
  box : click = true → BoxOk s.box

theorem display_inv {b : Bool} {s : St K} (h : Base s) (hb : b = true → BoxOk s.box)
    (hc : ∀ i, s.selected = some i → s.data i = true ∨ (∃ t ∈ s.c.threads, t.img = i) ∨ i ∈ s.calls) : Inv b s.display :=
  ⟨base_display h, coming_display hc, by rw [(display_rest s).2.2.2.1]; exact hb⟩

theorem inv_act {b : Bool} {s : St K} (h : Inv b s) (a : Act K) (ha : Unmixed b a) : Inv b (s.act a) := by
  have sb : ∀ s : St K, s.imageSelected.box = s.box := by
    intro s; unfold St.imageSelected; split <;> rfl
  cases a with
  | select r =>
    cases r with
    | none =>
      refine ⟨base_imageSelected (s := { s with sel := none }) ⟨h.base.lt, h.base.thr, h.base.calls, h.base.und, by simp⟩,
        coming_imageSelected _, ?_⟩
      show b = true → BoxOk (St.imageSelected { s with sel := none }).box
      rw [sb]; exact h.box
    | some r =>
      simp only [St.act]
      split_ifs with hr
      · refine ⟨base_imageSelected (s := { s with sel := some r }) ⟨h.base.lt, h.base.thr, h.base.calls, h.base.und, ?_⟩,
          coming_imageSelected _, ?_⟩
        · intro q hq
          rw [← Option.some.inj hq]; exact hr
        · rw [sb]; exact h.box
      · exact h
  | calibrate k =>
    simp only [St.act, St.calibrate]
    refine ⟨base_imageSelected
      (s := { s with c := { s.c with calib := some k, cam := k, map := none, und := fun j => if j ∈ s.c.images then none else s.c.und j } }) ⟨h.base.lt, h.base.thr, h.base.calls, ?_, h.base.sel⟩,
      coming_imageSelected _, ?_⟩
    · intro j p hp
      have hp : (if j ∈ s.c.images then none else s.c.und j) = some p := hp
      split_ifs at hp
      exact h.base.und j p hp
    · rw [sb]; exact h.box
  | load n =>
    obtain ⟨a1, a2⟩ := loadBatch_ok h.base (coming_weak h.coming) n
    refine ⟨a1, a2, ?_⟩
    show b = true → BoxOk (s.loadBatch n).box
    obtain ⟨f, -, e⟩ := loadBatch_eq (s := s) n
    rw [e, (display_rest _).2.2.2.1]; exact h.box
  | clear =>
    refine ⟨⟨by intro i hi; simp [St.act, CalLoad.St.clear] at hi, h.base.thr, h.base.calls, h.base.und, by simp [St.act]⟩, ?_, h.box⟩
    intro i hi
    exact absurd (selected_mem hi) (by simp [St.act, CalLoad.St.clear])
  | click =>
    have hb := h.box ha
    have hne : s.box.last ≠ some (!s.box.value) := by
      rcases hb with e | e <;> rw [e] <;> cases s.box.value <;> simp
    have hch : (!s.box.value) ≠ s.box.value := by cases s.box.value <;> simp
    have e : s.box.act (.change (!s.box.value)) = ⟨!s.box.value, some (!s.box.value), (!s.box.value) :: s.box.sent⟩ := by
      have e1 : s.box.act (.change (!s.box.value)) = (s.box.setValue (!s.box.value)).emitSignal := by
        simp only [QInput.St.act, QInput.St.valueChangedEvent]; rw [if_neg hch]
      rw [e1, QInput.emitSignal_new (s := s.box.setValue (!s.box.value)) hne]
      rfl
    simp only [St.act, e]
    rw [if_neg (by simp)]
    refine display_inv (s := { s with box := ⟨!s.box.value, some (!s.box.value), (!s.box.value) :: s.box.sent⟩ })
      ⟨h.base.lt, h.base.thr, h.base.calls, h.base.und, h.base.sel⟩ (fun _ => Or.inr rfl) (coming_weak (s := s) h.coming)
  | keyD =>
    have ha : b = false := ha
    refine display_inv (s := { s with box := s.box.act (.program (!s.box.value)) })
      ⟨h.base.lt, h.base.thr, h.base.calls, h.base.und, h.base.sel⟩ (by simp [ha]) (coming_weak (s := s) h.coming)
  | work n =>
    obtain ⟨a1, a2⟩ := work_ok h.base h.coming n
    refine ⟨a1, a2, ?_⟩
    show b = true → BoxOk (s.work n).box
    have : (s.work n).box = s.box := by unfold St.work; split <;> rfl
    rw [this]; exact h.box
  | deliver n =>
    simp only [St.act]
    split_ifs with hn
    · refine display_inv (s := { s with calls := s.calls.eraseIdx n })
        ⟨h.base.lt, h.base.thr, fun j hj => h.base.calls j (List.mem_of_mem_eraseIdx hj), h.base.und, h.base.sel⟩ h.box ?_
      intro i hi
      rcases h.coming i hi with hd | hd | hd
      · exact Or.inl hd.1
      · exact Or.inr (Or.inl hd)
      · exact Or.inl (h.base.calls i hd).2
    · exact h
  | drop n =>
    simp only [St.act]
    split
    · exact h
    · rename_i j hj
      split_ifs with hm
      · exact h
      · refine ⟨⟨h.base.lt, h.base.thr, fun j hj => h.base.calls j (List.mem_of_mem_eraseIdx hj), h.base.und, h.base.sel⟩, ?_, h.box⟩
        intro i hi
        have hi' : s.selected = some i := hi
        rcases h.coming i hi' with hd | hd | hd
        · exact Or.inl hd
        · exact Or.inr (Or.inl hd)
        · right; right
          obtain ⟨m, hm1⟩ := List.mem_iff_getElem?.1 hd
          refine List.mem_eraseIdx_iff_getElem?.2 ⟨m, ?_, hm1⟩
          rintro rfl
          rw [hj] at hm1
          exact hm (by rw [Option.some.inj hm1]; exact selected_mem hi')

theorem inv_init (b : Bool) (k0 : K) : Inv b (St.init k0) :=
  ⟨⟨by simp [St.init, CalLoad.St.init], by simp [St.init, CalLoad.St.init], by simp [St.init], by simp [St.init, CalLoad.St.init],
    by simp [St.init]⟩, by intro i hi; exact absurd (selected_mem hi) (by simp [St.init, CalLoad.St.init]), fun _ => Or.inl rfl⟩

theorem inv_after (b : Bool) (k0 : K) (as : List (Act K)) (ha : ∀ a ∈ as, Unmixed b a) : Inv b (after k0 as) := by
  unfold after
  suffices H : ∀ s : St K, Inv b s → Inv b (as.foldl St.act s) from H _ (inv_init b k0)
  induction as with
  | nil => exact fun _ h => h
  | cons a as ih =>
    exact fun s h => ih (fun a' h' => ha a' (List.mem_cons_of_mem _ h')) _ (inv_act h a (ha a List.mem_cons_self))

end CalView

namespace CalView

variable {K : Type}

/-- Everything that runs or waits belongs to the selected image. -/
structure Alone (s : St K) : Prop where
  base : Base s
  weak : ∀ i, s.selected = some i → s.data i = true ∨ (∃ t ∈ s.c.threads, t.img = i) ∨ i ∈ s.calls
  thr : ∀ t ∈ s.c.threads, s.selected = some t.img
  calls : ∀ j ∈ s.calls, s.selected = some j
  none : s.raised = 0

theorem display_raised {s : St K} (h : ∀ i, s.selected = some i → s.data i = true) : s.display.raised = s.raised := by
  cases hi : s.selected with
  | none => unfold St.display; rw [hi]
  | some i => rw [display_data hi (h i hi)]

theorem alone_display {s : St K} (h : Base s) (hd : ∀ i, s.selected = some i → s.data i = true)
    (ht : ∀ t ∈ s.c.threads, s.selected = some t.img) (hc : ∀ j ∈ s.calls, s.selected = some j) (h0 : s.raised = 0) : Alone s.display := by
  have hr := display_rest s
  refine ⟨base_display h, ?_, ?_, ?_, ?_⟩
  · intro i hi
    rw [display_selected] at hi
    rw [hr.2.1]
    exact Or.inl (hd i hi)
  · rw [hr.1, display_selected]; exact ht
  · rw [hr.2.2.2.2.2, display_selected]; exact hc
  · rw [display_raised hd]; exact h0

theorem alone_imageSelected {s : St K} (h : Base s) (hq : Quiet s) (h0 : s.raised = 0) : Alone s.imageSelected := by
  refine ⟨base_imageSelected h, coming_weak (coming_imageSelected s), ?_, ?_, ?_⟩
  · unfold St.imageSelected
    split
    · rw [hq.1]; simp
    · rename_i i hi
      have hc : s.c.select i = { s.c with threads := s.c.threads ++ [⟨i, s.c.calib.isSome, .begin⟩] } := by
        unfold CalLoad.St.select; rw [if_pos (selected_mem hi)]
      rw [hc]
      intro t ht
      have ht : t ∈ s.c.threads ++ [⟨i, s.c.calib.isSome, .begin⟩] := ht
      rw [hq.1, List.nil_append] at ht
      rw [List.mem_singleton.1 ht]
      exact hi
  · unfold St.imageSelected
    split <;> (intro j hj; have hj : j ∈ s.calls := hj; rw [hq.2] at hj; simp at hj)
  · unfold St.imageSelected
    split <;> exact h0

theorem alone_act {s : St K} (h : Alone s) (a : Act K)
    (ha : Quiet s ∨ (∃ n, a = .work n) ∨ (∃ n, a = .deliver n) ∨ (∃ n, a = .drop n)) : Alone (s.act a) := by
  have qd : Quiet s → ∀ i, s.selected = some i → s.data i = true := by
    intro q i hi
    rcases h.weak i hi with hd | ⟨t, ht, -⟩ | hd
    · exact hd
    · rw [q.1] at ht; simp at ht
    · rw [q.2] at hd; simp at hd
  have hb := h.base
  cases a with
  | select r =>
    have q : Quiet s := by
      rcases ha with q | ⟨_, e⟩ | ⟨_, e⟩ | ⟨_, e⟩
      · exact q
      all_goals cases e
    cases r with
    | none => exact alone_imageSelected (s := { s with sel := none }) ⟨hb.lt, hb.thr, hb.calls, hb.und, by simp⟩ q h.none
    | some r =>
      simp only [St.act]
      split_ifs with hr
      · refine alone_imageSelected (s := { s with sel := some r }) ⟨hb.lt, hb.thr, hb.calls, hb.und, ?_⟩ q h.none
        intro x hx
        rw [← Option.some.inj hx]; exact hr
      · exact h
  | calibrate k =>
    have q : Quiet s := by
      rcases ha with q | ⟨_, e⟩ | ⟨_, e⟩ | ⟨_, e⟩
      · exact q
      all_goals cases e
    refine alone_imageSelected
      (s := { s with c := { s.c with calib := some k, cam := k, map := none, und := fun j => if j ∈ s.c.images then none else s.c.und j } })
      ⟨hb.lt, hb.thr, hb.calls, ?_, hb.sel⟩ q h.none
    intro j p hp
    have hp : (if j ∈ s.c.images then none else s.c.und j) = some p := hp
    split_ifs at hp
    exact hb.und j p hp
  | load n =>
    have q : Quiet s := by
      rcases ha with q | ⟨_, e⟩ | ⟨_, e⟩ | ⟨_, e⟩
      · exact q
      all_goals cases e
    obtain ⟨a1, a2⟩ := loadBatch_ok hb h.weak n
    obtain ⟨f, hf, e⟩ := loadBatch_eq (s := s) n
    obtain ⟨-, -, c3, -⟩ := add_iter s.c (n + 1)
    have ht : (s.loadBatch n).c.threads = [] := by rw [e, (display_rest _).1]; exact c3.trans q.1
    have hc : (s.loadBatch n).calls = [] := by rw [e, (display_rest _).2.2.2.2.2]; exact q.2
    have hd : ∀ i, (s.loadBatch n).selected = some i → (s.loadBatch n).data i = true := by
      intro i hi
      rcases a2 i hi with hd | ⟨t, hm, -⟩ | hm
      · exact hd.1
      · rw [ht] at hm; simp at hm
      · rw [hc] at hm; simp at hm
    refine ⟨a1, coming_weak a2, ?_, ?_, ?_⟩
    · show ∀ t ∈ (s.loadBatch n).c.threads, _
      rw [ht]; simp
    · show ∀ t ∈ (s.loadBatch n).calls, _
      rw [hc]; simp
    · show (s.loadBatch n).raised = 0
      rw [e, display_raised]
      · exact h.none
      · intro i hi
        have h1 : (s.loadBatch n).selected = some i := by rw [e, display_selected]; exact hi
        have h2 := hd i h1
        rw [e, (display_rest _).2.1] at h2
        exact h2
  | clear =>
    have q : Quiet s := by
      rcases ha with q | ⟨_, e⟩ | ⟨_, e⟩ | ⟨_, e⟩
      · exact q
      all_goals cases e
    have hn : (s.act .clear).selected = none := by simp [St.act, St.selected, CalLoad.St.clear]
    refine ⟨⟨by intro i hi; simp [St.act, CalLoad.St.clear] at hi, hb.thr, hb.calls, hb.und, by simp [St.act]⟩, ?_, ?_, ?_, h.none⟩
    · intro i hi; rw [hn] at hi; cases hi
    · intro t ht
      have ht : t ∈ s.c.threads := ht
      rw [q.1] at ht; simp at ht
    · intro t ht
      have ht : t ∈ s.calls := ht
      rw [q.2] at ht; simp at ht
  | click =>
    have q : Quiet s := by
      rcases ha with q | ⟨_, e⟩ | ⟨_, e⟩ | ⟨_, e⟩
      · exact q
      all_goals cases e
    simp only [St.act]
    split_ifs
    · exact ⟨⟨hb.lt, hb.thr, hb.calls, hb.und, hb.sel⟩, h.weak, h.thr, h.calls, h.none⟩
    · exact alone_display (s := { s with box := s.box.act (.change (!s.box.value)) }) ⟨hb.lt, hb.thr, hb.calls, hb.und, hb.sel⟩ (qd q)
        h.thr h.calls h.none
  | keyD =>
    have q : Quiet s := by
      rcases ha with q | ⟨_, e⟩ | ⟨_, e⟩ | ⟨_, e⟩
      · exact q
      all_goals cases e
    exact alone_display (s := { s with box := s.box.act (.program (!s.box.value)) }) ⟨hb.lt, hb.thr, hb.calls, hb.und, hb.sel⟩ (qd q)
      h.thr h.calls h.none
  | work n =>
    show Alone (s.work n)
    cases hk : s.c.threads[n]? with
    | none =>
      have : s.work n = s := by unfold St.work; rw [hk]
      rw [this]; exact h
    | some t =>
      have hm : t ∈ s.c.threads := List.mem_of_getElem? hk
      have wsel : (s.work n).sel = s.sel := by unfold St.work; rw [hk]
      have wc : (s.work n).c = s.c.work n := by unfold St.work; rw [hk]
      have wr : (s.work n).raised = s.raised := by unfold St.work; rw [hk]
      have wcalls : ∀ j ∈ (s.work n).calls, j = t.img ∨ j ∈ s.calls := by
        unfold St.work; rw [hk]
        intro j hj
        have hj : j ∈ (if (s.c.work n).threads.length < s.c.threads.length then List.replicate (s.conn t.img) t.img ++ s.calls
          else s.calls) := hj
        split_ifs at hj
        · rcases List.mem_append.1 hj with hj | hj
          · exact Or.inl (List.eq_of_mem_replicate hj)
          · exact Or.inr hj
        · exact Or.inr hj
      have wthr : ∀ t' ∈ (s.c.work n).threads, ∃ t'' ∈ s.c.threads, t'.img = t''.img := by
        intro t' ht'
        rcases work_shape hk with ⟨pc, -, p1, -⟩ | ⟨-, p1, -⟩
        · rw [p1] at ht'
          rcases List.mem_or_eq_of_mem_set ht' with ht' | rfl
          · exact ⟨t', ht', rfl⟩
          · exact ⟨t, hm, rfl⟩
        · rw [p1] at ht'
          exact ⟨t', List.mem_of_mem_eraseIdx ht', rfl⟩
      have wi : (s.c.work n).images = s.c.images := by
        rcases work_shape hk with ⟨pc, -, -, -, p, -⟩ | ⟨-, -, -, p, -⟩ <;> exact p
      have wsel' : (s.work n).selected = s.selected := by
        unfold St.selected
        rw [wc, wsel, wi]
      obtain ⟨b1, b2⟩ := work_weak h.base h.weak n
      refine ⟨b1, b2, ?_, ?_, wr.trans h.none⟩
      · rw [wc, wsel']
        intro t' ht'
        obtain ⟨t'', h1, h2⟩ := wthr t' ht'
        rw [h2]; exact h.thr t'' h1
      · rw [wsel']
        intro j hj
        rcases wcalls j hj with e | e
        · rw [e]; exact h.thr t hm
        · exact h.calls j e
  | deliver n =>
    simp only [St.act]
    split_ifs with hn
    · obtain ⟨j, hj⟩ : ∃ j, j ∈ s.calls := ⟨s.calls[n], List.getElem_mem hn⟩
      refine alone_display (s := { s with calls := s.calls.eraseIdx n })
        ⟨hb.lt, hb.thr, fun j hj => hb.calls j (List.mem_of_mem_eraseIdx hj), hb.und, hb.sel⟩ ?_ h.thr
        (fun j hj => h.calls j (List.mem_of_mem_eraseIdx hj)) h.none
      intro i hi
      have e := (h.calls j hj).symm.trans (show s.selected = some i from hi)
      rw [← Option.some.inj e]
      exact (hb.calls j hj).2
    · exact h
  | drop n =>
    simp only [St.act]
    split
    · exact h
    · rename_i j hj
      rw [if_pos (selected_mem (h.calls j (List.mem_of_getElem? hj)))]
      exact h

/-- Every action keeps what is there. -/
theorem weak_act {s : St K} (h : Base s) (hw : ∀ i, s.selected = some i → s.data i = true ∨ (∃ t ∈ s.c.threads, t.img = i) ∨ i ∈ s.calls)
    (a : Act K) : Base (s.act a) ∧ ∀ i, (s.act a).selected = some i → (s.act a).data i = true ∨ (∃ t ∈ (s.act a).c.threads, t.img = i) ∨
      i ∈ (s.act a).calls := by
  have disp : ∀ u : St K, Base u → (∀ i, u.selected = some i → u.data i = true ∨ (∃ t ∈ u.c.threads, t.img = i) ∨ i ∈ u.calls) →
      Base u.display ∧ ∀ i, u.display.selected = some i → u.display.data i = true ∨ (∃ t ∈ u.display.c.threads, t.img = i) ∨
        i ∈ u.display.calls := fun u h1 h2 => ⟨base_display h1, coming_weak (coming_display h2)⟩
  cases a with
  | select r =>
    cases r with
    | none => exact ⟨base_imageSelected (s := { s with sel := none }) ⟨h.lt, h.thr, h.calls, h.und, by simp⟩,
        coming_weak (coming_imageSelected _)⟩
    | some r =>
      simp only [St.act]
      split_ifs with hr
      · refine ⟨base_imageSelected (s := { s with sel := some r }) ⟨h.lt, h.thr, h.calls, h.und, ?_⟩, coming_weak (coming_imageSelected _)⟩
        intro q hq
        rw [← Option.some.inj hq]; exact hr
      · exact ⟨h, hw⟩
  | calibrate k =>
    refine ⟨base_imageSelected
      (s := { s with c := { s.c with calib := some k, cam := k, map := none, und := fun j => if j ∈ s.c.images then none else s.c.und j } })
      ⟨h.lt, h.thr, h.calls, ?_, h.sel⟩, coming_weak (coming_imageSelected _)⟩
    intro j p hp
    have hp : (if j ∈ s.c.images then none else s.c.und j) = some p := hp
    split_ifs at hp
    exact h.und j p hp
  | load n =>
    obtain ⟨a1, a2⟩ := loadBatch_ok h hw n
    exact ⟨a1, coming_weak a2⟩
  | clear =>
    refine ⟨⟨by intro i hi; simp [St.act, CalLoad.St.clear] at hi, h.thr, h.calls, h.und, by simp [St.act]⟩, ?_⟩
    intro i hi
    exact absurd (selected_mem hi) (by simp [St.act, CalLoad.St.clear])
  | click =>
    simp only [St.act]
    split_ifs
    · exact ⟨⟨h.lt, h.thr, h.calls, h.und, h.sel⟩, hw⟩
    · exact disp { s with box := s.box.act (.change (!s.box.value)) } ⟨h.lt, h.thr, h.calls, h.und, h.sel⟩ hw
  | keyD => exact disp { s with box := s.box.act (.program (!s.box.value)) } ⟨h.lt, h.thr, h.calls, h.und, h.sel⟩ hw
  | work n => exact work_weak h hw n
  | deliver n =>
    simp only [St.act]
    split_ifs with hn
    · refine disp { s with calls := s.calls.eraseIdx n }
        ⟨h.lt, h.thr, fun j hj => h.calls j (List.mem_of_mem_eraseIdx hj), h.und, h.sel⟩ ?_
      intro i hi
      rcases hw i hi with hd | hd | hd
      · exact Or.inl hd
      · exact Or.inr (Or.inl hd)
      · exact Or.inl (h.calls i hd).2
    · exact ⟨h, hw⟩
  | drop n =>
    simp only [St.act]
    split
    · exact ⟨h, hw⟩
    · rename_i j hj
      split_ifs with hm
      · exact ⟨h, hw⟩
      · refine ⟨⟨h.lt, h.thr, fun j hj => h.calls j (List.mem_of_mem_eraseIdx hj), h.und, h.sel⟩, ?_⟩
        intro i hi
        rcases hw i hi with hd | hd | hd
        · exact Or.inl hd
        · exact Or.inr (Or.inl hd)
        · exact Or.inl (h.calls i hd).2

theorem base_after (k0 : K) (as : List (Act K)) : Base (after k0 as) := by
  suffices H : ∀ (as : List (Act K)) (s : St K), Base s →
      (∀ i, s.selected = some i → s.data i = true ∨ (∃ t ∈ s.c.threads, t.img = i) ∨ i ∈ s.calls) →
      Base (as.foldl St.act s) from
    H as _ (inv_init true k0).base (coming_weak (inv_init true k0).coming)
  intro as
  induction as with
  | nil => exact fun s h _ => h
  | cons a as ih =>
    intro s h hw
    obtain ⟨g1, g2⟩ := weak_act h hw a
    exact ih _ g1 g2

end CalView

open CalView

/-- **C144** When nothing runs, the upper view shows the selected image, and the lower view shows it too: corrected if the box is ticked
and the image has a corrected picture (which is there then), as it is otherwise.  This holds for all interleavings, as long as either only
the box or only the key D is used. -/
theorem C144_shown_partial {K : Type} (k0 : K) (as : List (CalView.Act K)) (click : Bool) (ha : ∀ a ∈ as, Unmixed click a)
    (hq : Quiet (CalView.after k0 as)) (i : ℕ) (hi : (CalView.after k0 as).selected = some i) : Shown (CalView.after k0 as) i := by
  have h := inv_after click k0 as ha
  rcases h.coming i hi with hd | ⟨t, ht, -⟩ | hd
  · exact hd.2
  · rw [hq.1] at ht; simp at ht
  · rw [hq.2] at hd; simp at hd

/-- **C144** No exception is raised while the user waits for every image to be loaded. -/
theorem C144_no_exception_partial {K : Type} (k0 : K) (as : List (CalView.Act K)) (ha : Patient (CalView.St.init k0) as) :
    (CalView.after k0 as).raised = 0 := by
  have h0 : Alone (CalView.St.init k0) := ⟨(inv_init true k0).base, coming_weak (inv_init true k0).coming,
    by simp [St.init, CalLoad.St.init], by simp [St.init], rfl⟩
  have key : ∀ (as : List (CalView.Act K)) (s : CalView.St K), Alone s → Patient s as → Alone (as.foldl St.act s) := by
    intro as
    induction as with
    | nil => exact fun s h _ => h
    | cons a as ih => exact fun s h hp => ih _ (alone_act h a hp.1) hp.2
  exact (key as _ h0 ha).none

theorem CalView.click_lost {K : Type} {u : CalView.St K} {b : Bool} {l : List Bool} (h : u.box = ⟨b, some (!b), l⟩) :
    u.act .click = { u with box := ⟨!b, some (!b), l⟩ } := by
  have hch : (!b) ≠ b := by cases b <;> simp
  have e3 : (⟨b, some (!b), l⟩ : QInput.St Bool).act (.change (!b)) = ⟨!b, some (!b), l⟩ := by
    have e3 : (⟨b, some (!b), l⟩ : QInput.St Bool).act (.change (!b)) =
        ((⟨b, some (!b), l⟩ : QInput.St Bool).setValue (!b)).emitSignal := by
      simp only [QInput.St.act, QInput.St.valueChangedEvent]; rw [if_neg hch]
    rw [e3, QInput.emitSignal_same (s := (⟨b, some (!b), l⟩ : QInput.St Bool).setValue (!b)) rfl]
    rfl
  simp only [St.act, h, e3, if_true]

theorem CalView.lost_click {K : Type} (s : CalView.St K) (i : ℕ) (p : CalLoad.Pic K) (hi : s.selected = some i) (hd : s.data i = true)
    (hp : s.c.und i = some p) (hl : s.box.last ≠ some (!s.box.value)) :
    let b := s.box.value
    let t := ((s.act .click).act .keyD).act .click
    t.selected = some i ∧ t.c.und i = some p ∧ t.box.value = (!b) ∧ t.view2 = some (i, if b then p else none) := by
  intro b t
  have et : t = ((s.act .click).act .keyD).act .click := rfl
  have hch : (!s.box.value) ≠ s.box.value := by cases s.box.value <;> simp
  have e1 : s.box.act (.change (!s.box.value)) = ⟨!b, some (!b), (!b) :: s.box.sent⟩ := by
    have e1 : s.box.act (.change (!s.box.value)) = (s.box.setValue (!s.box.value)).emitSignal := by
      simp only [QInput.St.act, QInput.St.valueChangedEvent]; rw [if_neg hch]
    rw [e1, QInput.emitSignal_new (s := s.box.setValue (!s.box.value)) hl]
    rfl
  have s1 : s.act .click = St.display { s with box := ⟨!b, some (!b), (!b) :: s.box.sent⟩ } := by
    simp only [St.act, e1]
    rw [if_neg (by simp)]
  have d1 := display_data (s := { s with box := ⟨!b, some (!b), (!b) :: s.box.sent⟩ }) hi hd
  rw [d1] at s1
  have s2 : (s.act .click).act .keyD = St.display { s.act .click with box := ⟨b, some (!b), (!b) :: s.box.sent⟩ } := by
    rw [s1]
    simp only [St.act, QInput.St.act, QInput.St.setValue, Bool.not_not]
  have hi2 : (s.act .click).selected = some i := by rw [s1]; exact hi
  have hd2 : (s.act .click).data i = true := by rw [s1]; exact hd
  have d2 := display_data (s := { s.act .click with box := ⟨b, some (!b), (!b) :: s.box.sent⟩ }) hi2 hd2
  rw [d2] at s2
  have hu2 : (s.act .click).c.und i = some p := by rw [s1]; exact hp
  have s3 : t = { (s.act .click).act .keyD with box := ⟨!b, some (!b), (!b) :: s.box.sent⟩ } := by
    rw [et]
    exact click_lost (by rw [s2])
  rw [s3, s2]
  refine ⟨hi2, hu2, rfl, ?_⟩
  simp only [hu2]
  cases b <;> rfl

/-- With the box and the key together a click gets lost: in every reachable state in which the last value that the box sent is not the
opposite of its value, the selected image is loaded and has a corrected picture `p`, after a click, the key D and another click the box has
the opposite value, but the lower view still shows what belongs to the old one. -/
theorem C144_lost_click_violated {K : Type} (k0 : K) (as : List (CalView.Act K)) (i : ℕ) (p : CalLoad.Pic K)
    (hi : (CalView.after k0 as).selected = some i) (hd : (CalView.after k0 as).data i = true) (hp : (CalView.after k0 as).c.und i = some p)
    (hl : (CalView.after k0 as).box.last ≠ some (!(CalView.after k0 as).box.value)) :
    let b := (CalView.after k0 as).box.value
    let t := CalView.after k0 (as ++ [.click, .keyD, .click])
    t.selected = some i ∧ t.c.und i = some p ∧ t.box.value = (!b) ∧ t.view2 = some (i, if b then p else none) := by
  have e : CalView.after k0 (as ++ [.click, .keyD, .click]) = (((CalView.after k0 as).act .click).act .keyD).act .click := by
    unfold CalView.after; rw [List.foldl_append]; rfl
  rw [e]
  exact lost_click _ i p hi hd hp hl

/-- `displayImage` raises when the selected image is not loaded yet: in every reachable state with at least two images in a new batch, after
selecting the last one the key D raises and the views stay as they are. -/
theorem C144_raises_violated {K : Type} (k0 : K) (as : List (CalView.Act K)) (n : ℕ) :
    let s := CalView.after k0 (as ++ [.load (n + 1)])
    let t := CalView.after k0 (as ++ [.load (n + 1), .select (some (s.c.images.length - 1)), .keyD])
    t.raised = s.raised + 1 ∧ t.view1 = s.view1 ∧ t.view2 = s.view2 := by
  intro s t
  have h : Base (CalView.after k0 as) := base_after k0 as
  have es : s = (CalView.after k0 as).loadBatch (n + 1) := by
    show CalView.after k0 (as ++ [.load (n + 1)]) = _
    unfold CalView.after; rw [List.foldl_append]; rfl
  have et : t = (s.act (.select (some (s.c.images.length - 1)))).act .keyD := by
    show CalView.after k0 (as ++ [.load (n + 1), .select (some (s.c.images.length - 1)), .keyD]) = _
    rw [show s = CalView.after k0 (as ++ [.load (n + 1)]) from rfl]
    unfold CalView.after; rw [List.foldl_append, List.foldl_append]; rfl
  generalize CalView.after k0 as = a at h es
  obtain ⟨f, hf, e⟩ := loadBatch_eq (s := a) (n + 1)
  obtain ⟨c1, -, -, -, c5, -⟩ := add_iter a.c (n + 1 + 1)
  have c2 := add_images a.c (n + 1 + 1)
  rw [e] at es
  obtain ⟨r1, r2, -⟩ := display_rest { a with
      c := (CalLoad.St.add)^[n + 1 + 1] a.c
      data := Function.update (fun j => if a.c.count ≤ j ∧ j < ((CalLoad.St.add)^[n + 1 + 1] a.c).count then false else a.data j) f true }
  rw [← es] at r1 r2
  generalize (CalLoad.St.add)^[n + 1 + 1] a.c = d at *
  have r1 : s.c = d := r1
  have r2 : s.data = Function.update (fun j => if a.c.count ≤ j ∧ j < d.count then false else a.data j) f true := r2
  have hlen : s.c.images.length = a.c.images.length + (n + 2) := by rw [r1, c2, List.length_append, List.length_range']
  have hget : s.c.images[s.c.images.length - 1]? = some (a.c.count + (n + 1)) := by
    rw [hlen, r1, c2, List.getElem?_append_right (by omega), List.getElem?_range' (by omega)]
    congr 1; omega
  have hfn : f ≠ a.c.count + (n + 1) := by
    rw [c2] at hf
    cases hm : a.c.images with
    | nil =>
      rw [hm] at hf
      simp [List.range'] at hf
      omega
    | cons x xs =>
      rw [hm] at hf
      have := h.lt x (by rw [hm]; exact List.mem_cons_self)
      have : x = f := Option.some.inj hf
      omega
  have hdat : s.data (a.c.count + (n + 1)) = false := by
    rw [r2, Function.update_of_ne (Ne.symm hfn), if_pos (by omega)]
  have hund : s.c.und (a.c.count + (n + 1)) = none := by rw [r1]; exact c5 _ (by omega) (by omega)
  generalize hr : s.c.images.length - 1 = r at *
  have hrl : r < s.c.images.length := by omega
  have hsel : St.selected { s with sel := some r } = some (a.c.count + (n + 1)) := by
    unfold St.selected; simp only [hget]
  generalize a.c.count + (n + 1) = j at *
  have hj := selected_mem hsel
  have hcs : s.c.select j = { s.c with threads := s.c.threads ++ [⟨j, s.c.calib.isSome, .begin⟩] } := by
    unfold CalLoad.St.select; rw [if_pos hj]
  have q1 : s.act (.select (some r)) = { s with
      sel := some r
      c := { s.c with threads := s.c.threads ++ [⟨j, s.c.calib.isSome, .begin⟩] }
      conn := Function.update s.conn j (s.conn j + 1) } := by
    simp only [St.act]
    rw [if_pos hrl]
    unfold St.imageSelected
    rw [hsel]
    simp only [hcs]
  rw [et, q1]
  simp only [St.act]
  have q2 : ∀ (u : CalView.St K), u.selected = some j → u.data j = false → u.c.und j = none →
      u.display.raised = u.raised + 1 ∧ u.display.view1 = u.view1 ∧ u.display.view2 = u.view2 := by
    intro u h1 h2 h3
    unfold St.display
    rw [h1]
    simp [h2, h3]
  exact q2 _ hsel hdat hund

/-- The hypotheses can be met: a batch of one image is loaded, nothing runs and the image is selected. -/
example : Quiet (CalView.after (0 : ℕ) [.load 0]) ∧ (CalView.after (0 : ℕ) [.load 0]).selected = some 0 ∧
    (∀ a ∈ [(CalView.Act.load 0 : CalView.Act ℕ)], Unmixed true a) ∧ Patient (CalView.St.init (0 : ℕ)) [.load 0] := by
  refine ⟨⟨?_, ?_⟩, ?_, by simp [Unmixed], ⟨Or.inl ⟨rfl, rfl⟩, trivial⟩⟩ <;>
  simp [CalView.after, St.act, St.loadBatch, St.init, CalLoad.St.init, CalLoad.St.add, St.display, St.selected, QInput.St.new]

/-- The hypotheses of the violation can be met: the same after the thread that loads the image has ended. -/
example : let s := CalView.after (0 : ℕ) [.load 0, .select none, .work 0, .work 0, .work 0, .work 0]
    s.selected = some 0 ∧ s.data 0 = true ∧ s.c.und 0 = some none ∧ s.box.last ≠ some (!s.box.value) := by
  simp [CalView.after, St.act, St.loadBatch, St.init, CalLoad.St.init, CalLoad.St.add, St.display, St.selected, QInput.St.new,
    St.imageSelected, CalLoad.St.select, St.work, CalLoad.St.work]

namespace CalView

variable {K : Type}

theorem fresh_add {c : CalLoad.St K} (h : CalLoad.Fresh c) : CalLoad.Fresh c.add := by
  refine ⟨?_, fun t ht => (h.thrlt t ht).trans (Nat.lt_succ_self _), h.cam, h.map, ?_, h.flag, h.pic⟩
  · intro i hi
    rcases List.mem_append.1 hi with hi | hi
    · exact (h.lt i hi).trans (Nat.lt_succ_self _)
    · rw [List.mem_singleton.1 hi]
      exact Nat.lt_succ_self _
  · intro i hi p hp
    rcases List.mem_append.1 hi with hi | hi
    · have e : i ≠ c.count := (h.lt i hi).ne
      simp only [CalLoad.St.add, Function.update_of_ne e] at hp
      exact h.und i hi p hp
    · rw [List.mem_singleton.1 hi] at hp
      simp [CalLoad.St.add] at hp

theorem fresh_iter {c : CalLoad.St K} (h : CalLoad.Fresh c) (n : ℕ) : CalLoad.Fresh ((CalLoad.St.add)^[n] c) := by
  induction n with
  | zero => exact h
  | succ n ih => rw [Function.iterate_succ_apply']; exact fresh_add ih

theorem imageSelected_c (s : St K) : s.imageSelected.c = match s.selected with | none => s.c | some i => s.c.select i := by
  unfold St.imageSelected; cases s.selected <;> rfl

theorem fresh_imageSelected {s : St K} (h : CalLoad.Fresh s.c) : CalLoad.Fresh s.imageSelected.c := by
  rw [imageSelected_c]
  split
  · exact h
  · exact CalLoad.fresh_select h _

theorem selected_none {s : St K} (h : s.selected = none) : s.c.images = [] := by
  unfold St.selected at h
  split at h
  · exact List.head?_eq_none_iff.1 h
  · split at h
    · cases h
    · exact List.head?_eq_none_iff.1 h

theorem fresh_act {s : St K} (h : CalLoad.Fresh s.c) (a : Act K)
    (ha : Quiet s ∨ (∃ n, a = .work n) ∨ (∃ n, a = .deliver n) ∨ (∃ n, a = .drop n)) : CalLoad.Fresh (s.act a).c := by
  cases a with
  | select r =>
    cases r with
    | none => exact fresh_imageSelected (s := { s with sel := none }) h
    | some r =>
      simp only [St.act]
      split_ifs
      · exact fresh_imageSelected (s := { s with sel := some r }) h
      · exact h
  | calibrate k =>
    have q : Quiet s := by
      rcases ha with q | ⟨_, e⟩ | ⟨_, e⟩ | ⟨_, e⟩
      · exact q
      all_goals cases e
    show CalLoad.Fresh (s.calibrate k).c
    unfold St.calibrate
    rw [imageSelected_c]
    split
    · rename_i hn
      have hn : s.c.images = [] := selected_none hn
      have := CalLoad.fresh_calibrate h q.1 k 0
      unfold CalLoad.St.calibrate CalLoad.St.select at this
      rw [if_neg (by simp [hn])] at this
      exact this
    · rename_i i _
      exact CalLoad.fresh_calibrate h q.1 k i
  | load n =>
    show CalLoad.Fresh (s.loadBatch n).c
    obtain ⟨f, -, e⟩ := loadBatch_eq (s := s) n
    rw [e, (display_rest _).1]
    exact fresh_iter h _
  | clear =>
    exact ⟨by simp [St.act, CalLoad.St.clear], h.thrlt, h.cam, h.map, by simp [St.act, CalLoad.St.clear], h.flag, h.pic⟩
  | click =>
    simp only [St.act]
    split_ifs
    · exact h
    · rw [(display_rest _).1]; exact h
  | keyD =>
    simp only [St.act]
    rw [(display_rest _).1]; exact h
  | work n =>
    show CalLoad.Fresh (s.work n).c
    unfold St.work
    split
    · exact h
    · exact CalLoad.fresh_work h n
  | deliver n =>
    simp only [St.act]
    split_ifs
    · rw [(display_rest _).1]; exact h
    · exact h
  | drop n =>
    simp only [St.act]
    split
    · exact h
    · split_ifs <;> exact h

theorem fresh_run : ∀ (as : List (Act K)) (s : St K), CalLoad.Fresh s.c → Patient s as → CalLoad.Fresh (as.foldl St.act s).c
  | [], _, h, _ => h
  | a :: as, _, h, hp => fresh_run as _ (fresh_act h a hp.1) hp.2

/-- What leaves the selection, the images and the calibration: the threads, the waiting calls, the box and the key. -/
theorem still_act {s : St K} {i : ℕ} (hs : s.selected = some i) (hc : CalLoad.Coming s.c i) (a : Act K) (ha : Still a) :
    (s.act a).selected = some i ∧ CalLoad.Coming (s.act a).c i ∧ (s.act a).c.calib = s.c.calib := by
  have disp : ∀ u : St K, u.selected = some i → u.c = s.c →
      u.display.selected = some i ∧ CalLoad.Coming u.display.c i ∧ u.display.c.calib = s.c.calib := by
    intro u h1 h2
    rw [display_selected, (display_rest u).1, h2]
    exact ⟨h1, hc, rfl⟩
  cases a with
  | select r => exact absurd ha id
  | calibrate k => exact absurd ha id
  | load n => exact absurd ha id
  | clear => exact absurd ha id
  | click =>
    simp only [St.act]
    split_ifs
    · exact ⟨hs, hc, rfl⟩
    · exact disp { s with box := s.box.act (.change (!s.box.value)) } hs rfl
  | keyD => exact disp { s with box := s.box.act (.program (!s.box.value)) } hs rfl
  | work n =>
    cases hk : s.c.threads[n]? with
    | none =>
      have : s.work n = s := by unfold St.work; rw [hk]
      show (s.work n).selected = some i ∧ CalLoad.Coming (s.work n).c i ∧ (s.work n).c.calib = s.c.calib
      rw [this]; exact ⟨hs, hc, rfl⟩
    | some t =>
      have wsel : (s.work n).sel = s.sel := by unfold St.work; rw [hk]
      have wc : (s.work n).c = s.c.work n := by unfold St.work; rw [hk]
      have wi : (s.c.work n).images = s.c.images ∧ (s.c.work n).calib = s.c.calib := by
        rcases work_shape hk with ⟨pc, -, -, -, p, -, q⟩ | ⟨-, -, -, p, -, q⟩ <;> exact ⟨p, q⟩
      have wsel' : (s.work n).selected = s.selected := by
        unfold St.selected
        rw [wc, wsel, wi.1]
      show (s.work n).selected = some i ∧ CalLoad.Coming (s.work n).c i ∧ (s.work n).c.calib = s.c.calib
      rw [wsel', wc]
      exact ⟨hs, CalLoad.coming_work hc n, wi.2⟩
  | deliver n =>
    simp only [St.act]
    split_ifs
    · exact disp { s with calls := s.calls.eraseIdx n } hs rfl
    · exact ⟨hs, hc, rfl⟩
  | drop n =>
    simp only [St.act]
    split
    · exact ⟨hs, hc, rfl⟩
    · split_ifs
      · exact ⟨hs, hc, rfl⟩
      · exact ⟨hs, hc, rfl⟩

end CalView

/-- **C144** Selecting an image shows it: in a history in which the user waits for every image to be loaded and uses either the box or the
key, after the image `i` in row `r` is selected, when nothing runs any more, the upper view shows the image `i`, and the lower view shows it
corrected with the current calibration if the box is ticked, and as it is otherwise. -/
theorem C144_selected_partial {K : Type} (k0 : K) (as bs : List (CalView.Act K)) (r i : ℕ) (click : Bool)
    (hi : (CalView.after k0 as).c.images[r]? = some i) (hb : ∀ b ∈ bs, Still b)
    (hp : Patient (CalView.St.init k0) (as ++ .select (some r) :: bs)) (ha : ∀ a ∈ as ++ .select (some r) :: bs, Unmixed click a)
    (hq : Quiet (CalView.after k0 (as ++ .select (some r) :: bs))) :
    let s := CalView.after k0 (as ++ .select (some r) :: bs)
    s.view1 = some i ∧ s.view2 = some (i, if s.box.value then (CalView.after k0 as).c.calib else none) := by
  intro s
  have hr : r < (CalView.after k0 as).c.images.length := (List.getElem?_eq_some_iff.1 hi).1
  have h1 : (CalView.after k0 as).act (.select (some r)) = St.imageSelected { CalView.after k0 as with sel := some r } := by
    simp only [St.act]; rw [if_pos hr]
  have hsel : St.selected { CalView.after k0 as with sel := some r } = some i := by
    unfold St.selected; simp only [hi]
  have hmem := selected_mem hsel
  have h2 : ((CalView.after k0 as).act (.select (some r))).c = (CalView.after k0 as).c.select i := by
    rw [h1, imageSelected_c, hsel]
  have hcs : (CalView.after k0 as).c.select i =
      { (CalView.after k0 as).c with threads := (CalView.after k0 as).c.threads ++ [⟨i, (CalView.after k0 as).c.calib.isSome, .begin⟩] } := by
    unfold CalLoad.St.select; rw [if_pos hmem]
  have h3 : ((CalView.after k0 as).act (.select (some r))).selected = some i := by
    have : ((CalView.after k0 as).act (.select (some r))).sel = some r := by
      rw [h1]; unfold St.imageSelected; split <;> rfl
    unfold St.selected
    rw [this, h2, hcs]
    simp only [hi]
  have h4 : CalLoad.Coming ((CalView.after k0 as).act (.select (some r))).c i := by
    rw [h2, hcs]
    exact Or.inr ⟨_, List.mem_append_right _ (List.mem_singleton.2 rfl), rfl⟩
  have key : ∀ (bs : List (CalView.Act K)) (u : CalView.St K), (∀ b ∈ bs, Still b) → u.selected = some i → CalLoad.Coming u.c i →
      (bs.foldl St.act u).selected = some i ∧ CalLoad.Coming (bs.foldl St.act u).c i ∧ (bs.foldl St.act u).c.calib = u.c.calib := by
    intro bs
    induction bs with
    | nil => exact fun u _ g1 g2 => ⟨g1, g2, rfl⟩
    | cons b bs ih =>
      intro u g0 g1 g2
      obtain ⟨f1, f2, f3⟩ := still_act g1 g2 b (g0 b List.mem_cons_self)
      obtain ⟨e1, e2, e3⟩ := ih (u.act b) (fun b' hb' => g0 b' (List.mem_cons_of_mem _ hb')) f1 f2
      exact ⟨e1, e2, e3.trans f3⟩
  have es : s = bs.foldl St.act ((CalView.after k0 as).act (.select (some r))) := by
    show CalView.after k0 (as ++ .select (some r) :: bs) = _
    unfold CalView.after; rw [List.foldl_append]; rfl
  obtain ⟨k1, k2, k3⟩ := key bs _ hb h3 h4
  rw [← es] at k1 k2 k3
  have k3 : s.c.calib = (CalView.after k0 as).c.calib := by rw [k3, h2, hcs]
  obtain ⟨v1, v2⟩ := C144_shown_partial k0 _ click ha hq i k1
  have hf : CalLoad.Fresh s.c := fresh_run _ _ (by constructor <;> simp [St.init, CalLoad.St.init]) hp
  refine ⟨v1, ?_⟩
  have v2 : s.view2 = some (i, if s.box.value then (s.c.und i).getD none else none) := v2
  rw [v2]
  rcases k2 with hu | ⟨t, ht, -⟩
  · cases hu' : s.c.und i with
    | none => exact absurd hu' hu
    | some p =>
      have := hf.und i (selected_mem k1) p hu'
      rw [Option.getD_some, this, k3]
  · have hq1 : s.c.threads = [] := hq.1
    rw [hq1] at ht; simp at ht

/-- The first image of a batch is shown without the correction: in every reachable state with a calibration `k`, without images and with the
box ticked, after adding a batch both views show the first image as it is, and nothing runs that would correct it. -/
theorem C144_uncorrected_violated {K : Type} (k0 k : K) (as : List (CalView.Act K)) (n : ℕ)
    (hk : (CalView.after k0 as).c.calib = some k) (h0 : (CalView.after k0 as).c.images = []) (hq : Quiet (CalView.after k0 as))
    (hb : (CalView.after k0 as).box.value = true) :
    let s := CalView.after k0 (as ++ [.load n])
    ∃ i, s.selected = some i ∧ s.view1 = some i ∧ s.view2 = some (i, none) ∧ s.box.value = true ∧ s.c.calib = some k ∧ Quiet s := by
  intro s
  have hbase : Base (CalView.after k0 as) := base_after k0 as
  have es : s = (CalView.after k0 as).loadBatch n := by
    show CalView.after k0 (as ++ [.load n]) = _
    unfold CalView.after; rw [List.foldl_append]; rfl
  rw [es]
  generalize CalView.after k0 as = a at *
  obtain ⟨f, hf, e⟩ := loadBatch_eq (s := a) n
  obtain ⟨-, ⟨l, c2, -, c2'⟩, c3, -, c5, -, c7, -⟩ := add_iter a.c (n + 1)
  rw [e]
  have hsn : a.sel = none := by
    cases hs : a.sel with
    | none => rfl
    | some r => have := hbase.sel r hs; rw [h0] at this; simp at this
  generalize (CalLoad.St.add)^[n + 1] a.c = d at *
  have hfl : f ∈ l := by
    have hm : f ∈ d.images := List.mem_of_mem_head? hf
    rw [c2, h0] at hm
    exact hm
  have hu : d.und f = none := c5 f (c2' f hfl).1 (c2' f hfl).2
  generalize hD : Function.update (fun j => if a.c.count ≤ j ∧ j < d.count then false else a.data j) f true = D
  have hsel : St.selected { a with c := d, data := D } = some f := by
    unfold St.selected
    simp only [hsn]
    exact hf
  have hDf : D f = true := by rw [← hD, Function.update_self]
  rw [display_data (s := { a with c := d, data := D }) hsel hDf]
  refine ⟨f, hsel, rfl, ?_, hb, c7.trans hk, c3.trans hq.1, hq.2⟩
  simp [hu]

/-- The hypotheses of the two theorems above can be met: a calibration is loaded, then a batch of one image, which is selected and loaded. -/
example : let as : List (CalView.Act ℕ) := [.calibrate 5]
    let bs : List (CalView.Act ℕ) := [.work 0, .work 0, .work 0, .work 0, .work 0, .work 0, .deliver 0]
    ((CalView.after 0 as).c.calib = some 5 ∧ (CalView.after 0 as).c.images = [] ∧ Quiet (CalView.after 0 as) ∧
      (CalView.after 0 as).box.value = true) ∧
    (CalView.after 0 (as ++ [.load 0])).c.images[0]? = some 0 ∧ (∀ b ∈ bs, Still b) ∧
    Patient (CalView.St.init 0) ((as ++ [.load 0]) ++ .select (some 0) :: bs) ∧
    Quiet (CalView.after 0 ((as ++ [.load 0]) ++ .select (some 0) :: bs)) := by
  refine ⟨?_, ?_, ?_, ?_, ?_⟩
  · simp [CalView.after, St.act, St.init, CalLoad.St.init, St.calibrate, St.imageSelected, St.selected, Quiet, QInput.St.new]
  · simp [CalView.after, St.act, St.init, CalLoad.St.init, St.calibrate, St.imageSelected, St.selected, QInput.St.new, St.loadBatch,
      CalLoad.St.add, St.display]
  · simp [Still]
  · simp [Patient, Quiet, St.act, St.init, CalLoad.St.init, St.calibrate, St.imageSelected, St.selected, QInput.St.new,
      St.loadBatch, CalLoad.St.add, St.display, CalLoad.St.select, St.work, CalLoad.St.work]
  · simp [Quiet, CalView.after, St.act, St.init, CalLoad.St.init, St.calibrate, St.imageSelected, St.selected, QInput.St.new,
      St.loadBatch, CalLoad.St.add, St.display, CalLoad.St.select, St.work, CalLoad.St.work]
