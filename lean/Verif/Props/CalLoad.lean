import Verif.Model.CalLoad
import Mathlib.Tactic.Common
import Mathlib.Order.WellFounded
import Mathlib.Algebra.BigOperators.Group.List.Basic

/-! # C137: the corrected pictures belong to the current calibration -/

namespace CalLoad

variable {K : Type}

/-- Every calibration of the history came while no image was being loaded. -/
def Calm (k0 : K) : List (Act K) → Prop
  | [] => True
  | a :: as => Calm k0 as ∧ ∀ k i, a = .calibrate k i → (as.foldr (fun a s => s.act a) (St.init k0)).threads = []

/-- The state after a history (the last action first). -/
def after (k0 : K) (as : List (Act K)) : St K := as.foldr (fun a s => s.act a) (St.init k0)

/-- What holds while calibrations come at quiet times. -/
structure Fresh (s : St K) : Prop where
  lt : ∀ i ∈ s.images, i < s.count
  thrlt : ∀ t ∈ s.threads, t.img < s.count
  cam : ∀ k, s.calib = some k → s.cam = k
  map : ∀ k, s.map = some k → s.calib = some k
  und : ∀ i ∈ s.images, ∀ p, s.und i = some p → p = s.calib
  flag : ∀ t ∈ s.threads, t.camera = s.calib.isSome
  pic : ∀ t ∈ s.threads, (∀ k, t.pc = .mapped k → s.calib = some k) ∧ (∀ k, t.pc = .found k → s.calib = some k) ∧
    ∀ p, t.pc = .corrected p → p = s.calib

theorem fresh_select {s : St K} (h : Fresh s) (i : ℕ) : Fresh (s.select i) := by
  unfold St.select
  split_ifs with hi
  · refine ⟨h.lt, ?_, h.cam, h.map, h.und, ?_, ?_⟩
    · intro t ht
      rcases List.mem_append.1 ht with ht | ht
      · exact h.thrlt t ht
      · rw [List.mem_singleton.1 ht]
        exact h.lt i hi
    · intro t ht
      rcases List.mem_append.1 ht with ht | ht
      · exact h.flag t ht
      · rw [List.mem_singleton.1 ht]
    · intro t ht
      rcases List.mem_append.1 ht with ht | ht
      · exact h.pic t ht
      · rw [List.mem_singleton.1 ht]
        refine ⟨?_, ?_, ?_⟩ <;> intro _ hh <;> cases hh
  · exact h

theorem fresh_calibrate {s : St K} (h : Fresh s) (h0 : s.threads = []) (k : K) (i : ℕ) : Fresh (s.calibrate k i) := by
  refine fresh_select (s := { s with calib := some k, cam := k, map := none, und := fun j => if j ∈ s.images then none else s.und j })
    ⟨h.lt, by simp [h0], ?_, by simp, ?_, by simp [h0], by simp [h0]⟩ i
  · intro k' hk
    exact Option.some.inj hk
  · intro j hj p hp
    have hj' : j ∈ s.images := hj
    simp [hj'] at hp

theorem fresh_work {s : St K} (h : Fresh s) (n : ℕ) : Fresh (s.work n) := by
  cases hk : s.threads[n]? with
  | none =>
    simp only [St.work, hk]
    exact h
  | some t =>
    have hm : t ∈ s.threads := List.mem_of_getElem? hk
    have f1 := h.flag t hm
    have p1 := h.pic t hm
    have l1 := h.thrlt t hm
    have er : Fresh { s with threads := s.threads.eraseIdx n } :=
      ⟨h.lt, fun t ht => h.thrlt t (List.mem_of_mem_eraseIdx ht), h.cam, h.map, h.und, fun t ht => h.flag t (List.mem_of_mem_eraseIdx ht),
        fun t ht => h.pic t (List.mem_of_mem_eraseIdx ht)⟩
    have st : ∀ (pc : Pc K) (m : Option K), (∀ k, m = some k → s.calib = some k) → ((∀ k, pc = .mapped k → s.calib = some k) ∧
        (∀ k, pc = .found k → s.calib = some k) ∧ ∀ p, pc = .corrected p → p = s.calib) →
        Fresh { s with map := m, threads := s.threads.set n ⟨t.img, t.camera, pc⟩ } := by
      intro pc m hmap hpc
      refine ⟨h.lt, ?_, h.cam, hmap, h.und, ?_, ?_⟩
      all_goals
        intro x hx
        rcases List.mem_or_eq_of_mem_set hx with hx | rfl
      · exact h.thrlt x hx
      · exact l1
      · exact h.flag x hx
      · exact f1
      · exact h.pic x hx
      · exact hpc
    obtain ⟨i, c, pc⟩ := t
    cases pc with
    | begin =>
      simp only [St.work, hk]
      exact st .loaded s.map h.map ⟨by simp, by simp, by simp⟩
    | loaded =>
      cases hu : s.und i with
      | none =>
        simp only [St.work, hk, hu]
        exact st .missing s.map h.map ⟨by simp, by simp, by simp⟩
      | some p =>
        simp only [St.work, hk, hu]
        exact er
    | missing =>
      simp only at f1
      cases c with
      | false =>
        simp only [St.work, hk]
        refine st (.corrected none) s.map h.map ⟨by simp, by simp, fun p hp => ?_⟩
        cases hp
        cases hc : s.calib with
        | none => rfl
        | some k =>
          rw [hc] at f1
          simp at f1
      | true =>
        cases hc : s.calib with
        | none =>
          rw [hc] at f1
          simp at f1
        | some k =>
          cases hmap : s.map with
          | none =>
            simp only [St.work, hk, hmap]
            have := st (.mapped s.cam) none (by simp) ⟨fun k' hp => by cases hp; rw [hc, h.cam k hc], by simp, by simp⟩
            exact this
          | some k' =>
            simp only [St.work, hk, hmap]
            have := st (.found k') (some k') (fun k hk => by cases hk; exact h.map _ hmap)
              ⟨by simp, fun k hp => by cases hp; exact h.map _ hmap, by simp⟩
            exact this
    | mapped k =>
      simp only [St.work, hk]
      have := p1.1 k rfl
      exact st (.found k) (some k) (fun k' hk => by cases hk; exact this) ⟨by simp, fun k' hp => by cases hp; exact this, by simp⟩
    | found k =>
      simp only [St.work, hk]
      have := p1.2.1 k rfl
      exact st (.corrected (some k)) s.map h.map ⟨by simp, by simp, fun p hp => by cases hp; exact this.symm⟩
    | corrected p =>
      simp only [St.work, hk]
      have := p1.2.2 p rfl
      refine ⟨er.lt, er.thrlt, er.cam, er.map, ?_, er.flag, er.pic⟩
      intro j hj q hq
      by_cases e : j = i
      · subst e
        simp only [Function.update_self, Option.some.injEq] at hq
        rw [← hq]
        exact this
      · simp only [Function.update_of_ne e] at hq
        exact h.und j hj q hq

theorem fresh_after {k0 : K} : ∀ {as : List (Act K)}, Calm k0 as → Fresh (after k0 as)
  | [], _ => by constructor <;> simp [after, St.init]
  | a :: as, h => by
    have ih := fresh_after h.1
    show Fresh ((after k0 as).act a)
    cases a with
    | select i => exact fresh_select ih i
    | calibrate k i => exact fresh_calibrate ih (h.2 k i rfl) k i
    | add =>
      refine ⟨?_, fun t ht => (ih.thrlt t ht).trans (Nat.lt_succ_self _), ih.cam, ih.map, ?_, ih.flag, ih.pic⟩
      · intro i hi
        rcases List.mem_append.1 hi with hi | hi
        · exact (ih.lt i hi).trans (Nat.lt_succ_self _)
        · rw [List.mem_singleton.1 hi]
          exact Nat.lt_succ_self _
      · intro i hi p hp
        rcases List.mem_append.1 hi with hi | hi
        · have e : i ≠ (after k0 as).count := (ih.lt i hi).ne
          simp only [St.act, St.add, Function.update_of_ne e] at hp
          exact ih.und i hi p hp
        · rw [List.mem_singleton.1 hi] at hp
          simp [St.act, St.add] at hp
    | clear => exact ⟨by simp [St.act, St.clear], ih.thrlt, ih.cam, ih.map, by simp [St.act, St.clear], ih.flag, ih.pic⟩
    | work n => exact fresh_work ih n

/-- An image has a corrected picture, or a thread is about to make one. -/
def Coming (s : St K) (i : ℕ) : Prop := s.und i ≠ none ∨ ∃ t ∈ s.threads, t.img = i

theorem coming_work {s : St K} {i : ℕ} (h : Coming s i) (n : ℕ) : Coming (s.work n) i := by
  cases hk : s.threads[n]? with
  | none =>
    simp only [St.work, hk]
    exact h
  | some t =>
    have other : ∀ x ∈ s.threads, x.img = i → t.img ≠ i → x ∈ s.threads.eraseIdx n := by
      intro x hx h1 h2
      obtain ⟨j, hj, rfl⟩ := List.mem_iff_getElem.1 hx
      rw [List.mem_eraseIdx_iff_getElem]
      refine ⟨j, hj, ?_, rfl⟩
      rintro rfl
      rw [List.getElem?_eq_getElem hj] at hk
      rw [Option.some.inj hk] at h1
      exact h2 h1
    have st : ∀ (c : Bool) (pc : Pc K) (m : Option K), Coming { s with map := m, threads := s.threads.set n ⟨t.img, c, pc⟩ } i := by
      intro c pc m
      rcases h with h | ⟨x, hx, h1⟩
      · exact Or.inl h
      · by_cases e : t.img = i
        · exact Or.inr ⟨_, List.mem_set (List.getElem?_eq_some_iff.1 hk).1 _, e⟩
        · refine Or.inr ⟨x, ?_, h1⟩
          obtain ⟨j, hj, rfl⟩ := List.mem_iff_getElem.1 hx
          refine List.mem_iff_getElem.2 ⟨j, by simpa using hj, ?_⟩
          rw [List.getElem_set_ne]
          rintro rfl
          rw [List.getElem?_eq_getElem hj] at hk
          rw [Option.some.inj hk] at h1
          exact e h1
    obtain ⟨j, c, pc⟩ := t
    cases pc with
    | begin =>
      simp only [St.work, hk]
      exact st c .loaded s.map
    | loaded =>
      cases hu : s.und j with
      | none =>
        simp only [St.work, hk, hu]
        exact st c .missing s.map
      | some p =>
        simp only [St.work, hk, hu]
        by_cases e : j = i
        · left
          show s.und i ≠ none
          rw [← e, hu]
          simp
        · rcases h with h | ⟨x, hx, h1⟩
          · exact Or.inl h
          · exact Or.inr ⟨x, other x hx h1 e, h1⟩
    | missing =>
      cases c with
      | false =>
        simp only [St.work, hk]
        exact st false (.corrected none) s.map
      | true =>
        cases hmap : s.map with
        | none =>
          simp only [St.work, hk, hmap]
          have := st true (.mapped s.cam) none
          rw [← hmap] at this
          exact this
        | some k' =>
          simp only [St.work, hk, hmap]
          have := st true (.found k') (some k')
          rw [← hmap] at this
          exact this
    | mapped k =>
      simp only [St.work, hk]
      exact st c (.found k) (some k)
    | found k =>
      simp only [St.work, hk]
      exact st c (.corrected (some k)) s.map
    | corrected p =>
      simp only [St.work, hk]
      by_cases e : j = i
      · left
        subst e
        simp
      · rcases h with h | ⟨x, hx, h1⟩
        · left
          have e' : i ≠ j := fun hh => e hh.symm
          simpa [Function.update_of_ne e'] using h
        · exact Or.inr ⟨x, other x hx h1 e, h1⟩

end CalLoad

open CalLoad

/-- **C137, partial.**  In every history in which calibrations are fitted or loaded only while no image is being loaded: at every time, the
corrected picture that an image of the list keeps was computed with the calibration of the window (and is the picture itself as long as
there is none). -/
theorem C137_fresh_partial {K : Type} (k0 : K) (as : List (Act K)) (h : Calm k0 as) (i : ℕ) (hi : i ∈ (after k0 as).images) (p : Pic K)
    (hp : (after k0 as).und i = some p) : p = (after k0 as).calib := (fresh_after h).und i hi p hp

/-- **C137, partial.**  After such a history, when an image of the list is selected and the threads have run to their end, the image has
a corrected picture and it is that of the calibration. -/
theorem C137_shown_partial {K : Type} (k0 : K) (as : List (Act K)) (h : Calm k0 as) (i : ℕ) (hi : i ∈ (after k0 as).images) (ns : List ℕ)
    (hend : (ns.foldl St.work ((after k0 as).select i)).threads = []) :
    (ns.foldl St.work ((after k0 as).select i)).und i = some (after k0 as).calib := by
  have key : ∀ (ns : List ℕ) (s : St K), Fresh s → Coming s i → Fresh (ns.foldl St.work s) ∧ Coming (ns.foldl St.work s) i ∧
      (ns.foldl St.work s).images = s.images ∧ (ns.foldl St.work s).calib = s.calib := by
    intro ns
    induction ns with
    | nil => exact fun s h1 h2 => ⟨h1, h2, rfl, rfl⟩
    | cons n ns ih =>
      intro s h1 h2
      obtain ⟨a1, a2, a3, a4⟩ := ih (s.work n) (fresh_work h1 n) (coming_work h2 n)
      have : (s.work n).images = s.images ∧ (s.work n).calib = s.calib := by
        unfold St.work
        split <;> (try split) <;> exact ⟨rfl, rfl⟩
      exact ⟨a1, a2, a3.trans this.1, a4.trans this.2⟩
  have e : (after k0 as).select i = { after k0 as with threads := (after k0 as).threads ++ [⟨i, (after k0 as).calib.isSome, .begin⟩] } := by
    unfold St.select
    rw [if_pos hi]
  obtain ⟨f, c, h3, h4⟩ := key ns _ (fresh_select (fresh_after h) i)
    (Or.inr ⟨⟨i, (after k0 as).calib.isSome, .begin⟩, by rw [e]; simp, rfl⟩)
  rcases c with c | ⟨t, ht, -⟩
  · cases hu : (ns.foldl St.work ((after k0 as).select i)).und i with
    | none => exact absurd hu c
    | some p =>
      have hp := f.und i (by rw [h3, e]; exact hi) p hu
      rw [hp, h4, e]
  · rw [hend] at ht
    simp at ht

/-- **C137 violated.**  A calibration that comes while an image is being loaded: the picture corrected with the old calibration stays, and
so does the old map, with which every image that is selected later is then corrected.  For any two calibrations, at the end nothing runs
and the second calibration is the current one, but both images were corrected with the first one. -/
theorem C137_stale_violated {K : Type} (k0 k1 k2 : K) :
    ∃ as : List (Act K), let s := after k0 as
      s.threads = [] ∧ s.images = [0, 1] ∧ s.calib = some k2 ∧ s.cam = k2 ∧ s.und 0 = some (some k1) ∧ s.und 1 = some (some k1) := by
  refine ⟨([.add, .add, .calibrate k1 0, .work 0, .work 0, .work 0, .calibrate k2 0, .work 0, .work 0, .work 0, .work 0, .work 0,
    .select 1, .work 0, .work 0, .work 0, .work 0, .work 0] : List (Act K)).reverse, ?_⟩
  simp [after, St.act, St.init, St.add, St.calibrate, St.select, St.work]

/-- **C137 violated.**  A picture that was being loaded before the first calibration stays uncorrected. -/
theorem C137_raw_violated {K : Type} (k0 k : K) :
    ∃ as : List (Act K), let s := after k0 as
      s.threads = [] ∧ s.images = [0] ∧ s.calib = some k ∧ s.und 0 = some none := by
  refine ⟨([.add, .select 0, .work 0, .calibrate k 0, .work 0, .work 0, .work 0, .work 0, .work 0] : List (Act K)).reverse, ?_⟩
  simp [after, St.act, St.init, St.add, St.calibrate, St.select, St.work]

/-- The hypotheses can be met: an image is loaded, a calibration comes, and the image is loaded again. -/
example (k0 k : Unit) : ∃ as : List (Act Unit), Calm k0 as ∧ 0 ∈ (after k0 as).images ∧ (after k0 as).calib = some k ∧
    ∃ ns : List ℕ, (ns.foldl St.work ((after k0 as).select 0)).threads = [] := by
  refine ⟨([.add, .select 0, .work 0, .work 0, .work 0, .work 0, .calibrate k 0, .work 0, .work 0, .work 0, .work 0, .work 0, .work 0] :
    List (Act Unit)).reverse, ?_, ?_, ?_, [0, 0], ?_⟩
  · simp [Calm, St.act, St.init, St.add, St.select, St.work]
  all_goals simp [after, St.act, St.init, St.add, St.calibrate, St.select, St.work]
