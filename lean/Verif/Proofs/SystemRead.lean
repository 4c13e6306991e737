import Verif.Proofs.SystemEx

/-! Reading after writing. -/

set_option linter.constructorNameAsVariable false

open Classical

namespace Sys

theorem Pres.dict {s s' : St} (h : Pres s s') (v : View) : s'.dict v = s.dict v := by
  cases v with
  | orient o =>
    have := h.orients o
    simp only [St.dict]
    cases e : s.orients o <;> cases e' : s'.orients o <;> rw [e, e'] at this <;>
      simp only [Option.map_some, Option.map_none, reduceCtorEq, Option.some.injEq] at this ⊢
    rw [this]
  | proj p => simp only [St.dict, h.projs]
  | lens l =>
    have := h.lenses l
    simp only [St.dict]
    cases e : s.lenses l <;> cases e' : s'.lenses l <;> rw [e, e'] at this <;>
      simp only [Option.map_some, Option.map_none, reduceCtorEq, Option.some.injEq, Prod.mk.injEq] at this ⊢
    rw [this.1, this.2]
  | cam c => simp only [St.dict, h.cams]
  | group g => simp only [St.dict, h.groups]

theorem getattr_eq {s : St} {v : View} (h : Plain s v) (n : String) :
    s.getattr v n = ((s.dict v).lookup n).map fun q => (s.par q).read := by
  cases v with
  | proj p =>
    cases e : s.projs p with
    | none => simp only [St.getattr, e]
    | some P =>
      obtain ⟨k, a⟩ := P
      have := h p _ rfl e
      simp only at this
      subst this
      simp only [St.getattr, e]
  | _ => rfl

theorem plain_cam (s : St) (c : ℕ) : Plain s (.cam c) := fun _ _ h => by cases h
theorem plain_orient (s : St) (c : ℕ) : Plain s (.orient c) := fun _ _ h => by cases h
theorem plain_lens (s : St) (c : ℕ) : Plain s (.lens c) := fun _ _ h => by cases h

/-- Reading another name than the hidden ones. -/
theorem getattr_other {s : St} {v : View} {n : String} (h1 : n ≠ PField.name .iw) (h2 : n ≠ PField.name .ih) :
    s.getattr v n = ((s.dict v).lookup n).map fun q => (s.par q).read := by
  cases v with
  | proj p =>
    cases e : s.projs p with
    | none => simp only [St.getattr, e]
    | some P =>
      obtain ⟨k, a⟩ := P
      cases a with
      | none => simp only [St.getattr, e]
      | some wh =>
        obtain ⟨w, h⟩ := wh
        simp only [St.getattr, e, if_neg h1, if_neg h2]
  | _ => rfl

theorem read_val {x : Param} {v : ℝ} (h : x.value = some v) : x.read = some v := by unfold Param.read; rw [h]

theorem wrapP_none_in {x : Param} (h : ¬ Out (x.read.getD 0)) : wrapP x = x := by
  unfold wrapP
  rw [if_neg]
  intro h2; exact h (by rcases h2 with h | h <;> [left; right] <;> exact h)

/-- The callback of a heading or a focal length. -/
theorem after_one {s : St} {q : Pid} {A : Cb → Prop} (hf : ∀ p g, IsF g → q = .p p g → ¬ A (.focal p)) :
    after s A q = s.par q ∨ (IsTurn q ∧ after s A q = wrapP (s.par q)) := by
  rcases pid_cases q with ⟨o, rfl⟩ | ⟨p, g, hg, rfl⟩ | ⟨h1, h2⟩
  · rw [after_turn]; split_ifs
    · exact Or.inr ⟨trivial, rfl⟩
    · exact Or.inl rfl
  · left; rw [after_f _ _ _ hg, if_neg (hf p g hg rfl)]
  · exact Or.inl (after_other _ _ h1 h2)

theorem Reach.struct {s : St} (h : Reach s) : Struct s := h.inv.struct

/-- Reading what was just assigned. -/
theorem set_read {s : St} (hr : Reach s) {v : View} {n : String} {q : Pid} (hl : (s.dict v).lookup n = some q) (x : ℝ) (b : Bool) :
    ((s.step (.set v n (some x) b)).par q).value = some (norm360 q x) ∧ ((s.step (.set v n (some x) b)).par q).mean = none ∧
      ((s.step (.set v n (some x) b)).par q).state = .userSet := by
  have hc := hr.dicts.lookup_created hl
  rw [set_par hr.struct hl]
  rcases pid_cases q with ⟨o, rfl⟩ | ⟨p, g, hg, rfl⟩ | ⟨h1, h2⟩
  · have ho : s.orients o ≠ none := hc
    rw [after_turn, if_pos ⟨hr.struct.ocb o ho .turn, ho⟩]
    simp only [mod_par, if_true]
    refine ⟨wrapP_value rfl o, ?_, ?_⟩
    · unfold wrapP; split_ifs <;> rfl
    · unfold wrapP; split_ifs <;> rfl
  · rw [after_f _ _ _ hg, if_neg]
    · simp only [mod_par, if_true]
      exact ⟨by rw [norm360_not not_turn_p], trivial, trivial⟩
    · intro h
      have := (focal_iff hr.struct hc p).1 h
      rcases hg with rfl | rfl <;> cases this
  · rw [after_other _ _ h1 h2]
    simp only [mod_par, if_true]
    exact ⟨by rw [norm360_not h1], trivial, trivial⟩

/-- An assignment changes no other parameter; except `focallength_px`, which changes the two focal lengths. -/
theorem set_other {s : St} (hr : Reach s) {v : View} {n : String} {q q' : Pid} (hl : (s.dict v).lookup n = some q) (x : Option ℝ) (b : Bool)
    (hne : q' ≠ q) (hf : ∀ p g, IsF g → q = .p p .f → q' ≠ .p p g) :
    (s.step (.set v n x b)).par q' = s.par q' := by
  have hc := hr.dicts.lookup_created hl
  rw [set_par hr.struct hl]
  have e : ∀ y, (s.mod q y).par q' = s.par q' := fun y => by rw [mod_par, if_neg hne]
  rcases after_one (s := s.mod q fun y => { y with mean := none, value := x, state := .userSet, boxed := b }) (q := q')
    (A := fun c => (s.par q).callback = some c)
    (fun p g hg e1 h => hf p g hg ((focal_iff hr.struct hc p).1 h) e1) with h | ⟨ht, h⟩
  · rw [h, e]
  · obtain ⟨o, rfl⟩ := isTurn_iff.1 ht
    rw [after_turn]
    split_ifs with hm
    · rw [e]
      obtain ⟨O, hO⟩ := Option.ne_none_iff_exists'.1 hm.2
      have := ((hr.inv.fresh o) O hO).2
      exact wrapP_none_in (by
        rintro (h | h)
        · exact absurd this.1 (not_le.2 h)
        · exact absurd this.2 (not_le.2 h))
    · rw [e]

/-- Sampling or going to the mean makes the focal lengths equal to `focallength_px`. -/
theorem focal_in_order {s : St} (hr : Reach s) {v : View} {order : List Cb} (hord : IsOrder order (s.allCallbacks (s.dict v))) {p : ℕ}
    {n : String} (hl : (s.dict v).lookup n = some (.p p .f)) : .focal p ∈ order := by
  rw [order_mem hord]
  exact ⟨_, ⟨_, lookup_mem hl⟩, (focal_iff hr.struct (hr.dicts.lookup_created hl) p).2 rfl⟩

theorem read_value {s : St} (hr : Reach s) {p : ℕ} (hp : s.projs p ≠ none) {g : PField} (hg : g.default = none) :
    (s.par (.p p g)).read = (s.par (.p p g)).value := by
  obtain ⟨v, h⟩ := Option.isSome_iff_exists.1 (hr.struct.gval p hp g hg)
  rw [h, read_val h]

theorem rd_of_read {s : St} {q : Pid} {x : ℝ} (h : (s.par q).read = some x) : s.rd q = x := by unfold St.rd; rw [h]; rfl

theorem read_rd {s : St} (hr : Reach s) (q : Pid) : (s.par q).read = some (s.rd q) := by
  obtain ⟨v, h⟩ := Option.isSome_iff_exists.1 (hr.struct.valid q)
  rw [rd_of_read h, h]

end Sys
