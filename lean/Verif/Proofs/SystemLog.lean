import Verif.Proofs.SystemCam
import Verif.Spec.System

/-! The state agrees with the log. -/

set_option linter.constructorNameAsVariable false

open Classical

namespace Sys

theorem initialO_eq (f : OField) : initialO f = f.default := by cases f <;> rfl

theorem initialP_eq (f : PField) : initialP f = f.default := by cases f <;> rfl

/-- What the wrap of the heading does to the parameter. -/
noncomputable def wrapP (x : Param) : Param :=
  if x.read.getD 0 < -360 ∨ x.read.getD 0 > 360 then
    { x with value := some (Spatial.pymod (x.read.getD 0) 360), mean := none, state := .userSet, boxed := false }
  else x

theorem wrapP_idem (x : Param) : wrapP (wrapP x) = wrapP x := by
  by_cases h : x.read.getD 0 < -360 ∨ x.read.getD 0 > 360
  · have e : wrapP x = { x with value := some (Spatial.pymod (x.read.getD 0) 360), mean := none, state := .userSet, boxed := false } := by
      unfold wrapP; rw [if_pos h]
    have hr : (wrapP x).read.getD 0 = Spatial.pymod (x.read.getD 0) 360 := by rw [e]; rfl
    have hm := pymod_range (x.read.getD 0)
    have key : ∀ y : Param, ¬ (y.read.getD 0 < -360 ∨ y.read.getD 0 > 360) → wrapP y = y := fun y hy => by unfold wrapP; rw [if_neg hy]
    apply key
    rw [hr]
    rintro (h | h) <;> linarith [hm.1, hm.2]
  · have e : wrapP x = x := by unfold wrapP; rw [if_neg h]
    rw [e, e]

theorem runMatrix_par_turn (s : St) (o : ℕ) : (s.runMatrix o).par (.o o .turn) =
    if s.orients o ≠ none then wrapP (s.par (.o o .turn)) else s.par (.o o .turn) := by
  unfold St.runMatrix
  cases h : s.orients o with
  | none => simp
  | some O =>
    simp only [ne_eq, reduceCtorEq, not_false_eq_true, if_true]
    unfold St.wrapTurn wrapP St.rd
    split_ifs <;> simp

/-- The parameters after the callbacks `A`. -/
noncomputable def after (s : St) (A : Cb → Prop) (q : Pid) : Param := match q with
  | .o o .turn => if A (.matrix o) ∧ s.orients o ≠ none then wrapP (s.par q) else s.par q
  | .p p .fx => if A (.focal p) then { s.par q with value := (s.par (.p p .f)).value, boxed := (s.par (.p p .f)).boxed } else s.par q
  | .p p .fy => if A (.focal p) then { s.par q with value := (s.par (.p p .f)).value, boxed := (s.par (.p p .f)).boxed } else s.par q
  | _ => s.par q

theorem runSimple_par' {s : St} {p : ℕ} {g : PField} (h : ∀ o, (s.par (.p p g)).callback ≠ some (.matrix o)) :
    (s.runSimple (s.par (.p p g)).callback).par = s.par := by
  cases e : (s.par (.p p g)).callback with
  | none => rfl
  | some cb =>
    cases cb with
    | matrix o => exact absurd e (h o)
    | lens l => exact runLens_par s l
    | focal p => rfl

theorem copyF_par {s : St} {p : ℕ} {g : PField} (h : ∀ o, (s.par (.p p g)).callback ≠ some (.matrix o)) (q : Pid) :
    (s.copyF p g).par q = if q = .p p g then { s.par q with value := (s.par (.p p .f)).value, boxed := (s.par (.p p .f)).boxed } else s.par q := by
  unfold St.copyF
  have hc : ((s.mod (.p p g) fun q => { q with value := (s.par (.p p .f)).value, boxed := (s.par (.p p .f)).boxed }).par (.p p g)).callback =
    (s.par (.p p g)).callback := by simp
  simp only
  rw [runSimple_par' (by rw [hc]; exact h), mod_par]
  split_ifs with e
  · rw [e]
  · rfl

theorem run_par {s : St} (hpcb : ∀ p g o, (s.par (.p p g)).callback ≠ some (.matrix o)) (cb : Cb) (q : Pid) :
    (s.run cb).par q = after s (· = cb) q := by
  cases cb with
  | matrix o =>
    simp only [St.run]
    by_cases e : q = .o o .turn
    · rw [e, runMatrix_par_turn]; simp [after]
    · rw [runMatrix_par _ _ e]
      cases q with
      | o o' f =>
        cases f <;> simp only [after]
        rw [if_neg]; rintro ⟨h, -⟩; cases h; exact e rfl
      | p p f => cases f <;> simp [after]
      | _ => rfl
  | lens l =>
    simp only [St.run, runLens_par]
    cases q with
    | o o' f => cases f <;> simp [after]
    | p p f => cases f <;> simp [after]
    | _ => rfl
  | focal p =>
    simp only [St.run]
    have h1 : ∀ o, ((s.copyF p .fx).par (.p p .fy)).callback ≠ some (.matrix o) := by
      intro o; rw [copyF_par (hpcb p .fx)]; simpa using hpcb p .fy o
    rw [copyF_par h1, copyF_par (hpcb p .fx), copyF_par (hpcb p .fx)]
    cases q with
    | o o' f => cases f <;> simp [after]
    | p p' f =>
      cases f <;> simp only [after, Pid.p.injEq, reduceCtorEq, and_false, and_true, if_false, Cb.focal.injEq]
      all_goals
        by_cases e : p' = p
        · subst e; simp
        · simp [e]
    | _ => simp [after]

theorem after_comp {s s' : St} {A B : Cb → Prop} (h : ∀ q, s'.par q = after s A q) (ho : ∀ o, s'.orients o ≠ none ↔ s.orients o ≠ none) (q : Pid) :
    after s' B q = after s (fun cb => A cb ∨ B cb) q := by
  have hf : ∀ p, s'.par (.p p .f) = s.par (.p p .f) := fun p => h _
  cases q with
  | o o f =>
    cases f with
    | turn =>
      simp only [after, h, ho]
      by_cases h1 : A (.matrix o) <;> by_cases h2 : B (.matrix o) <;> by_cases h3 : s.orients o ≠ none <;> simp [h1, h2, h3, wrapP_idem]
    | _ => simp only [after, h]
  | p p f =>
    cases f with
    | fx => simp only [after, hf, h]; by_cases h1 : A (.focal p) <;> by_cases h2 : B (.focal p) <;> simp [h1, h2]
    | fy => simp only [after, hf, h]; by_cases h1 : A (.focal p) <;> by_cases h2 : B (.focal p) <;> simp [h1, h2]
    | _ => simp only [after, h]
  | _ => simp only [after, h]

theorem Pres.orients_iff {s s' : St} (h : Pres s s') (o : ℕ) : s'.orients o ≠ none ↔ s.orients o ≠ none := by
  have := h.orients o
  constructor
  · exact h.orients_ne
  · intro h2 h3; rw [h3] at this; cases e : s.orients o with
    | none => exact h2 e
    | some O => rw [e] at this; cases this

theorem runAll_par (order : List Cb) : ∀ {s : St}, (∀ p g o, (s.par (.p p g)).callback ≠ some (.matrix o)) →
    (∀ p, .focal p ∈ order → (s.par (.p p .f)).value.isSome) → ∀ q, (s.runAll order).par q = after s (· ∈ order) q := by
  induction order with
  | nil =>
    intro s _ _ q
    cases q with
    | o o f => cases f <;> simp [St.runAll, after]
    | p p f => cases f <;> simp [St.runAll, after]
    | _ => rfl
  | cons cb t ih =>
    intro s hp hf q
    have hpr : Pres s (s.run cb) := Pres.run cb fun p e => hf p (by simp [e])
    have e : s.runAll (cb :: t) = (s.run cb).runAll t := rfl
    rw [e, ih (fun p g o => by rw [hpr.cb]; exact hp p g o) (fun p h => hpr.fval p (hf p (by simp [h]))),
      after_comp (run_par hp cb) hpr.orients_iff]
    simp only [List.mem_cons]

/-- A focal length in one direction. -/
def IsF (g : PField) : Prop := g = .fx ∨ g = .fy

/-- The state agrees with the log. -/
structure Agree (s : St) (L : Log) : Prop where
  dflt : ∀ q, (s.par q).default = L.dflt q
  mean : ∀ q, ¬ IsTurn q → (s.par q).mean = L.mean q
  meanT : ∀ q, IsTurn q → ¬ L.exc q → (s.par q).mean = none ∧ L.mean q = none
  val : ∀ q, ¬ L.exc q → (s.par q).value = (L.val q).map (norm360 q)
  range : ∀ q, IsTurn q → ¬ L.exc q → L.val q = none → ∀ d, L.dflt q = some d → ¬ Out d
  user : ∀ q, (IsTurn q → ¬ L.exc q ∧ ¬ L.excFit q) → (((s.par q).state = .userSet ∧ (s.par q).value ≠ none) ↔ L.user q)
  exc : ∀ q, L.exc q → IsTurn q ∨ ∃ p g, IsF g ∧ q = .p p g
  mv : ∀ q, (s.par q).mean ≠ none → (s.par q).value ≠ none

theorem norm360_not {q : Pid} (h : ¬ IsTurn q) (x : ℝ) : norm360 q x = x := by
  unfold norm360; split
  · exact absurd trivial h
  · rfl

theorem norm360_eq {o : ℕ} (x : ℝ) : norm360 (.o o .turn) x = if Out x then x - 360 * ⌊x / 360⌋ else x := rfl

theorem pymod_eq (x : ℝ) : Spatial.pymod x 360 = x - 360 * ⌊x / 360⌋ := rfl

/-- The wrap of a heading that was just assigned. -/
theorem wrapP_value {x : Param} {v : ℝ} (h : x.value = some v) (o : ℕ) : (wrapP x).value = some (norm360 (.o o .turn) v) := by
  have hr : x.read.getD 0 = v := by unfold Param.read; rw [h]; rfl
  unfold wrapP
  rw [hr, norm360_eq]
  by_cases ho : Out v
  · rw [if_pos ho, if_pos (by rcases ho with h | h <;> [left; right] <;> exact h), pymod_eq]
  · rw [if_neg ho, if_neg (by rintro (h | h) <;> [exact ho (Or.inl h); exact ho (Or.inr h)]), h]

theorem wrapP_none {x : Param} (h : x.value = none) (hd : ∀ d, x.default = some d → ¬ Out d) : wrapP x = x := by
  unfold wrapP
  rw [if_neg]
  have hr : x.read = x.default := by unfold Param.read; rw [h]
  rw [hr]
  cases e : x.default with
  | none => norm_num
  | some d => intro h; exact hd d e (by rcases h with h | h <;> [left; right] <;> exact h)

theorem wrapP_in {x : Param} {v : ℝ} (h : x.value = some v) (hd : ¬ Out v) : wrapP x = x := by
  unfold wrapP
  rw [if_neg]
  have hr : x.read.getD 0 = v := by unfold Param.read; rw [h]; rfl
  rw [hr]
  intro h; exact hd (by rcases h with h | h <;> [left; right] <;> exact h)

theorem norm360_range (o : ℕ) (x : ℝ) : ¬ Out (norm360 (.o o .turn) x) := by
  rw [norm360_eq]
  split_ifs with h
  · rw [← pymod_eq]
    have := pymod_range x
    rintro (h | h) <;> linarith [this.1, this.2]
  · exact h

theorem wrapP_default (x : Param) : (wrapP x).default = x.default := by unfold wrapP; split_ifs <;> rfl

theorem norm360_idem (q : Pid) (x : ℝ) : norm360 q (norm360 q x) = norm360 q x := by
  by_cases h : IsTurn q
  · cases q with
    | o o f =>
      cases f with
      | turn => rw [norm360_eq (o := o) (norm360 _ x), if_neg (norm360_range o x)]
      | _ => exact h.elim
    | _ => exact h.elim
  · rw [norm360_not h]

/-- The state before the callbacks `order` agrees with the log afterwards. -/
structure Pre (s : St) (L : Log) (order : List Cb) : Prop where
  dflt : ∀ q, (s.par q).default = L.dflt q
  mean : ∀ q, ¬ IsTurn q → (s.par q).mean = L.mean q
  meanT : ∀ q, IsTurn q → ¬ L.exc q → (s.par q).mean = none ∧ L.mean q = none
  val : ∀ q, ¬ IsTurn q → (∀ p g, IsF g → q ≠ .p p g) → (s.par q).value = L.val q
  valT : ∀ o, ¬ L.exc (.o o .turn) →
    (s.par (.o o .turn)).value.map (norm360 (.o o .turn)) = (L.val (.o o .turn)).map (norm360 (.o o .turn)) ∧
    ∀ x, (s.par (.o o .turn)).value = some x → Out x → .matrix o ∈ order ∧ s.orients o ≠ none
  valF : ∀ p g, IsF g → ¬ L.exc (.p p g) →
    (.focal p ∈ order → (s.par (.p p .f)).value = L.val (.p p g)) ∧
    (.focal p ∉ order → (s.par (.p p g)).value = L.val (.p p g))
  range : ∀ q, IsTurn q → ¬ L.exc q → L.val q = none → ∀ d, L.dflt q = some d → ¬ Out d
  user : ∀ q, (IsTurn q → ¬ L.exc q ∧ ¬ L.excFit q) → (((s.par q).state = .userSet ∧ (s.par q).value ≠ none) ↔ L.user q)
  userT : ∀ o, ¬ L.exc (.o o .turn) → ¬ L.excFit (.o o .turn) → ∀ x, (s.par (.o o .turn)).value = some x → Out x →
    (s.par (.o o .turn)).state = .userSet
  exc : ∀ q, L.exc q → IsTurn q ∨ ∃ p g, IsF g ∧ q = .p p g
  mv : ∀ q, (s.par q).mean ≠ none → (s.par q).value ≠ none
  fval : ∀ p, .focal p ∈ order → ∀ g, IsF g ∨ g = .f → (s.par (.p p g)).value ≠ none

theorem isTurn_iff {q : Pid} : IsTurn q ↔ ∃ o, q = .o o .turn := by
  constructor
  · intro h; cases q with
    | o o f => cases f <;> first | exact ⟨o, rfl⟩ | exact h.elim
    | _ => exact h.elim
  · rintro ⟨o, rfl⟩; trivial

theorem after_turn (s : St) (A : Cb → Prop) (o : ℕ) : after s A (.o o .turn) =
    if A (.matrix o) ∧ s.orients o ≠ none then wrapP (s.par (.o o .turn)) else s.par (.o o .turn) := rfl

theorem after_f (s : St) (A : Cb → Prop) (p : ℕ) {g : PField} (h : IsF g) : after s A (.p p g) =
    if A (.focal p) then { s.par (.p p g) with value := (s.par (.p p .f)).value, boxed := (s.par (.p p .f)).boxed } else s.par (.p p g) := by
  rcases h with rfl | rfl <;> rfl

theorem after_other (s : St) (A : Cb → Prop) {q : Pid} (h : ¬ IsTurn q) (hg : ∀ p g, IsF g → q ≠ .p p g) : after s A q = s.par q := by
  cases q with
  | o o f => cases f <;> first | exact absurd trivial h | rfl
  | p p f => cases f <;> first | exact absurd rfl (hg p _ (Or.inl rfl)) | exact absurd rfl (hg p _ (Or.inr rfl)) | rfl
  | _ => rfl

/-- The three kinds of parameters. -/
theorem pid_cases (q : Pid) : (∃ o, q = .o o .turn) ∨ (∃ p g, IsF g ∧ q = .p p g) ∨ (¬ IsTurn q ∧ ∀ p g, IsF g → q ≠ .p p g) := by
  by_cases h : IsTurn q
  · exact Or.inl (isTurn_iff.1 h)
  · by_cases h2 : ∃ p g, IsF g ∧ q = .p p g
    · exact Or.inr (Or.inl h2)
    · refine Or.inr (Or.inr ⟨h, fun p g hg e => h2 ⟨p, g, hg, e⟩⟩)

theorem Pre.agree {s : St} {L : Log} {order : List Cb} (h : Pre s L order)
    (hpcb : ∀ p g o, (s.par (.p p g)).callback ≠ some (.matrix o)) : Agree (s.runAll order) L := by
  have hp : ∀ q, (s.runAll order).par q = after s (· ∈ order) q :=
    runAll_par order hpcb fun p hf => Option.isSome_iff_ne_none.2 (h.fval p hf .f (Or.inr rfl))
  -- the wrap is harmless where the log is followed
  have hw : ∀ o, ¬ L.exc (.o o .turn) → (wrapP (s.par (.o o .turn))).value = (s.par (.o o .turn)).value.map (norm360 (.o o .turn)) := by
    intro o he
    cases hv : (s.par (.o o .turn)).value with
    | some v => exact wrapP_value hv o
    | none =>
      rw [wrapP_none hv, hv]; rfl
      intro d hd
      have hL : L.val (.o o .turn) = none := by
        have := (h.valT o he).1; rw [hv] at this; simpa using this.symm
      rw [h.dflt] at hd
      exact h.range (.o o .turn) trivial he hL d hd
  refine ⟨?_, ?_, ?_, ?_, h.range, ?_, h.exc, ?_⟩
  · intro q
    rw [hp]
    rcases pid_cases q with ⟨o, rfl⟩ | ⟨p, g, hg, rfl⟩ | ⟨h1, h2⟩
    · rw [after_turn]; split_ifs
      · rw [wrapP_default, h.dflt]
      · rw [h.dflt]
    · rw [after_f _ _ _ hg]; split_ifs <;> exact h.dflt _
    · rw [after_other _ _ h1 h2, h.dflt]
  · intro q hq
    rw [hp]
    rcases pid_cases q with ⟨o, rfl⟩ | ⟨p, g, hg, rfl⟩ | ⟨h1, h2⟩
    · exact absurd trivial hq
    · rw [after_f _ _ _ hg]; split_ifs <;> exact h.mean _ hq
    · rw [after_other _ _ h1 h2, h.mean _ hq]
  · intro q hq he
    obtain ⟨o, rfl⟩ := isTurn_iff.1 hq
    refine ⟨?_, (h.meanT _ hq he).2⟩
    rw [hp, after_turn]
    split_ifs
    · unfold wrapP; split_ifs
      · rfl
      · exact (h.meanT _ hq he).1
    · exact (h.meanT _ hq he).1
  · intro q he
    rw [hp]
    rcases pid_cases q with ⟨o, rfl⟩ | ⟨p, g, hg, rfl⟩ | ⟨h1, h2⟩
    · rw [after_turn]
      split_ifs with hc
      · rw [hw o he]; exact (h.valT o he).1
      · rw [← (h.valT o he).1]
        cases hv : (s.par (.o o .turn)).value with
        | none => rfl
        | some x =>
          have hx : ¬ Out x := fun hx => hc ((h.valT o he).2 x hv hx)
          simp only [Option.map_some, norm360_eq, if_neg hx]
    · rw [after_f _ _ _ hg]
      have hn : ∀ x : Option ℝ, x.map (norm360 (.p p g)) = x := fun x => by
        have : norm360 (.p p g) = id := funext fun y => norm360_not (q := .p p g) (fun h => h) y
        rw [this]; simp
      rw [hn]
      split_ifs with hc
      · exact (h.valF p g hg he).1 hc
      · exact (h.valF p g hg he).2 hc
    · rw [after_other _ _ h1 h2, h.val q h1 h2]
      have : norm360 q = id := funext fun y => norm360_not h1 y
      rw [this]; simp
  · intro q hc
    rw [hp]
    rcases pid_cases q with ⟨o, rfl⟩ | ⟨p, g, hg, rfl⟩ | ⟨h1, h2⟩
    · obtain ⟨he, hf⟩ := hc trivial
      rw [after_turn]
      split_ifs with hm
      · rw [← h.user _ hc]
        cases hv : (s.par (.o o .turn)).value with
        | none =>
          have : (wrapP (s.par (.o o .turn))).value = none := by rw [hw o he, hv]; rfl
          simp [this]
        | some x =>
          by_cases ho : Out x
          · have e1 := h.userT o he hf x hv ho
            have e2 : (wrapP (s.par (.o o .turn))).value ≠ none := by rw [hw o he, hv]; simp
            have e3 : (wrapP (s.par (.o o .turn))).state = .userSet := by
              unfold wrapP; split_ifs
              · rfl
              · exact e1
            simp [e1, e2, e3]
          · rw [wrapP_in hv ho, hv]
      · exact h.user _ hc
    · rw [after_f _ _ _ hg]
      split_ifs with hm
      · rw [← h.user _ hc]
        have e1 := h.fval p hm g (Or.inl hg)
        have e2 := h.fval p hm .f (Or.inr rfl)
        simp [e1, e2]
      · exact h.user _ hc
    · rw [after_other _ _ h1 h2]; exact h.user _ hc
  · intro q
    rw [hp]
    rcases pid_cases q with ⟨o, rfl⟩ | ⟨p, g, hg, rfl⟩ | ⟨h1, h2⟩
    · rw [after_turn]
      split_ifs with hm
      · unfold wrapP; split_ifs
        · simp
        · exact h.mv _
      · exact h.mv _
    · rw [after_f _ _ _ hg]
      split_ifs with hm
      · intro _; exact h.fval p hm .f (Or.inr rfl)
      · exact h.mv _
    · rw [after_other _ _ h1 h2]; exact h.mv _

/-- The value of a heading that was not touched. -/
theorem Agree.turn {s : St} {L : Log} (h : Agree s L) {o : ℕ} (he : ¬ L.exc (.o o .turn)) :
    (s.par (.o o .turn)).value.map (norm360 (.o o .turn)) = (L.val (.o o .turn)).map (norm360 (.o o .turn)) ∧
    ∀ x, (s.par (.o o .turn)).value = some x → ¬ Out x := by
  have := h.val _ he
  rw [this]
  constructor
  · cases L.val (.o o .turn) with
    | none => rfl
    | some x => simp [norm360_idem]
  · intro x hx
    cases e : L.val (.o o .turn) with
    | none => rw [e] at hx; cases hx
    | some y => rw [e] at hx; cases hx; exact norm360_range o y

theorem Agree.plain {s : St} {L : Log} (h : Agree s L) {q : Pid} (hq : ¬ IsTurn q) (he : ¬ L.exc q) : (s.par q).value = L.val q := by
  rw [h.val q he]
  have : norm360 q = id := funext fun y => norm360_not hq y
  rw [this]; simp

theorem Agree.plain' {s : St} {L : Log} (h : Agree s L) {q : Pid} (hq : ¬ IsTurn q) (hg : ∀ p g, IsF g → q ≠ .p p g) :
    (s.par q).value = L.val q := by
  refine h.plain hq fun he => ?_
  rcases h.exc q he with h1 | ⟨p, g, h1, h2⟩
  · exact hq h1
  · exact hg p g h1 h2

theorem Agree.congr {s s' : St} {L : Log} (h : Agree s L) (hv : ∀ q, (s'.par q).value = (s.par q).value)
    (hd : ∀ q, (s'.par q).default = (s.par q).default) (hm : ∀ q, (s'.par q).mean = (s.par q).mean)
    (hs : ∀ q, (s'.par q).state = (s.par q).state) : Agree s' L where
  dflt q := by rw [hd]; exact h.dflt q
  mean q k := by rw [hm]; exact h.mean q k
  meanT q k := by rw [hm]; exact h.meanT q k
  val q k := by rw [hv]; exact h.val q k
  range := h.range
  user q k := by rw [hv, hs]; exact h.user q k
  exc := h.exc
  mv q := by rw [hv, hm]; exact h.mv q

end Sys
