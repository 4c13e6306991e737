import Verif.Proofs.SystemLog

/-! Every operation keeps the agreement between the state and the log. -/

set_option linter.constructorNameAsVariable false

open Classical

namespace Sys

theorem spread_f (w : Pid → Option (Option ℝ)) (old : Pid → Option ℝ) (p : ℕ) {g : PField} (h : IsF g) :
    spread w old (.p p g) = ((w (.p p .f)).or (w (.p p g))).getD (old (.p p g)) := by
  rcases h with rfl | rfl <;> rfl

theorem spread_other (w : Pid → Option (Option ℝ)) (old : Pid → Option ℝ) {q : Pid} (h : ∀ p g, IsF g → q ≠ .p p g) :
    spread w old q = (w q).getD (old q) := by
  cases q with
  | p p f => cases f <;> first | exact absurd rfl (h p _ (Or.inl rfl)) | exact absurd rfl (h p _ (Or.inr rfl)) | rfl
  | _ => rfl

theorem turn_not_f {o : ℕ} : ∀ p g, IsF g → Pid.o o .turn ≠ .p p g := fun _ _ _ h => by cases h

theorem f_not_f {q : ℕ} : ∀ p g, IsF g → Pid.p q .f ≠ .p p g := by
  rintro p g (rfl | rfl) h <;> cases h

theorem not_turn_p {p : ℕ} {g : PField} : ¬ IsTurn (.p p g) := fun h => h

theorem IsF.default {g : PField} (h : IsF g) : g.default = none := by rcases h with rfl | rfl <;> rfl

theorem IsF.ne {g : PField} (h : IsF g) : g ≠ .f := by rcases h with rfl | rfl <;> simp

/-- Which callback of `focallength_px` runs. -/
theorem focal_iff {s : St} (hs : Struct s) {q : Pid} (hc : Created s q) (p : ℕ) : (s.par q).callback = some (.focal p) ↔ q = .p p .f := by
  constructor
  · intro h; exact (hs.focal q p h).1
  · rintro rfl; exact hs.pf p hc

theorem Agree.write {s s' : St} {L L' : Log} {order : List Cb} {W : Pid → Option (Option ℝ)} (hs : Struct s) (h : Agree s L)
    (hv : ∀ q, (s'.par q).value = (W q).getD (s.par q).value)
    (hd : ∀ q, (s'.par q).default = (s.par q).default)
    (hm : ∀ q, ¬ IsTurn q → (s'.par q).mean = L'.mean q)
    (hcb : ∀ q, (s'.par q).callback = (s.par q).callback)
    (ho : s'.orients = s.orients)
    (hLv : L'.val = spread W L.val) (hLd : L'.dflt = L.dflt)
    (hcr : ∀ q, W q ≠ none → Created s q)
    (hord : ∀ q cb, W q ≠ none → (s.par q).callback = some cb → cb ∈ order)
    (hfo : ∀ p, .focal p ∈ order → s.projs p ≠ none)
    (hnone : ∀ p (g : PField), g.default = none → W (.p p g) ≠ some none)
    (meanT : ∀ q, IsTurn q → ¬ L'.exc q → (s'.par q).mean = none ∧ L'.mean q = none)
    (range : ∀ q, IsTurn q → ¬ L'.exc q → W q = some none → ∀ d, L.dflt q = some d → ¬ Out d)
    (exc : ∀ q, L'.exc q → IsTurn q ∨ ∃ p g, IsF g ∧ q = .p p g)
    (excT : ∀ q, IsTurn q → ¬ L'.exc q → W q = none → ¬ L.exc q)
    (excF : ∀ p g, IsF g → ¬ L'.exc (.p p g) → W (.p p g) = none → W (.p p .f) = none → ¬ L.exc (.p p g))
    (fsplit : ∀ p g, IsF g → ¬ L'.exc (.p p g) → .focal p ∈ order → W (.p p .f) = none → L'.val (.p p g) = L'.val (.p p .f))
    (user : ∀ q, (IsTurn q → ¬ L'.exc q ∧ ¬ L'.excFit q) → (((s'.par q).state = .userSet ∧ (s'.par q).value ≠ none) ↔ L'.user q))
    (userT : ∀ o x, ¬ L'.exc (.o o .turn) → ¬ L'.excFit (.o o .turn) → W (.o o .turn) = some (some x) → Out x →
      (s'.par (.o o .turn)).state = .userSet)
    (mv : ∀ q, (s'.par q).mean ≠ none → (s'.par q).value ≠ none) : Agree (s'.runAll order) L' := by
  have hval : ∀ q, ¬ IsTurn q → (∀ p g, IsF g → q ≠ .p p g) → (s'.par q).value = L'.val q := by
    intro q hq hg
    rw [hv, hLv, spread_other _ _ hg, h.plain' hq hg]
  refine Pre.agree ⟨?_, hm, meanT, hval, ?_, ?_, ?_, user, ?_, exc, mv, ?_⟩ fun p g o => by rw [hcb]; exact hs.pcb p g o
  · intro q; rw [hd, hLd]; exact h.dflt q
  · intro o he
    rw [hv, hLv, spread_other _ _ turn_not_f, ho]
    cases hw : W (.o o .turn) with
    | none =>
      have he' := excT (.o o .turn) trivial he hw
      exact ⟨(h.turn he').1, fun y hy ho => absurd ho ((h.turn he').2 y hy)⟩
    | some x =>
      refine ⟨rfl, fun y hy _ => ?_⟩
      have hc : s.orients o ≠ none := hcr (.o o .turn) (by rw [hw]; simp)
      exact ⟨hord _ _ (by rw [hw]; simp) (hs.ocb o hc .turn), hc⟩
  · intro p g hg he
    have hf : (s'.par (.p p .f)).value = L'.val (.p p .f) := hval _ not_turn_p f_not_f
    refine ⟨fun hmem => ?_, fun hmem => ?_⟩
    · cases hw : W (.p p .f) with
      | none => rw [fsplit p g hg he hmem hw, hf]
      | some x => rw [hf, hLv, spread_f _ _ _ hg, spread_other _ _ f_not_f, hw]; rfl
    · have hw : W (.p p .f) = none := by
        by_contra hw
        exact hmem (hord _ _ hw (hs.pf p (hcr _ hw)))
      rw [hv, hLv, spread_f _ _ _ hg, hw]
      cases hw' : W (.p p g) with
      | none => exact h.plain not_turn_p (excF p g hg he hw' hw)
      | some x => rfl
  · intro q hq he hvn d hdf
    have hg : ∀ p g, IsF g → q ≠ .p p g := by obtain ⟨o, rfl⟩ := isTurn_iff.1 hq; exact turn_not_f
    rw [hLd] at hdf
    rw [hLv, spread_other _ _ hg] at hvn
    cases hw : W q with
    | none => rw [hw] at hvn; exact h.range q hq (excT q hq he hw) hvn d hdf
    | some x => rw [hw] at hvn; cases hvn; exact range q hq he hw d hdf
  · intro o he hf y hy hout
    cases hw : W (.o o .turn) with
    | none =>
      rw [hv, hw] at hy
      exact absurd hout ((h.turn (excT (.o o .turn) trivial he hw)).2 y hy)
    | some x =>
      rw [hv, hw] at hy
      cases hy
      exact userT o y he hf hw hout
  · intro p hmem g hg
    have hgd : g.default = none := by
      rcases hg with hg | rfl
      · exact hg.default
      · rfl
    rw [hv]
    cases hw : W (.p p g) with
    | none => exact Option.isSome_iff_ne_none.1 (hs.gval p (hfo p hmem) g hgd)
    | some x =>
      cases x with
      | none => exact absurd hw (hnone p g hgd)
      | some x => simp

theorem ite_some_none {c : Prop} [Decidable c] {α : Type} {a : α} : (if c then some a else none) ≠ none ↔ c := by
  split_ifs with h <;> simp [h]

theorem Agree.set {s : St} {L : Log} (hs : Struct s) (hd : Dicts s) (h : Agree s L) {v : View} {n : String} {x : Option ℝ} {b : Bool}
    (hok : s.ok (.set v n x b)) : Agree (s.step (.set v n x b)) (L.step s.dict (.set v n x b)) := by
  simp only [St.step, Log.step]
  cases hl : (s.dict v).lookup n with
  | none => exact h
  | some q0 =>
    have hcr : Created s q0 := hd.created (lookup_mem hl)
    simp only [St.assign, runOpt_eq]
    have hpar : ∀ q, (s.mod q0 fun y => { y with mean := none, value := x, state := .userSet, boxed := b }).par q =
        if q = q0 then { s.par q0 with mean := none, value := x, state := .userSet, boxed := b } else s.par q := fun q => by
      rw [mod_par]
    have hmem : ∀ cb, cb ∈ ((s.mod q0 fun y => { y with mean := none, value := x, state := .userSet, boxed := b }).par q0).callback.toList ↔
        (s.par q0).callback = some cb := fun cb => by rw [hpar, if_pos rfl, Option.mem_toList]
    refine Agree.write (W := fun q => if q = q0 then some x else none) hs h ?_ ?_ ?_ ?_ rfl rfl rfl ?_ ?_ ?_ ?_ ?_ ?_ ?_ ?_ ?_ ?_ ?_ ?_ ?_
    · intro q; rw [hpar]; split_ifs <;> rfl
    · intro q; rw [hpar]; split_ifs with e
      · rw [e]
      · rfl
    · intro q hq; rw [hpar]; simp only; split_ifs
      · rfl
      · exact h.mean q hq
    · intro q; rw [hpar]; split_ifs with e
      · rw [e]
      · rfl
    · intro q hq; rw [ite_some_none] at hq; rw [hq]; exact hcr
    · intro q cb hq hcb; rw [ite_some_none] at hq; rw [hmem, ← hq]; exact hcb
    · intro p hm; rw [hmem, focal_iff hs hcr] at hm; rw [hm] at hcr; exact hcr
    · intro p g hg hw
      try simp only at hw
      split_ifs at hw with e
      rcases hok with hok | hok
      · cases hw; exact hok rfl
      · exact hok p g (by rw [hl, e]) hg
    · intro q hq he; rw [hpar]; simp only at he ⊢; split_ifs at he ⊢ with e
      · exact ⟨rfl, rfl⟩
      · exact h.meanT q hq he
    · intro q hq he hw d hdf ho
      simp only at he hw
      split_ifs at he hw with e
      cases hw
      exact he ⟨hq, rfl, d, hdf, ho⟩
    · intro q he
      simp only at he
      split_ifs at he with e
      · exact Or.inl he.1
      · exact h.exc q he
    · intro q hq he hw
      simp only at he hw
      split_ifs at he hw with e
      exact he
    · intro p g hg he hw _
      simp only at he hw
      split_ifs at he hw with e
      exact he
    · intro p g hg he hm hw
      rw [hmem, focal_iff hs hcr] at hm
      try simp only at hw
      rw [if_pos hm.symm] at hw; cases hw
    · intro q hc
      simp only at hc ⊢
      rw [hpar]
      split_ifs with e
      · simp
      · exact h.user q fun hq => by have := hc hq; rw [if_neg e, if_neg e] at this; exact this
    · intro o y he hf hw ho
      try simp only at hw
      rw [hpar]
      split_ifs at hw ⊢ with e
      rfl
    · intro q; rw [hpar]; split_ifs with e
      · simp
      · exact h.mv q

theorem Agree.setStats {s : St} {L : Log} (hs : Struct s) (hd : Dicts s) (h : Agree s L) {v : View} {n : String} {x σ : ℝ} :
    Agree (s.step (.setStats v n x σ)) (L.step s.dict (.setStats v n x σ)) := by
  simp only [St.step, Log.step]
  cases hl : (s.dict v).lookup n with
  | none => exact h
  | some q0 =>
    have hcr : Created s q0 := hd.created (lookup_mem hl)
    simp only [St.assignStats, runOpt_eq]
    have hpar : ∀ q, (s.mod q0 fun y => { y with mean := some x, value := some x, std := σ, state := .userSet, boxed := false }).par q =
        if q = q0 then { s.par q0 with mean := some x, value := some x, std := σ, state := .userSet, boxed := false } else s.par q := fun q => by
      rw [mod_par]
    have hmem : ∀ cb, cb ∈ ((s.mod q0 fun y => { y with mean := some x, value := some x, std := σ, state := .userSet, boxed := false }).par q0).callback.toList ↔
        (s.par q0).callback = some cb := fun cb => by rw [hpar, if_pos rfl, Option.mem_toList]
    refine Agree.write (W := fun q => if q = q0 then some (some x) else none) hs h ?_ ?_ ?_ ?_ rfl rfl rfl ?_ ?_ ?_ ?_ ?_ ?_ ?_ ?_ ?_ ?_ ?_ ?_ ?_
    · intro q; rw [hpar]; split_ifs <;> rfl
    · intro q; rw [hpar]; split_ifs with e
      · rw [e]
      · rfl
    · intro q hq; rw [hpar]; simp only; split_ifs
      · rfl
      · exact h.mean q hq
    · intro q; rw [hpar]; split_ifs with e
      · rw [e]
      · rfl
    · intro q hq; rw [ite_some_none] at hq; rw [hq]; exact hcr
    · intro q cb hq hcb; rw [ite_some_none] at hq; rw [hmem, ← hq]; exact hcb
    · intro p hm; rw [hmem, focal_iff hs hcr] at hm; rw [hm] at hcr; exact hcr
    · intro p g hg hw
      try simp only at hw
      split_ifs at hw with e
      cases hw
    · intro q hq he; rw [hpar]; simp only at he ⊢; split_ifs at he ⊢ with e
      · exact absurd hq he
      · exact h.meanT q hq he
    · intro q hq he hw d hdf ho
      simp only at he hw
      split_ifs at he hw with e
      cases hw
    · intro q he
      simp only at he
      split_ifs at he with e
      · exact Or.inl he
      · exact h.exc q he
    · intro q hq he hw
      simp only at he hw
      split_ifs at he hw with e
      exact he
    · intro p g hg he hw _
      simp only at he hw
      split_ifs at he hw with e
      exact he
    · intro p g hg he hm hw
      rw [hmem, focal_iff hs hcr] at hm
      try simp only at hw
      rw [if_pos hm.symm] at hw; cases hw
    · intro q hc
      simp only at hc ⊢
      rw [hpar]
      split_ifs with e
      · simp
      · exact h.user q fun hq => by have := hc hq; rw [if_neg e, if_neg e] at this; exact this
    · intro o y he hf hw ho
      try simp only at hw
      rw [hpar]
      split_ifs at hw ⊢ with e
      rfl
    · intro q; rw [hpar]; split_ifs with e
      · simp
      · exact h.mv q

/-! set_fit_parameters -/

theorem lastOf_cons (d : Dict) (n : String) (v : ℝ) (t : List (String × ℝ)) (q : Pid) :
    lastOf d ((n, v) :: t) q = (lastOf d t q).or (if d.lookup n = some q then some v else none) := by
  unfold lastOf
  rw [List.reverse_cons, List.find?_append]
  cases List.find? (fun nv => decide (List.lookup nv.1 d = some q)) t.reverse with
  | some y => simp
  | none =>
    by_cases hh : List.lookup n d = some q <;> simp [hh]

theorem fitLoop_par (d : Dict) (vals : List (String × ℝ)) : ∀ (s : St) (q : Pid), (s.fitLoop d vals).par q =
    match lastOf d vals q with
    | some v => { s.par q with value := some v, state := .fit, boxed := false }
    | none => s.par q := by
  induction vals with
  | nil => intro s q; simp [St.fitLoop, lastOf]
  | cons a t ih =>
    obtain ⟨n, v⟩ := a
    intro s q
    rw [lastOf_cons]
    unfold St.fitLoop
    cases hl : d.lookup n with
    | none => rw [ih]; simp
    | some q' =>
      simp only
      rw [ih, mod_par]
      by_cases e : q = q'
      · rw [e]
        cases lastOf d t q' <;> simp
      · have e' : ¬ q' = q := fun h => e h.symm
        cases lastOf d t q <;> simp [e, e']

theorem lastOf_some {d : Dict} {vals : List (String × ℝ)} {q : Pid} : lastOf d vals q ≠ none ↔ ∃ nv ∈ vals, d.lookup nv.1 = some q := by
  unfold lastOf
  rw [ne_eq, Option.map_eq_none_iff, List.find?_eq_none]
  push Not
  simp

theorem Agree.setFit {s : St} {L : Log} (hs : Struct s) (hd : Dicts s) (h : Agree s L) {v : View} {vals : List (String × ℝ)} {order : List Cb}
    (hok : s.ok (.setFit v vals order)) : Agree (s.step (.setFit v vals order)) (L.step s.dict (.setFit v vals order)) := by
  simp only [St.step, Log.step, St.setFit]
  have hU : Upd (fun _ => True) s (s.fitLoop (s.dict v) vals) := Upd.fitLoop vals s fun _ _ _ _ => trivial
  have hcr : ∀ q, lastOf (s.dict v) vals q ≠ none → Created s q := by
    intro q hq
    obtain ⟨nv, -, hl⟩ := lastOf_some.1 hq
    exact hd.created (kv := (nv.1, q)) (lookup_mem hl)
  have hmem : ∀ cb, cb ∈ order ↔ ∃ q, lastOf (s.dict v) vals q ≠ none ∧ (s.par q).callback = some cb := by
    intro cb
    rw [hok.2, St.fitCallbacks, List.mem_filterMap]
    constructor
    · rintro ⟨nv, hnv, hb⟩
      cases hq : (s.dict v).lookup nv.1 with
      | none => rw [hq] at hb; cases hb
      | some q => rw [hq] at hb; exact ⟨q, lastOf_some.2 ⟨nv, hnv, hq⟩, hb⟩
    · rintro ⟨q, hq, hb⟩
      obtain ⟨nv, hnv, hl⟩ := lastOf_some.1 hq
      exact ⟨nv, hnv, by rw [hl]; exact hb⟩
  have hfoc : ∀ p, .focal p ∈ order ↔ lastOf (s.dict v) vals (.p p .f) ≠ none := by
    intro p; rw [hmem]
    constructor
    · rintro ⟨q, hq, hb⟩; rw [focal_iff hs (hcr q hq)] at hb; rw [← hb]; exact hq
    · intro hq; exact ⟨_, hq, hs.pf p (hcr _ hq)⟩
  have hmap : ∀ q, (lastOf (s.dict v) vals q).map some ≠ none ↔ lastOf (s.dict v) vals q ≠ none := by
    intro q; simp
  refine Agree.write (W := fun q => (lastOf (s.dict v) vals q).map some) hs h ?_ ?_ ?_ ?_ hU.orients_eq rfl rfl ?_ ?_ ?_ ?_ ?_ ?_ ?_ ?_ ?_ ?_ ?_ ?_ ?_
  · intro q; rw [fitLoop_par]; cases lastOf (s.dict v) vals q <;> rfl
  · intro q; rw [fitLoop_par]; cases lastOf (s.dict v) vals q <;> rfl
  · intro q hq; rw [fitLoop_par]; have := h.mean q hq; cases lastOf (s.dict v) vals q <;> exact this
  · intro q; rw [fitLoop_par]; cases lastOf (s.dict v) vals q <;> rfl
  · intro q hq; exact hcr q ((hmap q).1 hq)
  · intro q cb hq hcb; rw [hmem]; exact ⟨q, (hmap q).1 hq, hcb⟩
  · intro p hm; rw [hfoc] at hm; exact hcr _ hm
  · intro p g hg hw
    try simp only at hw
    cases e : lastOf (s.dict v) vals (.p p g) <;> rw [e] at hw <;> cases hw
  · intro q hq he; rw [fitLoop_par]; have := h.meanT q hq he; cases lastOf (s.dict v) vals q <;> exact this
  · intro q hq he hw d hdf ho
    try simp only at hw
    cases e : lastOf (s.dict v) vals q <;> rw [e] at hw <;> cases hw
  · exact h.exc
  · intro q hq he _; exact he
  · intro p g hg he _ _; exact he
  · intro p g hg he hm hw
    rw [hfoc] at hm
    exact absurd hw ((hmap _).2 hm)
  · intro q hc
    simp only at hc ⊢
    rw [fitLoop_par]
    cases e : lastOf (s.dict v) vals q with
    | none =>
      simp only [if_true]
      exact h.user q fun hq => ⟨(hc hq).1, fun hf => (hc hq).2 (Or.inl hf)⟩
    | some x => simp
  · intro o y he hf hw ho
    simp only at hw hf
    cases e : lastOf (s.dict v) vals (.o o .turn) with
    | none => rw [e] at hw; cases hw
    | some z =>
      rw [e] at hw
      have hz : z = y := by simpa using hw
      exact absurd (Or.inr ⟨trivial, z, e, hz ▸ ho⟩) hf
  · intro q; rw [fitLoop_par]; have := h.mv q
    cases lastOf (s.dict v) vals q
    · exact this
    · simp

/-! sample and set_to_mean -/

theorem InDict.cons {a : String × Pid} {d : Dict} {q : Pid} : InDict (a :: d) q ↔ a.2 = q ∨ InDict d q := by
  unfold InDict
  constructor
  · rintro ⟨n, hn⟩
    rcases List.mem_cons.1 hn with e | hn
    · left; rw [← e]
    · right; exact ⟨n, hn⟩
  · rintro (rfl | ⟨n, hn⟩)
    · exact ⟨a.1, by simp⟩
    · exact ⟨n, by simp [hn]⟩

theorem sampleLoop_par (draw : Pid → ℝ) (d : Dict) : ∀ (s : St) (q : Pid), (s.sampleLoop draw d).par q =
    if InDict d q ∧ (s.par q).mean ≠ none then { s.par q with value := some (draw q), boxed := false } else s.par q := by
  induction d with
  | nil => intro s q; simp [St.sampleLoop, InDict]
  | cons a t ih =>
    obtain ⟨n, q'⟩ := a
    intro s q
    unfold St.sampleLoop
    rw [ih, mod_par, InDict.cons]
    by_cases e : q = q'
    · subst e
      by_cases hm : (s.par q).mean = none
      · simp [hm]
      · simp only [if_true, true_or, Option.isSome_iff_ne_none, ne_eq, hm, not_false_eq_true, and_true]
        split_ifs <;> rfl
    · have e' : ¬ q' = q := fun h => e h.symm
      simp only [if_neg e, e', false_or]

theorem meanLoop_par (d : Dict) : ∀ (s : St) (q : Pid), (s.meanLoop d).par q =
    if InDict d q ∧ (s.par q).mean ≠ none then { s.par q with value := (s.par q).mean, boxed := false } else s.par q := by
  induction d with
  | nil => intro s q; simp [St.meanLoop, InDict]
  | cons a t ih =>
    obtain ⟨n, q'⟩ := a
    intro s q
    unfold St.meanLoop
    rw [ih, mod_par, InDict.cons]
    by_cases e : q = q'
    · subst e
      by_cases hm : (s.par q).mean = none
      · simp [hm]
      · simp only [if_true, true_or, Option.isSome_iff_ne_none, ne_eq, hm, not_false_eq_true, and_true]
        split_ifs <;> rfl
    · have e' : ¬ q' = q := fun h => e h.symm
      simp only [if_neg e, e', false_or]

theorem redraw_val (L : Log) (d : Dict) (w : Pid → Option ℝ) (q : Pid) : (L.redraw d w).val q =
    spread (fun q => if InDict d q ∧ L.mean q ≠ none then some (w q) else none) L.val q := rfl

theorem Agree.redraw {s s' : St} {L : Log} (hs : Struct s) (hd : Dicts s) (h : Agree s L) {v : View} {w w' : Pid → Option ℝ} {order : List Cb}
    (hord : IsOrder order (s.allCallbacks (s.dict v)))
    (hpar : ∀ q, s'.par q = if InDict (s.dict v) q ∧ (s.par q).mean ≠ none then { s.par q with value := w' q, boxed := false } else s.par q)
    (hww : ∀ q, ¬ IsTurn q → L.mean q ≠ none → w' q = w q)
    (hw0 : ∀ q, (s.par q).mean ≠ none → w' q ≠ none) :
    Agree (s'.runAll order) (L.redraw (s.dict v) w) := by
  have hcr : ∀ q, InDict (s.dict v) q → Created s q := fun q ⟨n, hn⟩ => hd.created (kv := (n, q)) hn
  have hmem : ∀ cb, cb ∈ order ↔ ∃ q, InDict (s.dict v) q ∧ (s.par q).callback = some cb := by
    intro cb
    rw [hord.2, St.allCallbacks, List.mem_filterMap]
    constructor
    · rintro ⟨kv, hkv, hb⟩; exact ⟨kv.2, ⟨kv.1, hkv⟩, hb⟩
    · rintro ⟨q, ⟨n, hn⟩, hb⟩; exact ⟨(n, q), hn, hb⟩
  have hfoc : ∀ p, .focal p ∈ order ↔ InDict (s.dict v) (.p p .f) := by
    intro p; rw [hmem]
    constructor
    · rintro ⟨q, hq, hb⟩; rw [focal_iff hs (hcr q hq)] at hb; rw [← hb]; exact hq
    · intro hq; exact ⟨_, hq, hs.pf p (hcr _ hq)⟩
  let W : Pid → Option (Option ℝ) := fun q => if InDict (s.dict v) q ∧ (s.par q).mean ≠ none then some (w' q) else none
  have hW : ∀ q, W q ≠ none ↔ InDict (s.dict v) q ∧ (s.par q).mean ≠ none := fun q => ite_some_none
  have hexcT : ∀ q, IsTurn q → ((L.redraw (s.dict v) w).exc q ↔ L.exc q) := by
    intro q hq; obtain ⟨o, rfl⟩ := isTurn_iff.1 hq; exact Iff.rfl
  have hexcF : ∀ p g, IsF g → ((L.redraw (s.dict v) w).exc (.p p g) ↔ L.exc (.p p g) ∨
      InDict (s.dict v) (.p p .f) ∧ (L.redraw (s.dict v) w).val (.p p g) ≠ (L.redraw (s.dict v) w).val (.p p .f)) := by
    rintro p g (rfl | rfl) <;> exact Iff.rfl
  have hexcO : ∀ q, ¬ IsTurn q → (∀ p g, IsF g → q ≠ .p p g) → ((L.redraw (s.dict v) w).exc q ↔ L.exc q) := by
    intro q hq hg
    cases q with
    | p p f => cases f <;> first | exact absurd rfl (hg p _ (Or.inl rfl)) | exact absurd rfl (hg p _ (Or.inr rfl)) | exact Iff.rfl
    | _ => exact Iff.rfl
  -- the draws of the state and of the log only differ for headings
  have hWn : ∀ q, ¬ IsTurn q → W q = if InDict (s.dict v) q ∧ L.mean q ≠ none then some (w q) else none := by
    intro q hq
    show (if _ then _ else _) = _
    rw [h.mean q hq]
    by_cases c : InDict (s.dict v) q ∧ L.mean q ≠ none
    · rw [if_pos c, if_pos c, hww q hq c.2]
    · rw [if_neg c, if_neg c]
  have hval : ∀ q, ¬ IsTurn q → (s'.par q).value = (W q).getD (s.par q).value := by
    intro q hq
    rw [hpar]; show _ = (if _ then _ else _ : Option (Option ℝ)).getD _
    split_ifs <;> rfl
  -- for headings without uncertainty nothing is drawn
  have hturn : ∀ q, IsTurn q → ¬ L.exc q → s'.par q = s.par q ∧ (L.redraw (s.dict v) w).val q = L.val q := by
    intro q hq he
    obtain ⟨m1, m2⟩ := h.meanT q hq he
    refine ⟨?_, ?_⟩
    · rw [hpar, if_neg]; rintro ⟨-, hh⟩; exact hh m1
    · have hg : ∀ p g, IsF g → q ≠ .p p g := by obtain ⟨o, rfl⟩ := isTurn_iff.1 hq; exact turn_not_f
      rw [redraw_val, spread_other _ _ hg, if_neg]; · rfl
      rintro ⟨-, hh⟩; exact hh m2
  have hlv : ∀ q, ¬ IsTurn q → (L.redraw (s.dict v) w).val q = spread W L.val q := by
    intro q hq
    rw [redraw_val]
    by_cases hg : ∃ p g, IsF g ∧ q = .p p g
    · obtain ⟨p, g, hg, rfl⟩ := hg
      rw [spread_f _ _ _ hg, spread_f _ _ _ hg, hWn _ hq, hWn _ not_turn_p]
    · have hg' : ∀ p g, IsF g → q ≠ .p p g := fun p g h1 h2 => hg ⟨p, g, h1, h2⟩
      rw [spread_other _ _ hg', spread_other _ _ hg', hWn _ hq]
  have hvalO : ∀ q, ¬ IsTurn q → (∀ p g, IsF g → q ≠ .p p g) → (s'.par q).value = (L.redraw (s.dict v) w).val q := by
    intro q hq hg
    rw [hval q hq, hlv q hq, spread_other _ _ hg, h.plain' hq hg]
  refine Pre.agree ⟨?_, ?_, ?_, hvalO, ?_, ?_, ?_, ?_, ?_, ?_, ?_, ?_⟩ ?_
  · intro q; rw [hpar]; split_ifs <;> exact h.dflt q
  · intro q hq; rw [hpar]; split_ifs <;> exact h.mean q hq
  · intro q hq he; rw [hexcT q hq] at he; rw [(hturn q hq he).1]; exact h.meanT q hq he
  · intro o he
    rw [hexcT (.o o .turn) trivial] at he
    rw [(hturn (.o o .turn) trivial he).1, (hturn (.o o .turn) trivial he).2]
    exact ⟨(h.turn he).1, fun y hy ho => absurd ho ((h.turn he).2 y hy)⟩
  · intro p g hg he
    rw [hexcF p g hg] at he
    push Not at he
    refine ⟨fun hm => ?_, fun hm => ?_⟩
    · rw [hfoc] at hm
      rw [he.2 hm]; exact hvalO _ not_turn_p f_not_f
    · rw [hfoc] at hm
      rw [hval _ not_turn_p, hlv _ not_turn_p, spread_f _ _ _ hg, h.plain not_turn_p he.1]
      have : W (.p p .f) = none := by by_contra hh; exact hm ((hW _).1 hh).1
      rw [this]; simp
  · intro q hq he hv d hdf
    rw [hexcT q hq] at he
    rw [(hturn q hq he).2] at hv
    exact h.range q hq he hv d hdf
  · intro q hc
    have huser : (L.redraw (s.dict v) w).user q ↔ L.user q := Iff.rfl
    rw [huser, ← h.user q fun hq => ⟨fun hh => (hc hq).1 ((hexcT q hq).2 hh), (hc hq).2⟩]
    rw [hpar]
    split_ifs with e
    · have e1 := h.mv q e.2
      have e2 := hw0 q e.2
      simp [e1, e2]
    · exact Iff.rfl
  · intro o he _ x hx hout
    rw [hexcT (.o o .turn) trivial] at he
    rw [(hturn (.o o .turn) trivial he).1] at hx
    exact absurd hout ((h.turn he).2 x hx)
  · intro q he
    rcases pid_cases q with ⟨o, rfl⟩ | ⟨p, g, hg, rfl⟩ | ⟨h1, h2⟩
    · exact Or.inl trivial
    · exact Or.inr ⟨p, g, hg, rfl⟩
    · rw [hexcO q h1 h2] at he; exact h.exc q he
  · intro q
    rw [hpar]
    split_ifs with e
    · intro _; exact hw0 q e.2
    · exact h.mv q
  · intro p hm g hg
    rw [hfoc] at hm
    have hgd : g.default = none := by
      rcases hg with hg | rfl
      · exact hg.default
      · rfl
    rw [hpar]
    split_ifs with e
    · exact hw0 _ e.2
    · exact Option.isSome_iff_ne_none.1 (hs.gval p (hcr _ hm) g hgd)
  · intro p g o
    rw [hpar]
    split_ifs <;> exact hs.pcb p g o

theorem Agree.setDefault {s : St} {L : Log} (hs : Struct s) (hd : Dicts s) (h : Agree s L) {v : View} {n : String} {x : ℝ} :
    Agree (s.step (.setDefault v n x)) (L.step s.dict (.setDefault v n x)) := by
  simp only [St.step, Log.step]
  cases hl : (s.dict v).lookup n with
  | none => exact h
  | some q0 =>
    have hcr : Created s q0 := hd.created (lookup_mem hl)
    have hpar : ∀ q, (s.mod q0 fun y => { y with default := some x }).par q =
        if q = q0 then { s.par q0 with default := some x } else s.par q := fun q => by
      rw [mod_par]
    have hval : ∀ q, ((s.mod q0 fun y => { y with default := some x }).par q).value = (s.par q).value := fun q => by
      rw [hpar]; split_ifs with e
      · rw [e]
      · rfl
    have hmean : ∀ q, ((s.mod q0 fun y => { y with default := some x }).par q).mean = (s.par q).mean := fun q => by
      rw [hpar]; split_ifs with e
      · rw [e]
      · rfl
    have hstate : ∀ q, ((s.mod q0 fun y => { y with default := some x }).par q).state = (s.par q).state := fun q => by
      rw [hpar]; split_ifs with e
      · rw [e]
      · rfl
    have hpre : ∀ order, (∀ p, .focal p ∉ order) → Pre (s.mod q0 fun y => { y with default := some x }) { L with
      dflt := fun q => if q = q0 then some x else L.dflt q
      exc := fun q => if q = q0 then L.exc q ∨ IsTurn q ∧ L.val q = none ∧ Out x else L.exc q } order := by
      intro order hno
      have hexc : ∀ q, ¬ (if q = q0 then L.exc q ∨ IsTurn q ∧ L.val q = none ∧ Out x else L.exc q) → ¬ L.exc q := by
        intro q he; split_ifs at he
        · exact fun hh => he (Or.inl hh)
        · exact he
      refine ⟨?_, ?_, ?_, ?_, ?_, ?_, ?_, ?_, ?_, ?_, ?_, ?_⟩
      · intro q; rw [hpar]; simp only; split_ifs
        · rfl
        · exact h.dflt q
      · intro q hq; rw [hmean]; exact h.mean q hq
      · intro q hq he; rw [hmean]; exact h.meanT q hq (hexc q he)
      · intro q hq hg; rw [hval]; exact h.plain' hq hg
      · intro o he; rw [hval]; exact ⟨(h.turn (hexc _ he)).1, fun y hy ho => absurd ho ((h.turn (hexc _ he)).2 y hy)⟩
      · intro p g hg he
        refine ⟨fun hm => absurd hm (hno p), fun _ => ?_⟩
        rw [hval]; exact h.plain not_turn_p (hexc _ he)
      · intro q hq he hv d hdf
        simp only at he hdf
        split_ifs at he hdf with e
        · cases hdf
          intro ho; exact he (Or.inr ⟨hq, hv, ho⟩)
        · exact h.range q hq he hv d hdf
      · intro q hc; rw [hval, hstate]; exact h.user q fun hq => ⟨hexc q (hc hq).1, (hc hq).2⟩
      · intro o he _ y hy ho; rw [hval] at hy; exact absurd ho ((h.turn (hexc _ he)).2 y hy)
      · intro q he
        simp only at he
        split_ifs at he
        · rcases he with he | he
          · exact h.exc q he
          · exact Or.inl he.1
        · exact h.exc q he
      · intro q; rw [hmean, hval]; exact h.mv q
      · intro p hm; exact absurd hm (hno p)
    have hpcb : ∀ p g o, ((s.mod q0 fun y => { y with default := some x }).par (.p p g)).callback ≠ some (.matrix o) := by
      intro p g o; rw [hpar]; split_ifs with e
      · exact fun hh => hs.pcb p g o (by rw [e]; exact hh)
      · exact hs.pcb p g o
    simp only [St.assignDefault]
    split_ifs with hv
    · rw [runOpt_eq]
      refine (hpre _ ?_).agree hpcb
      intro p hm
      rw [Option.mem_toList, hpar, if_pos rfl] at hm
      have e := (focal_iff hs hcr p).1 hm
      rw [hval, e] at hv
      have := (hs.focal q0 p hm).2
      rw [hv] at this; cases this
    · exact (hpre [] (by simp)).agree hpcb

theorem Agree.create {s s' : St} {L : Log} (h : Agree s L) {new : Pid → Option (Option ℝ × Option ℝ)} {order : List Cb}
    (hnew : ∀ q x, new q = some x → (s'.par q).value = x.1 ∧ (s'.par q).default = x.2 ∧ (s'.par q).mean = none ∧
      (s'.par q).state = if x.1.isSome then .userSet else .default)
    (hold : ∀ q, new q = none → (s'.par q).value = (s.par q).value ∧ (s'.par q).default = (s.par q).default ∧
      (s'.par q).mean = (s.par q).mean ∧ (s'.par q).state = (s.par q).state)
    (hno : ∀ p, .focal p ∉ order)
    (hturn : ∀ o x, new (.o o .turn) = some x → .matrix o ∈ order ∧ s'.orients o ≠ none ∧ ∀ d, x.2 = some d → ¬ Out d)
    (hpcb : ∀ p g o, (s'.par (.p p g)).callback ≠ some (.matrix o)) : Agree (s'.runAll order) (L.create new) := by
  refine Pre.agree ⟨?_, ?_, ?_, ?_, ?_, ?_, ?_, ?_, ?_, ?_, ?_, ?_⟩ hpcb
  · intro q; simp only [Log.create]
    cases e : new q with
    | none => rw [(hold q e).2.1]; exact h.dflt q
    | some x => exact (hnew q x e).2.1
  · intro q hq; simp only [Log.create]
    cases e : new q with
    | none => rw [(hold q e).2.2.1]; exact h.mean q hq
    | some x => exact (hnew q x e).2.2.1
  · intro q hq he; simp only [Log.create] at he ⊢
    cases e : new q with
    | none => rw [e] at he; rw [(hold q e).2.2.1]; exact h.meanT q hq he
    | some x => exact ⟨(hnew q x e).2.2.1, rfl⟩
  · intro q hq hg; simp only [Log.create]
    cases e : new q with
    | none => rw [(hold q e).1]; exact h.plain' hq hg
    | some x => exact (hnew q x e).1
  · intro o he; simp only [Log.create] at he ⊢
    cases e : new (.o o .turn) with
    | none => rw [e] at he; rw [(hold _ e).1]; exact ⟨(h.turn he).1, fun y hy ho => absurd ho ((h.turn he).2 y hy)⟩
    | some x =>
      rw [(hnew _ x e).1]
      exact ⟨rfl, fun _ _ _ => ⟨(hturn o x e).1, (hturn o x e).2.1⟩⟩
  · intro p g hg he
    refine ⟨fun hm => absurd hm (hno p), fun _ => ?_⟩
    simp only [Log.create] at he ⊢
    cases e : new (.p p g) with
    | none => rw [e] at he; rw [(hold _ e).1]; exact h.plain not_turn_p he
    | some x => exact (hnew _ x e).1
  · intro q hq he hv d hdf; simp only [Log.create] at he hv hdf
    obtain ⟨o, rfl⟩ := isTurn_iff.1 hq
    cases e : new (.o o .turn) with
    | none => rw [e] at he hv hdf; exact h.range _ hq he hv d hdf
    | some x => rw [e] at hdf; exact (hturn o x e).2.2 d hdf
  · intro q hc; simp only [Log.create] at hc ⊢
    cases e : new q with
    | none => rw [e] at hc; rw [(hold q e).1, (hold q e).2.2.2]; exact h.user q hc
    | some x =>
      rw [(hnew q x e).1, (hnew q x e).2.2.2]
      obtain ⟨x1, x2⟩ := x
      cases x1 <;> simp
  · intro o he hf y hy ho; simp only [Log.create] at he hf
    cases e : new (.o o .turn) with
    | none => rw [e] at he hf; rw [(hold _ e).1] at hy; exact absurd ho ((h.turn he).2 y hy)
    | some x => rw [(hnew _ x e).1] at hy; rw [(hnew _ x e).2.2.2, hy]; rfl
  · intro q he; simp only [Log.create] at he
    cases e : new q with
    | none => rw [e] at he; exact h.exc q he
    | some x => rw [e] at he; exact he.elim
  · intro q
    cases e : new q with
    | none => rw [(hold q e).1, (hold q e).2.2.1]; exact h.mv q
    | some x => rw [(hnew q x e).2.2.1]; simp
  · intro p hm; exact absurd hm (hno p)

theorem newParam_fields (v d : Option ℝ) (t : ℕ) (cb : Option Cb) : (newParam v d t cb).value = v ∧ (newParam v d t cb).default = d ∧
    (newParam v d t cb).mean = none ∧ (newParam v d t cb).state = if v.isSome then .userSet else .default := ⟨rfl, rfl, rfl, rfl⟩

theorem Agree.newOrient {s : St} {L : Log} (hs : Struct s) (h : Agree s L) (o : ℕ) (k : OKind) (args : OField → Option ℝ) :
    Agree (s.step (.newOrient o k args)) (L.step s.dict (.newOrient o k args)) := by
  have key : Agree ((preOrient s o k args).runAll [.matrix o]) (L.step s.dict (.newOrient o k args)) := by
    refine Agree.create h ?_ ?_ (by simp) ?_ (preOrient_struct hs o k args).pcb
    · intro q x hx
      cases q with
      | o o' f =>
        simp only at hx
        split_ifs at hx with e
        cases hx
        rw [e, preOrient_par_o, initialO_eq]
        exact newParam_fields _ _ _ _
      | _ => cases hx
    · intro q hq
      rw [preOrient_par]
      · exact ⟨rfl, rfl, rfl, rfl⟩
      · rintro f rfl; simp at hq
    · intro o' x hx
      simp only at hx
      split_ifs at hx with e
      cases hx
      refine ⟨by simp [e], by simp [preOrient, e], fun d hd => ?_⟩
      cases hd
      rintro (hh | hh) <;> norm_num [initialO] at hh
  exact key

theorem Agree.newProj {s : St} {L : Log} (h : Agree s L) {p : ℕ} {k : Projection.Kind} {args : PField → Option ℝ} {attr : Bool}
    (hs' : Struct (s.step (.newProj p k args attr))) :
    Agree (s.step (.newProj p k args attr)) (L.step s.dict (.newProj p k args attr)) := by
  have key : Agree ((s.newProj p k args attr).runAll []) (L.step s.dict (.newProj p k args attr)) := by
    refine Agree.create h ?_ ?_ (by simp) ?_ hs'.pcb
    · intro q x hx
      cases q with
      | p p' f =>
        by_cases e : p' = p
        · rw [e]
          by_cases hf : f = .f
          · rw [hf, newProj_par_f]
            rw [hf] at hx
            simp only [e, if_true] at hx
            cases hx
            exact newParam_fields _ _ _ _
          · rw [newProj_par_p _ _ _ _ _ hf]
            have : x = (args f, f.default) := by
              cases f <;> first | exact absurd rfl hf | (simp only [e, if_true] at hx; cases hx; rfl)
            rw [this]
            exact newParam_fields _ _ _ _
        · exfalso
          cases f <;> simp [e] at hx
      | _ => cases hx
    · intro q hq
      rw [newProj_par]
      · exact ⟨rfl, rfl, rfl, rfl⟩
      · rintro f rfl; cases f <;> simp at hq
    · intro o x hx; cases hx
  exact key

theorem Agree.newLens {s : St} {L : Log} (hs : Struct s) (h : Agree s L) (l : ℕ) (k : LKind) (args : LField → Option ℝ) :
    Agree (s.step (.newLens l k args)) (L.step s.dict (.newLens l k args)) := by
  have key : Agree ((preLens s l k args).runAll [.lens l]) (L.step s.dict (.newLens l k args)) := by
    refine Agree.create h ?_ ?_ (by simp) ?_ (preLens_struct hs l k args).pcb
    · intro q x hx
      cases q with
      | l l' f =>
        simp only at hx
        split_ifs at hx with e
        cases hx
        rw [e, preLens_par_l]
        exact newParam_fields _ _ _ _
      | _ => cases hx
    · intro q hq
      rw [preLens_par]
      · exact ⟨rfl, rfl, rfl, rfl⟩
      · rintro f rfl; simp at hq
    · intro o x hx; cases hx
  exact key

theorem setProjection_fields (s : St) (l p : ℕ) (q : Pid) : ((s.setProjection l p).par q).value = (s.par q).value ∧
    ((s.setProjection l p).par q).default = (s.par q).default ∧ ((s.setProjection l p).par q).mean = (s.par q).mean ∧
    ((s.setProjection l p).par q).state = (s.par q).state ∧ ((s.setProjection l p).par q).type = (s.par q).type := by
  by_cases h : ∃ L, s.lenses l = some L ∧ L.kind ≠ .none
  · obtain ⟨L, hl, hk⟩ := h
    rw [setProjection_eq hl hk, runLens_par, preBind_par hk]
    split_ifs <;> exact ⟨rfl, rfl, rfl, rfl, rfl⟩
  · rw [setProjection_none fun L hL => by by_contra hk; exact h ⟨L, hL, hk⟩]; exact ⟨rfl, rfl, rfl, rfl, rfl⟩

theorem Agree.newCam {s : St} {L : Log} (hs : Struct s) (h : Agree s L) (c p o l : ℕ) :
    Agree (s.step (.newCam c p o l)) (L.step s.dict (.newCam c p o l)) := by
  have key : Agree ((camTail (s.setProjection l p) c p o l).runAll []) (L.step s.dict (.newCam c p o l)) := by
    refine Agree.create h ?_ ?_ (by simp) ?_ (camTail_struct (setProjection_struct hs l p) c p o l).pcb
    · intro q x hx
      cases q with
      | c c' f =>
        simp only at hx
        split_ifs at hx with e
        cases hx
        rw [e, camTail_par_c]
        exact newParam_fields _ _ _ _
      | _ => cases hx
    · intro q hq
      rw [camTail_par]
      · have := setProjection_fields s l p q
        exact ⟨this.1, this.2.1, this.2.2.1, this.2.2.2.1⟩
      · rintro f rfl; simp at hq
    · intro o x hx; cases hx
  exact key

theorem Agree.empty : Agree St.empty Log.empty where
  dflt _ := rfl
  mean _ _ := rfl
  meanT _ _ _ := ⟨rfl, rfl⟩
  val _ _ := rfl
  range _ _ _ _ d hd := by cases hd; rintro (h | h) <;> norm_num at h
  user q _ := by simp [St.empty, newParam, Log.empty]
  exc _ h := h.elim
  mv _ h := absurd rfl h

theorem Agree.step {s : St} {L : Log} (hi : Inv s) (hd : Dicts s) (h : Agree s L) {op : Op} (hok : s.ok op) :
    Agree (s.step op) (L.step s.dict op) := by
  have hs := hi.struct
  cases op with
  | newOrient o k args => exact h.newOrient hs o k args
  | newProj p k args attr => exact h.newProj (hi.step hok).struct
  | newLens l k args => exact h.newLens hs l k args
  | newCam c p o l => exact h.newCam hs c p o l
  | newGroup g d => exact h.congr (fun _ => rfl) (fun _ => rfl) (fun _ => rfl) fun _ => rfl
  | setTrace v t => exact h.congr (fun _ => rfl) (fun _ => rfl) (fun _ => rfl) fun _ => rfl
  | set v n x b => exact h.set hs hd hok
  | setStats v n m σ => exact h.setStats hs hd
  | setDefault v n x => exact h.setDefault hs hd
  | setFit v vals order => exact h.setFit hs hd hok
  | sample v draw order =>
    exact h.redraw (w' := fun q => some (draw q)) hs hd hok.2 (sampleLoop_par draw _ s) (fun _ _ _ => rfl) (fun _ _ => by simp)
  | toMean v order =>
    exact h.redraw (w' := fun q => (s.par q).mean) hs hd hok.2 (meanLoop_par _ s) (fun q hq _ => h.mean q hq) (fun _ hh => hh)

theorem Run.reach {s : St} {L : Log} (h : Run s L) : Reach s := by
  induction h with
  | start => exact .start
  | step _ hok ih => exact .step ih hok

theorem Run.agree {s : St} {L : Log} (h : Run s L) : Agree s L := by
  induction h with
  | start => exact Agree.empty
  | step hr hok ih => exact ih.step hr.reach.inv hr.reach.dicts hok

theorem Agree.read {s : St} {L : Log} (h : Agree s L) {q : Pid} (he : ¬ L.exc q) : (s.par q).read = L.read q := by
  unfold Param.read Log.read
  rw [h.val q he, h.dflt]
  cases L.val q <;> rfl

end Sys
