import Verif.Props.LoadView
import Verif.Props.Fit
import Verif.Spec.Table

/-! # The parameters as a table -/

set_option linter.constructorNameAsVariable false

open Classical Sys

namespace Sys

theorem Param.cell_read (x : Param) : x.cell.read = x.read := by
  unfold Cell.read Param.read Param.cell
  cases x.value <;> rfl

theorem newParam_cell (v d : Option ℝ) (t : ℕ) (cb : Option Cb) : (newParam v d t cb).cell = Cell.new v d := by
  cases v <;> simp [newParam, Param.cell, Cell.new]

theorem wrapP_cell (x : Param) (h : x.read.isSome) : (wrapP x).cell = x.cell.turned := by
  unfold Cell.turned
  rw [Param.cell_read]
  obtain ⟨r, hr⟩ := Option.isSome_iff_exists.mp h
  have e : x.read.getD 0 = r := by rw [hr]; rfl
  unfold wrapP
  rw [e, hr]
  by_cases h : r < -360 ∨ 360 < r
  · rw [if_pos h]
    simp only
    rw [if_pos (show Out r from h)]
    rfl
  · rw [if_neg h]
    simp only
    rw [if_neg (show ¬ Out r from h)]

theorem turned_in {c : Cell} {x : ℝ} (h : c.read = some x) (h1 : -360 ≤ x) (h2 : x ≤ 360) : c.turned = c := by
  unfold Cell.turned
  rw [h]
  simp only
  rw [if_neg]
  rintro (h | h) <;> linarith

/-- The table describes the parameters of all existing objects. -/
def Desc (s : St) (T : Table) : Prop := ∀ q, Created s q → (s.par q).cell = T q

end Sys

namespace Sys

/-- Callbacks apply the two rules. -/
theorem desc_after {z : St} {W : Table} {A : Cb → Prop} {P : ℕ → Prop} (hW : ∀ q, Created z q → (z.par q).cell = W q)
    (hP : ∀ p, z.projs p ≠ none → (A (.focal p) ↔ P p)) (hv : ∀ q, (z.par q).read.isSome)
    (hA : ∀ o, z.orients o ≠ none → A (.matrix o) ∨ -360 ≤ z.rd (.o o .turn) ∧ z.rd (.o o .turn) ≤ 360) (q : Pid) (hq : Created z q) :
    (after z A q).cell = (W.link P).settle q := by
  have fpart : ∀ p (g : PField), z.projs p ≠ none → (if A (.focal p) then { z.par (.p p g) with value := (z.par (.p p .f)).value, boxed := (z.par (.p p .f)).boxed }
      else z.par (.p p g)).cell = if P p then { W (.p p g) with val := (W (.p p .f)).val } else W (.p p g) := by
    intro p g hp
    rw [← hW (.p p g) hp, ← hW (.p p .f) hp]
    by_cases h : P p
    · rw [if_pos ((hP p hp).mpr h), if_pos h]; rfl
    · rw [if_neg (fun k => h ((hP p hp).mp k)), if_neg h]
  cases q with
  | o o f =>
    cases f with
    | turn =>
      rw [after_turn]
      show _ = (W (.o o .turn)).turned
      rw [← hW _ hq]
      by_cases h : A (.matrix o)
      · rw [if_pos ⟨h, hq⟩, wrapP_cell _ (hv _)]
      · rw [if_neg (fun k => h k.1)]
        obtain ⟨h1, h2⟩ := (hA o hq).resolve_left h
        refine (turned_in (x := z.rd (.o o .turn)) ?_ h1 h2).symm
        rw [Param.cell_read]
        obtain ⟨r, hr⟩ := Option.isSome_iff_exists.mp (hv (.o o .turn))
        unfold St.rd
        rw [hr]; rfl
    | _ => exact hW _ hq
  | p p f =>
    cases f with
    | fx => exact fpart p .fx hq
    | fy => exact fpart p .fy hq
    | _ => exact hW _ hq
  | l l f => exact hW _ hq
  | c c f => exact hW _ hq

theorem mod_created {s : St} {q0 : Pid} {f : Param → Param} {q : Pid} : Created (s.mod q0 f) q ↔ Created s q := by cases q <;> rfl

theorem Pres.created_iff {s s' : St} (h : Pres s s') {q : Pid} : Created s' q ↔ Created s q := by
  cases q with
  | o o f =>
    have := h.orients o
    simp only [Created]
    cases e : s.orients o <;> cases e' : s'.orients o <;> rw [e, e'] at this <;> simp at this ⊢
  | p p f => simp only [Created, h.projs]
  | l l f =>
    have := h.lenses l
    simp only [Created]
    cases e : s.lenses l <;> cases e' : s'.lenses l <;> rw [e, e'] at this <;> simp at this ⊢
  | c c f => simp only [Created, h.cams]

theorem turn_range {s : St} (hr : Reach s) {o : ℕ} (h : s.orients o ≠ none) : -360 ≤ s.rd (.o o .turn) ∧ s.rd (.o o .turn) ≤ 360 := by
  obtain ⟨O, hO⟩ := Option.ne_none_iff_exists'.mp h
  exact (hr.inv.fresh o O hO).2

/-- One parameter is written. -/
theorem desc_put {s : St} (hr : Reach s) {T : Table} (h : Desc s T) {q0 : Pid} {f : Param → Param} {g : Cell → Cell} (hf : ∀ x, (f x).cell = g x.cell)
    (hrd : (f (s.par q0)).read.isSome) {A : Cb → Prop} {P : ℕ → Prop} (hP : ∀ p, s.projs p ≠ none → (A (.focal p) ↔ P p))
    (hA : ∀ o, s.orients o ≠ none → q0 = .o o .turn → A (.matrix o) ∨ (f (s.par q0)).read = (s.par q0).read) (q : Pid) (hq : Created s q) :
    (after (s.mod q0 f) A q).cell = ((T.put q0 g).link P).settle q := by
  refine desc_after (z := s.mod q0 f) (fun q hq => ?_) hP (fun q => ?_) (fun o ho => ?_) q (mod_created.mpr hq)
  · rw [mod_created] at hq
    rw [mod_par]
    unfold Table.put
    split_ifs with e
    · rw [hf, e, h q0 (by rw [← e]; exact hq)]
    · exact h q hq
  · rw [mod_par]
    split_ifs with e
    · rw [← e] at hrd ⊢; exact hrd
    · exact hr.struct.valid q
  · by_cases e : q0 = .o o .turn
    · rcases hA o ho e with k | k
      · exact Or.inl k
      · right
        have : (s.mod q0 f).rd (.o o .turn) = s.rd (.o o .turn) := by
          unfold St.rd
          rw [mod_par, if_pos e.symm, k, e]
        rw [this]
        exact turn_range hr ho
    · right
      have : (s.mod q0 f).rd (.o o .turn) = s.rd (.o o .turn) := by
        unfold St.rd
        rw [mod_par, if_neg (fun k => e k.symm)]
      rw [this]
      exact turn_range hr ho

theorem isFocal_iff {s : St} (hr : Reach s) {q0 : Pid} {p : ℕ} (hp : s.projs p ≠ none) : (s.par q0).callback = some (.focal p) ↔ q0 = .p p .f :=
  ⟨fun h => (hr.struct.focal q0 p h).1, fun h => by rw [h]; exact hr.struct.pf p hp⟩

theorem Desc.param {s : St} (hr : Reach s) {T : Table} {op : Op} (hok : s.ok op) (hp : op.isParam)
    (h : ∀ q, Created s q → ((s.step op).par q).cell = T.step s.dict op q) : Desc (s.step op) (T.step s.dict op) :=
  fun q hq => h q ((step_pres hr.struct hok hp).created_iff.mp hq)

theorem Desc.set {s : St} (hr : Reach s) {T : Table} (h : Desc s T) {v : View} {n : String} {x : Option ℝ} {b : Bool} (hok : s.ok (.set v n x b)) :
    Desc (s.step (.set v n x b)) (T.step s.dict (.set v n x b)) := by
  refine Desc.param hr hok trivial fun q hq => ?_
  cases hl : (s.dict v).lookup n with
  | none => simp only [St.step, Table.step, hl]; exact h q hq
  | some q0 =>
    rw [set_par hr.struct hl]
    simp only [Table.step, hl]
    refine desc_put hr h (fun _ => rfl) ?_ (fun p hp => isFocal_iff hr hp) (fun o ho e => Or.inl (by rw [e]; exact hr.struct.ocb o ho _)) q hq
    unfold Param.read
    rcases hok with hx | hx
    · cases x with
      | none => exact absurd rfl hx
      | some x => rfl
    · cases x with
      | some x => rfl
      | none => exact hr.struct.dflt q0 fun p f e => hx p f (by rw [hl, e])

theorem Desc.setStats {s : St} (hr : Reach s) {T : Table} (h : Desc s T) {v : View} {n : String} {m σ : ℝ} (hok : s.ok (.setStats v n m σ)) :
    Desc (s.step (.setStats v n m σ)) (T.step s.dict (.setStats v n m σ)) := by
  refine Desc.param hr hok trivial fun q hq => ?_
  cases hl : (s.dict v).lookup n with
  | none => simp only [St.step, Table.step, hl]; exact h q hq
  | some q0 =>
    rw [setStats_par hr.struct hl]
    simp only [Table.step, hl]
    exact desc_put hr h (fun _ => rfl) rfl (fun p hp => isFocal_iff hr hp) (fun o ho e => Or.inl (by rw [e]; exact hr.struct.ocb o ho _)) q hq

theorem Desc.setDefault {s : St} (hr : Reach s) {T : Table} (h : Desc s T) {v : View} {n : String} {x : ℝ} (hok : s.ok (.setDefault v n x)) :
    Desc (s.step (.setDefault v n x)) (T.step s.dict (.setDefault v n x)) := by
  refine Desc.param hr hok trivial fun q hq => ?_
  cases hl : (s.dict v).lookup n with
  | none => simp only [St.step, Table.step, hl]; exact h q hq
  | some q0 =>
    rw [setDefault_par hr.struct hl]
    simp only [Table.step, hl]
    have hlink : ∀ W : Table, W.link (fun _ => False) = W := by
      intro W; funext q
      cases q with
      | p p f => cases f <;> simp [Table.link]
      | _ => rfl
    rw [← hlink (T.put q0 _)]
    refine desc_put hr h (fun _ => rfl) ?_ (fun p hp => ?_) (fun o ho e => ?_) q hq
    · unfold Param.read
      cases (s.par q0).value <;> rfl
    · simp only [iff_false, not_and]
      intro h1 h2
      obtain ⟨e, h3⟩ := hr.struct.focal q0 p h2
      rw [e] at h1
      rw [h1] at h3
      simp at h3
    · cases hv : (s.par q0).value with
      | none => exact Or.inl ⟨rfl, by rw [e]; exact hr.struct.ocb o ho _⟩
      | some y => right; simp only [Param.read, hv]

/-- Several parameters are written. -/
theorem desc_many {s z : St} (hr : Reach s) {W : Table} (hu : Upd (fun _ => True) s z) (hW : ∀ q, Created s q → (z.par q).cell = W q) {A : Cb → Prop} {P : ℕ → Prop}
    (hP : ∀ p, s.projs p ≠ none → (A (.focal p) ↔ P p)) (hA : ∀ o, s.orients o ≠ none → A (.matrix o) ∨ z.par (.o o .turn) = s.par (.o o .turn)) (q : Pid)
    (hq : Created s q) : (after z A q).cell = (W.link P).settle q := by
  refine desc_after (fun q hq => hW q (hu.toPres.created_iff.mp hq)) (fun p hp => hP p (by rw [← hu.projs]; exact hp)) (fun q => hu.valid q (hr.struct.valid q)) (fun o h => ?_) q
    (hu.toPres.created_iff.mpr hq)
  rw [hu.orients_eq] at h
  rcases hA o h with k | k
  · exact Or.inl k
  · right
    have : z.rd (.o o .turn) = s.rd (.o o .turn) := by unfold St.rd; rw [k]
    rw [this]
    exact turn_range hr h

theorem Desc.setFit {s : St} (hr : Reach s) {T : Table} (h : Desc s T) {v : View} {vals : List (String × ℝ)} {order : List Cb} (hok : s.ok (.setFit v vals order)) :
    Desc (s.step (.setFit v vals order)) (T.step s.dict (.setFit v vals order)) := by
  refine Desc.param hr hok trivial fun q hq => ?_
  rw [setFit_par hr.struct hok]
  simp only [Table.step]
  refine desc_many hr (Upd.fitLoop vals s fun _ _ _ _ => trivial) (fun q hq => ?_) (fun p hp => ?_) (fun o ho => ?_) q hq
  · rw [fitLoop_par]
    cases lastOf (s.dict v) vals q with
    | none => exact h q hq
    | some x =>
      simp only
      rw [← h q hq]; rfl
  · rw [fitOrder_mem hok]
    constructor
    · rintro ⟨q, h1, h2⟩
      rw [isFocal_iff hr hp] at h2
      rw [← h2]; exact h1
    · exact fun h1 => ⟨_, h1, hr.struct.pf p hp⟩
  · by_cases e : lastOf (s.dict v) vals (.o o .turn) = none
    · right; rw [fitLoop_par, e]
    · left; exact (fitOrder_mem hok _).mpr ⟨_, e, hr.struct.ocb o ho _⟩

theorem Desc.redraw {s z : St} (hr : Reach s) {T : Table} (h : Desc s T) {v : View} {order : List Cb} (hord : IsOrder order (s.allCallbacks (s.dict v)))
    (hu : Upd (fun _ => True) s z) {w : Pid → Option ℝ}
    (hz : ∀ q, Created s q → z.par q = if InDict (s.dict v) q ∧ (s.par q).mean ≠ none then { s.par q with value := w q, boxed := false } else s.par q) (q : Pid) (hq : Created s q) :
    (after z (· ∈ order) q).cell = ((T.redraw (s.dict v) w).link fun p => InDict (s.dict v) (.p p .f)).settle q := by
  refine desc_many hr hu (fun q hq => ?_) (fun p hp => ?_) (fun o ho => ?_) q hq
  · rw [hz q hq]
    unfold Table.redraw
    rw [← h q hq]
    by_cases k : InDict (s.dict v) q ∧ (s.par q).mean ≠ none
    · rw [if_pos k, if_pos (show InDict (s.dict v) q ∧ (s.par q).cell.mean ≠ none from k)]; rfl
    · rw [if_neg k, if_neg (show ¬ (InDict (s.dict v) q ∧ (s.par q).cell.mean ≠ none) from k)]
  · rw [order_mem hord]
    constructor
    · rintro ⟨q, h1, h2⟩
      rw [isFocal_iff hr hp] at h2
      rw [← h2]; exact h1
    · exact fun h1 => ⟨_, h1, hr.struct.pf p hp⟩
  · by_cases e : InDict (s.dict v) (.o o .turn)
    · left; exact (order_mem hord _).mpr ⟨_, e, hr.struct.ocb o ho _⟩
    · right; rw [hz (.o o .turn) ho, if_neg (fun k => e k.1)]

theorem Desc.sample {s : St} (hr : Reach s) {T : Table} (h : Desc s T) {v : View} {draw : Pid → ℝ} {order : List Cb} (hok : s.ok (.sample v draw order)) :
    Desc (s.step (.sample v draw order)) (T.step s.dict (.sample v draw order)) := by
  refine Desc.param hr hok trivial fun q hq => ?_
  rw [sample_par hr.struct hok]
  exact h.redraw hr hok.2 (Upd.sampleLoop _ s fun _ _ => trivial) (fun q _ => sampleLoop_par draw _ s q) q hq

theorem Desc.toMean {s : St} (hr : Reach s) {T : Table} (h : Desc s T) {v : View} {order : List Cb} (hok : s.ok (.toMean v order)) :
    Desc (s.step (.toMean v order)) (T.step s.dict (.toMean v order)) := by
  refine Desc.param hr hok trivial fun q hq => ?_
  rw [toMean_par hr.struct hok]
  refine h.redraw hr hok.2 (Upd.meanLoop _ s fun _ _ => trivial) (fun q hq => ?_) q hq
  rw [meanLoop_par, ← h q hq]
  rfl

theorem Desc.newOrient {s : St} (hr : Reach s) {T : Table} (h : Desc s T) (o : ℕ) (k : OKind) (args : OField → Option ℝ) :
    Desc (s.step (.newOrient o k args)) (T.step s.dict (.newOrient o k args)) := by
  intro q hq
  have e : s.step (.newOrient o k args) = (preOrient s o k args).runMatrix o := rfl
  rw [e] at hq ⊢
  have hc := (Pres.runMatrix (preOrient s o k args) o).created_iff.mp hq
  have ho : ∀ f, ((preOrient s o k args).par (.o o f)).cell = Cell.new (args f) (some (initialO f)) := by
    intro f; rw [preOrient_par_o, newParam_cell, initialO_eq]
  have hrest : ∀ q, Created (preOrient s o k args) q → (∀ f, q ≠ .o o f) → Created s q := by
    intro q hc hne
    cases q with
    | o o' f =>
      have e' : o' ≠ o := fun e' => hne f (by rw [e'])
      simp only [Created, preOrient, Function.update_apply, if_neg e'] at hc
      exact hc
    | _ => exact hc
  simp only [Table.step]
  by_cases et : ∃ o', q = .o o' .turn
  · obtain ⟨o', rfl⟩ := et
    simp only [Table.settle, Table.create]
    by_cases eo : o' = o
    · subst eo
      rw [runMatrix_par_turn, if_pos (by simp [preOrient]), wrapP_cell _ (by rw [preOrient_par_o]; exact newParam_read (Or.inr rfl)), ho]
      simp only [if_true]
    · rw [runMatrix_par _ _ (by simp [eo]), preOrient_par _ _ _ _ (by simp [eo]), if_neg eo]
      simp only
      have hc' := hrest _ hc (by simp [eo])
      rw [← h _ hc']
      obtain ⟨h1, h2⟩ := turn_range hr hc'
      refine (turned_in (x := s.rd (.o o' .turn)) ?_ h1 h2).symm
      rw [Param.cell_read]
      obtain ⟨r, hr⟩ := Option.isSome_iff_exists.mp (hr.struct.valid (.o o' .turn))
      unfold St.rd
      rw [hr]; rfl
  · rw [runMatrix_par _ _ (fun k => et ⟨_, k⟩)]
    have es : ∀ W : Table, W.settle q = W q := by
      intro W
      cases q with
      | o o' f =>
        cases f with
        | turn => exact absurd ⟨o', rfl⟩ et
        | _ => rfl
      | _ => rfl
    rw [es]
    unfold Table.create
    cases q with
    | o o' f =>
      by_cases eo : o' = o
      · subst eo
        simp only [if_true]
        exact ho f
      · simp only [if_neg eo]
        rw [preOrient_par _ _ _ _ (by simp [eo])]
        exact h _ (hrest _ hc (by simp [eo]))
    | p p f => exact h _ hc
    | l l f => exact h _ hc
    | c c f => exact h _ hc

theorem Desc.newProj {s : St} {T : Table} (h : Desc s T) (p : ℕ) (k : Projection.Kind) (args : PField → Option ℝ) (attr : Bool) :
    Desc (s.step (.newProj p k args attr)) (T.step s.dict (.newProj p k args attr)) := by
  intro q hq
  have hd : ∀ f : PField, f.default = initialP f := fun f => by cases f <;> rfl
  simp only [Table.step, Table.create]
  cases q with
  | p p' f =>
    by_cases e : p' = p
    · subst e
      cases f <;> simp only [St.step, St.newProj, if_true] <;> rw [newParam_cell] <;> rfl
    · have hc : Created s (.p p' f) := by
        simp only [Created, St.step, St.newProj, Function.update_apply, if_neg e] at hq
        exact hq
      cases f <;> simp only [St.step, St.newProj, if_neg e] <;> exact h _ hc
  | o o f => exact h (.o o f) hq
  | l l f => exact h (.l l f) hq
  | c c f => exact h (.c c f) hq

theorem Desc.newLens {s : St} {T : Table} (h : Desc s T) (l : ℕ) (k : LKind) (args : LField → Option ℝ) :
    Desc (s.step (.newLens l k args)) (T.step s.dict (.newLens l k args)) := by
  intro q hq
  have e : s.step (.newLens l k args) = (preLens s l k args).runLens l := rfl
  rw [e] at hq ⊢
  have hc := (Pres.runLens (preLens s l k args) l).created_iff.mp hq
  rw [runLens_par]
  simp only [Table.step, Table.create]
  cases q with
  | l l' f =>
    by_cases e : l' = l
    · subst e
      simp only [preLens, if_true]
      rw [newParam_cell]
    · have hc : Created s (.l l' f) := by
        simp only [Created, preLens, Function.update_apply, if_neg e] at hc
        exact hc
      simp only [preLens, if_neg e]
      exact h _ hc
  | o o f => exact h (.o o f) hc
  | p p f => exact h (.p p f) hc
  | c c f => exact h (.c c f) hc

theorem setProjection_cell (s : St) (l p : ℕ) (q : Pid) : ((s.setProjection l p).par q).cell = (s.par q).cell := by
  by_cases h : ∃ L, s.lenses l = some L ∧ L.kind ≠ .none
  · obtain ⟨L, hl, hk⟩ := h
    rw [setProjection_eq hl hk, runLens_par, preBind_par hk]
    split_ifs <;> rfl
  · rw [setProjection_none fun L hL => by by_contra hk; exact h ⟨L, hL, hk⟩]

theorem setProjection_created (s : St) (l p : ℕ) (q : Pid) (hq : Created (s.setProjection l p) q) : Created s q := by
  by_cases h : ∃ L, s.lenses l = some L ∧ L.kind ≠ .none
  · obtain ⟨L, hl, hk⟩ := h
    rw [setProjection_eq hl hk] at hq
    have hc := (Pres.runLens _ _).created_iff.mp hq
    cases q with
    | o o f => simp only [Created, preBind_orients] at hc; exact hc
    | p p f => simp only [Created, preBind_projs] at hc; exact hc
    | l l' f =>
      simp only [Created, preBind_lenses, Function.update_apply] at hc ⊢
      by_cases e : l' = l
      · rw [e, hl]; simp
      · rw [if_neg e] at hc; exact hc
    | c c f =>
      have e := setProjection_cams s l p
      rw [setProjection_eq hl hk] at e
      simp only [Created] at hq ⊢
      rw [e] at hq; exact hq
  · rw [setProjection_none fun L hL => by by_contra hk; exact h ⟨L, hL, hk⟩] at hq; exact hq

theorem Desc.newCam {s : St} {T : Table} (h : Desc s T) (c p o l : ℕ) : Desc (s.step (.newCam c p o l)) (T.step s.dict (.newCam c p o l)) := by
  intro q hq
  have h' : ∀ q, Created (s.setProjection l p) q → ((s.setProjection l p).par q).cell = T q := fun q hq => by
    rw [setProjection_cell]; exact h q (setProjection_created s l p q hq)
  simp only [Table.step, Table.create]
  cases q with
  | c c' f =>
    by_cases e : c' = c
    · subst e
      simp only [St.step, newCam_eq, camTail, if_true]
      rw [newParam_cell]
    · have hc : Created (s.setProjection l p) (.c c' f) := by
        simp only [Created, St.step, newCam_eq, camTail, Function.update_apply, if_neg e] at hq
        exact hq
      simp only [St.step, newCam_eq, camTail, if_neg e]
      exact h' _ hc
  | o o f => exact h' (.o o f) hq
  | p p f => exact h' (.p p f) hq
  | l l f => exact h' (.l l f) hq

theorem RunT.desc {s : St} {T : Table} (h : RunT s T) : Reach s ∧ Desc s T := by
  induction h with
  | start => exact ⟨.start, fun q hq => by cases q <;> exact absurd rfl hq⟩
  | @step s T op _ hok ih =>
    obtain ⟨r, h⟩ := ih
    refine ⟨.step r hok, ?_⟩
    cases op with
    | newOrient o k args => exact h.newOrient r o k args
    | newProj p k args attr => exact h.newProj p k args attr
    | newLens l k args => exact h.newLens l k args
    | newCam c p o l => exact h.newCam c p o l
    | newGroup g d => exact fun q hq => h q (by cases q <;> exact hq)
    | set v n x b => exact h.set r hok
    | setStats v n m σ => exact h.setStats r hok
    | setDefault v n x => exact h.setDefault r hok
    | setFit v vals order => exact h.setFit r hok
    | sample v draw order => exact h.sample r hok
    | toMean v order => exact h.toMean r hok
    | setTrace v t => exact fun q hq => h q (by cases q <;> exact hq)

end Sys

/-- **C162** After any history every parameter of every object holds exactly what the table says: value, default, mean, spread and who set it. -/
theorem C162_table {s : St} {T : Table} (h : RunT s T) {v : View} {n : String} {q : Pid} (hl : (s.dict v).lookup n = some q) :
    (s.par q).value = (T q).val ∧ (s.par q).default = (T q).dflt ∧ (s.par q).mean = (T q).mean ∧ (s.par q).std = (T q).std ∧ (s.par q).state = (T q).who := by
  obtain ⟨r, h⟩ := h.desc
  rw [← h q (r.dicts.lookup_created hl)]
  exact ⟨rfl, rfl, rfl, rfl, rfl⟩

/-- **C162** Reading an attribute reads the table. -/
theorem C162_read {s : St} {T : Table} (h : RunT s T) {v : View} (hv : Plain s v) (n : String) : s.getattr v n = ((s.dict v).lookup n).map fun q => (T q).read := by
  rw [getattr_eq hv]
  obtain ⟨r, h⟩ := h.desc
  cases hl : (s.dict v).lookup n with
  | none => rfl
  | some q =>
    rw [Option.map_some, Option.map_some, ← h q (r.dicts.lookup_created hl), Param.cell_read]

/-- **C162** A fit varies the parameters that, in the table, the user did not set last or that have no value. -/
theorem C162_fit {s : St} {T : Table} (h : RunT s T) (v : View) (n : String) :
    n ∈ s.getFit v none ↔ ∃ q, (n, q) ∈ s.dict v ∧ ((T q).who ≠ .userSet ∨ (T q).val = none) := by
  obtain ⟨r, h⟩ := h.desc
  unfold St.getFit
  rw [List.mem_filterMap]
  have key : ∀ kv ∈ s.dict v, (s.par kv.2).cell = T kv.2 := fun kv hkv => h _ (r.dicts.created hkv)
  constructor
  · rintro ⟨⟨m, q⟩, hm, hc⟩
    simp only [reduceCtorEq, false_and, exists_false, if_false] at hc
    split_ifs at hc with hs
    cases hc
    refine ⟨q, hm, ?_⟩
    rw [← key _ hm]
    exact hs
  · rintro ⟨q, hm, hs⟩
    refine ⟨(n, q), hm, ?_⟩
    rw [← key _ hm] at hs
    simp only [reduceCtorEq, false_and, exists_false, if_false]
    exact if_pos hs

/-- **C162** Every state that can be reached has a table, and it does not depend on how the state was reached as far as existing parameters go. -/
theorem C162_total {s : St} (h : Reach s) : ∃ T, RunT s T ∧ ∀ T', RunT s T' → ∀ v n q, (s.dict v).lookup n = some q → T q = T' q := by
  have ex : ∃ T, RunT s T := by
    induction h with
    | start => exact ⟨_, .start⟩
    | step _ hok ih =>
      obtain ⟨T, hT⟩ := ih
      exact ⟨_, .step hT hok⟩
  obtain ⟨T, hT⟩ := ex
  refine ⟨T, hT, fun T' hT' v n q hl => ?_⟩
  obtain ⟨r, h1⟩ := hT.desc
  obtain ⟨-, h2⟩ := hT'.desc
  rw [← h1 q (r.dicts.lookup_created hl), ← h2 q (r.dicts.lookup_created hl)]

example : ∃ (s : St) (T : Table) (q : Pid), RunT s T ∧ Plain s (.cam 0) ∧ (s.dict (.cam 0)).lookup "focallength_px" = some q := by
  obtain ⟨C, hC, hp, -, -⟩ := Ex.s4_cams
  obtain ⟨T, hT, -⟩ := C162_total Ex.reachX4.reach
  exact ⟨_, T, _, hT, plain_cam _ _, cam_lookup_p Ex.reachX4.reach.dicts hC .f⟩
