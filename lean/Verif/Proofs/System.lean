import Verif.Model.System

/-! Helper lemmas for the parameter system: what every operation preserves. -/

set_option linter.constructorNameAsVariable false

open Classical

namespace Sys

@[simp] theorem mod_par (s : St) (q : Pid) (f : Param → Param) (q' : Pid) :
    (s.mod q f).par q' = if q' = q then f (s.par q) else s.par q' := by
  unfold St.mod; simp [Function.update_apply]

@[simp] theorem mod_orients (s : St) (q f) : (s.mod q f).orients = s.orients := rfl
@[simp] theorem mod_projs (s : St) (q f) : (s.mod q f).projs = s.projs := rfl
@[simp] theorem mod_lenses (s : St) (q f) : (s.mod q f).lenses = s.lenses := rfl
@[simp] theorem mod_cams (s : St) (q f) : (s.mod q f).cams = s.cams := rfl
@[simp] theorem mod_groups (s : St) (q f) : (s.mod q f).groups = s.groups := rfl
@[simp] theorem mod_traces (s : St) (q f) : (s.mod q f).traces = s.traces := rfl

/-- What neither an assignment nor a callback changes: which objects exist, of which kind they are, how they are
connected, the callbacks; defaults and values do not vanish. -/
structure Pres (s s' : St) : Prop where
  orients : ∀ o, (s'.orients o).map OObj.kind = (s.orients o).map OObj.kind
  lenses : ∀ l, (s'.lenses l).map (fun L => (L.kind, L.proj)) = (s.lenses l).map (fun L => (L.kind, L.proj))
  projs : s'.projs = s.projs
  cams : s'.cams = s.cams
  groups : s'.groups = s.groups
  cb : ∀ q, (s'.par q).callback = (s.par q).callback
  type : ∀ q, (s'.par q).type = (s.par q).type
  dflt : ∀ q, (s.par q).default.isSome → (s'.par q).default.isSome
  valid : ∀ q, (s.par q).read.isSome → (s'.par q).read.isSome
  gval : ∀ p (g : PField), g.default = none → (s.par (.p p g)).value.isSome → (s'.par (.p p g)).value.isSome

theorem Pres.fval {s s' : St} (h : Pres s s') (p : ℕ) : (s.par (.p p .f)).value.isSome → (s'.par (.p p .f)).value.isSome :=
  h.gval p .f rfl

theorem Pres.refl (s : St) : Pres s s := ⟨fun _ => rfl, fun _ => rfl, rfl, rfl, rfl, fun _ => rfl, fun _ => rfl, fun _ h => h, fun _ h => h, fun _ _ _ h => h⟩

theorem Pres.trans {a b c : St} (h : Pres a b) (k : Pres b c) : Pres a c where
  orients o := (k.orients o).trans (h.orients o)
  lenses l := (k.lenses l).trans (h.lenses l)
  projs := k.projs.trans h.projs
  cams := k.cams.trans h.cams
  groups := k.groups.trans h.groups
  cb q := (k.cb q).trans (h.cb q)
  type q := (k.type q).trans (h.type q)
  dflt q x := k.dflt q (h.dflt q x)
  valid q x := k.valid q (h.valid q x)
  gval q g d x := k.gval q g d (h.gval q g d x)

theorem Pres.mod {s : St} {q : Pid} {f : Param → Param} (hc : (f (s.par q)).callback = (s.par q).callback)
    (ht : (f (s.par q)).type = (s.par q).type)
    (hd : (s.par q).default.isSome → (f (s.par q)).default.isSome)
    (hv : (s.par q).read.isSome → (f (s.par q)).read.isSome)
    (hf : ∀ p (g : PField), q = .p p g → g.default = none → (s.par q).value.isSome → (f (s.par q)).value.isSome) : Pres s (s.mod q f) where
  orients _ := rfl
  lenses _ := rfl
  projs := rfl
  cams := rfl
  groups := rfl
  cb q' := by rw [mod_par]; split_ifs with h; · rw [h, hc]
              · rfl
  type q' := by rw [mod_par]; split_ifs with h; · rw [h, ht]
                · rfl
  dflt q' x := by rw [mod_par]; split_ifs with h; · exact hd (h ▸ x)
                  · exact x
  valid q' x := by rw [mod_par]; split_ifs with h; · exact hv (h ▸ x)
                   · exact x
  gval p g d x := by rw [mod_par]; split_ifs with h; · exact hf p g h.symm d (h ▸ x)
                     · exact x

theorem Pres.wrapTurn (s : St) (o : ℕ) : Pres s (s.wrapTurn o) := by
  unfold St.wrapTurn
  split_ifs
  · exact Pres.mod rfl rfl id (fun _ => rfl) (fun _ _ _ _ _ => rfl)
  · exact Pres.refl _

theorem wrapTurn_frame (s : St) (o : ℕ) : (s.wrapTurn o).orients = s.orients ∧ (s.wrapTurn o).lenses = s.lenses ∧
    (s.wrapTurn o).projs = s.projs ∧ (s.wrapTurn o).cams = s.cams ∧ (s.wrapTurn o).groups = s.groups ∧
    (s.wrapTurn o).traces = s.traces ∧ ∀ q, q ≠ .o o .turn → (s.wrapTurn o).par q = s.par q := by
  unfold St.wrapTurn
  split_ifs
  · refine ⟨rfl, rfl, rfl, rfl, rfl, rfl, fun q h => ?_⟩
    rw [mod_par, if_neg h]
  · exact ⟨rfl, rfl, rfl, rfl, rfl, rfl, fun _ _ => rfl⟩

theorem Pres.runMatrix (s : St) (o : ℕ) : Pres s (s.runMatrix o) := by
  unfold St.runMatrix
  cases ho : s.orients o with
  | none => exact Pres.refl s
  | some O =>
    have h := Pres.wrapTurn s o
    refine ⟨fun o' => ?_, h.lenses, h.projs, h.cams, h.groups, h.cb, h.type, h.dflt, h.valid, h.gval⟩
    simp only [Function.update_apply]
    split_ifs with e
    · rw [e, ho]; rfl
    · rw [(wrapTurn_frame s o).1]

theorem Pres.runLens (s : St) (l : ℕ) : Pres s (s.runLens l) := by
  unfold St.runLens
  cases hl : s.lenses l with
  | none => exact Pres.refl s
  | some L =>
    refine ⟨fun _ => rfl, fun l' => ?_, rfl, rfl, rfl, fun _ => rfl, fun _ => rfl, fun _ h => h, fun _ h => h, fun _ _ _ h => h⟩
    simp only [Function.update_apply]
    split_ifs with e
    · rw [e, hl]; rfl
    · rfl

theorem Pres.runSimple (s : St) (cb : Option Cb) : Pres s (s.runSimple cb) := by
  unfold St.runSimple
  split
  · exact Pres.runMatrix _ _
  · exact Pres.runLens _ _
  · exact Pres.refl _

theorem runMatrix_par (s : St) (o : ℕ) {q : Pid} (h : q ≠ .o o .turn) : (s.runMatrix o).par q = s.par q := by
  unfold St.runMatrix
  cases s.orients o with
  | none => rfl
  | some O => exact (wrapTurn_frame s o).2.2.2.2.2.2 q h

@[simp] theorem runLens_par (s : St) (l : ℕ) : (s.runLens l).par = s.par := by
  unfold St.runLens; split <;> rfl

@[simp] theorem runLens_orients (s : St) (l : ℕ) : (s.runLens l).orients = s.orients := by
  unfold St.runLens; split <;> rfl

@[simp] theorem runLens_projs (s : St) (l : ℕ) : (s.runLens l).projs = s.projs := by
  unfold St.runLens; split <;> rfl

theorem runMatrix_lenses (s : St) (o : ℕ) : (s.runMatrix o).lenses = s.lenses := by
  unfold St.runMatrix; split; · rfl
  · exact (wrapTurn_frame s o).2.1

theorem runMatrix_projs (s : St) (o : ℕ) : (s.runMatrix o).projs = s.projs := by
  unfold St.runMatrix; split; · rfl
  · exact (wrapTurn_frame s o).2.2.1

theorem runMatrix_traces (s : St) (o : ℕ) : (s.runMatrix o).traces = s.traces := by
  unfold St.runMatrix; split; · rfl
  · exact (wrapTurn_frame s o).2.2.2.2.2.1

/-- Outside of orientation parameters `runSimple` changes no parameter. -/
theorem runSimple_par (s : St) (cb : Option Cb) {q : Pid} (h : ∀ o f, q ≠ .o o f) : (s.runSimple cb).par q = s.par q := by
  unfold St.runSimple
  split
  · exact runMatrix_par _ _ (h _ _)
  · rw [runLens_par]
  · rfl

theorem Pres.copyF {s : St} {p : ℕ} (hf : (s.par (.p p .f)).value.isSome) (g : PField) : Pres s (s.copyF p g) := by
  unfold St.copyF
  refine Pres.trans (Pres.mod rfl rfl id (fun _ => ?_) (fun _ _ _ _ _ => hf)) (Pres.runSimple _ _)
  unfold Param.read
  obtain ⟨v, hv⟩ := Option.isSome_iff_exists.1 hf
  rw [hv]; rfl

theorem Pres.run {s : St} (cb : Cb) (hf : ∀ p, cb = .focal p → (s.par (.p p .f)).value.isSome) : Pres s (s.run cb) := by
  cases cb with
  | matrix o => exact Pres.runMatrix s o
  | lens l => exact Pres.runLens s l
  | focal p =>
    have h1 := Pres.copyF (hf p rfl) .fx
    exact h1.trans (Pres.copyF (h1.fval p (hf p rfl)) .fy)

/-! ### structure -/

/-- The callbacks are in place and all parameters have values. -/
structure Struct (s : St) : Prop where
  ocb : ∀ o, s.orients o ≠ none → ∀ f, (s.par (.o o f)).callback = some (.matrix o)
  dflt : ∀ q, (∀ p f, q = .p p f → f.default ≠ none) → (s.par q).default.isSome
  lcb : ∀ l, s.lenses l ≠ none → ∀ f, (s.par (.l l f)).callback = some (.lens l)
  valid : ∀ q, (s.par q).read.isSome
  focal : ∀ q p, (s.par q).callback = some (.focal p) → q = .p p .f ∧ (s.par (.p p .f)).value.isSome
  pf : ∀ p, s.projs p ≠ none → (s.par (.p p .f)).callback = some (.focal p)
  pcb : ∀ p g o, (s.par (.p p g)).callback ≠ some (.matrix o)
  gval : ∀ p, s.projs p ≠ none → ∀ g : PField, g.default = none → (s.par (.p p g)).value.isSome

theorem Pres.orients_ne {s s' : St} (h : Pres s s') {o : ℕ} (k : s'.orients o ≠ none) : s.orients o ≠ none := by
  intro e; have := h.orients o; rw [e] at this; cases hh : s'.orients o <;> simp_all

theorem Pres.lenses_ne {s s' : St} (h : Pres s s') {o : ℕ} (k : s'.lenses o ≠ none) : s.lenses o ≠ none := by
  intro e; have := h.lenses o; rw [e] at this; cases hh : s'.lenses o <;> simp_all

theorem Struct.pres {s s' : St} (hs : Struct s) (h : Pres s s') : Struct s' where
  ocb o k f := by rw [h.cb]; exact hs.ocb o (h.orients_ne k) f
  dflt q k := h.dflt _ (hs.dflt q k)
  lcb o k f := by rw [h.cb]; exact hs.lcb o (h.lenses_ne k) f
  valid q := h.valid q (hs.valid q)
  focal q p k := by rw [h.cb] at k; exact ⟨(hs.focal q p k).1, h.fval p (hs.focal q p k).2⟩
  pf p k := by rw [h.projs] at k; rw [h.cb]; exact hs.pf p k
  pcb p g o k := by rw [h.cb] at k; exact hs.pcb p g o k
  gval p k g d := by rw [h.projs] at k; exact h.gval p g d (hs.gval p k g d)

/-! ### orientations -/

/-- The matrices of an orientation belong to the current values. -/
def FreshO (s : St) (o : ℕ) : Prop := ∀ O, s.orients o = some O →
  O.mat = s.matOf O.kind o ∧ -360 ≤ s.rd (.o o .turn) ∧ s.rd (.o o .turn) ≤ 360

theorem matOf_congr {s s' : St} {o : ℕ} (h : ∀ f, s'.rd (.o o f) = s.rd (.o o f)) (k : OKind) : s'.matOf k o = s.matOf k o := by
  unfold St.matOf; cases k <;> simp only [h]

theorem FreshO.congr {s s' : St} {o : ℕ} (hf : FreshO s o) (ho : s'.orients o = s.orients o)
    (h : ∀ f, s'.rd (.o o f) = s.rd (.o o f)) : FreshO s' o := by
  intro O hO
  rw [ho] at hO
  rw [matOf_congr h, h]
  exact hf O hO

theorem pymod_range (x : ℝ) : 0 ≤ Spatial.pymod x 360 ∧ Spatial.pymod x 360 < 360 := by
  unfold Spatial.pymod
  have h1 := Int.floor_le (x / 360)
  have h2 := Int.lt_floor_add_one (x / 360)
  have h3 : x / 360 * 360 = x := div_mul_cancel₀ x (by norm_num)
  constructor <;> nlinarith

theorem rd_eq_of_par {s s' : St} {q : Pid} (h : s'.par q = s.par q) : s'.rd q = s.rd q := by
  unfold St.rd; rw [h]

theorem wrapTurn_range (s : St) (o : ℕ) : -360 ≤ (s.wrapTurn o).rd (.o o .turn) ∧ (s.wrapTurn o).rd (.o o .turn) ≤ 360 := by
  unfold St.wrapTurn
  split_ifs with h
  · have := pymod_range (s.rd (.o o .turn))
    unfold St.rd at *
    simp only [mod_par, if_true, Param.read, Option.getD_some] at *
    constructor <;> linarith
  · rw [not_or] at h; constructor <;> linarith [h.1, h.2]

theorem freshO_runMatrix (s : St) (o : ℕ) : FreshO (s.runMatrix o) o := by
  intro O hO
  unfold St.runMatrix at *
  cases ho : s.orients o with
  | none => rw [ho] at hO; simp only at hO; rw [ho] at hO; cases hO
  | some O' =>
    rw [ho] at hO
    simp only [Function.update_self, Option.some.injEq] at hO ⊢
    subst hO
    exact ⟨rfl, wrapTurn_range s o⟩

theorem runMatrix_orients_ne (s : St) {o o' : ℕ} (h : o' ≠ o) : (s.runMatrix o).orients o' = s.orients o' := by
  unfold St.runMatrix
  cases s.orients o with
  | none => rfl
  | some O => simp only [Function.update_apply, if_neg h, (wrapTurn_frame s o).1]

theorem FreshO.runMatrix {s : St} {o' : ℕ} (h : FreshO s o') (o : ℕ) : FreshO (s.runMatrix o) o' := by
  by_cases e : o' = o
  · rw [e]; exact freshO_runMatrix s o
  · exact h.congr (runMatrix_orients_ne s e) fun f => rd_eq_of_par (runMatrix_par s o (by intro hh; cases hh; exact e rfl))

theorem FreshO.runLens {s : St} {o : ℕ} (h : FreshO s o) (l : ℕ) : FreshO (s.runLens l) o :=
  h.congr (by rw [runLens_orients]) fun f => rd_eq_of_par (by rw [runLens_par])

theorem FreshO.runSimple {s : St} {o : ℕ} (h : FreshO s o) (cb : Option Cb) : FreshO (s.runSimple cb) o := by
  unfold St.runSimple
  split
  · exact h.runMatrix _
  · exact h.runLens _
  · exact h

theorem FreshO.copyF {s : St} {o : ℕ} (h : FreshO s o) (p : ℕ) (g : PField) : FreshO (s.copyF p g) o := by
  unfold St.copyF
  apply FreshO.runSimple
  exact h.congr rfl fun f => rd_eq_of_par (by rw [mod_par, if_neg (by simp)])

theorem FreshO.run {s : St} {o : ℕ} (h : FreshO s o) (cb : Cb) : FreshO (s.run cb) o := by
  cases cb with
  | matrix o' => exact h.runMatrix o'
  | lens l => exact h.runLens l
  | focal p => exact (h.copyF p .fx).copyF p .fy

theorem freshO_runAll (order : List Cb) : ∀ s : St, ∀ o, (FreshO s o ∨ .matrix o ∈ order) → FreshO (s.runAll order) o := by
  induction order with
  | nil => intro s o h; rcases h with h | h; · exact h
           · simp at h
  | cons cb t ih =>
    intro s o h
    show FreshO ((s.run cb).runAll t) o
    apply ih
    rcases h with h | h
    · exact Or.inl (h.run cb)
    · rcases List.mem_cons.1 h with h | h
      · left; rw [← h]; exact freshO_runMatrix s o
      · exact Or.inr h

/-! ### lenses -/

/-- The attributes of a lens belong to the current values. -/
def FreshL (s : St) (l : ℕ) : Prop := ∀ L, s.lenses l = some L → L.kind ≠ .none → L.snap = s.snapOf l L.kind L.proj L.snap

/-- A lens is called back by the parameters of its projection. -/
def Bound (s : St) : Prop := ∀ l L p, s.lenses l = some L → L.kind ≠ .none → L.proj = some p →
  s.projs p ≠ none ∧ ∀ g ∈ PField.lens, (s.par (.p p g)).callback = some (.lens l)

theorem Bound.pres {s s' : St} (hb : Bound s) (h : Pres s s') : Bound s' := by
  intro l L p hl hk hp
  have := h.lenses l
  rw [hl] at this
  cases hh : s.lenses l with
  | none => rw [hh] at this; simp at this
  | some L0 =>
    rw [hh] at this
    simp only [Option.map_some, Option.some.injEq, Prod.mk.injEq] at this
    have := hb l L0 p hh (by rw [← this.1]; exact hk) (by rw [← this.2]; exact hp)
    rw [h.projs]
    exact ⟨this.1, fun g hg => by rw [h.cb]; exact this.2 g hg⟩

theorem snapOf_congr {s s' : St} {l : ℕ} {proj : Option ℕ} (hp : s'.projs = s.projs) (h : ∀ f, s'.rd (.l l f) = s.rd (.l l f))
    (h' : ∀ p, proj = some p → ∀ g ∈ PField.lens, s'.rd (.p p g) = s.rd (.p p g)) (k : LKind) (old : Snap) :
    s'.snapOf l k proj old = s.snapOf l k proj old := by
  unfold St.snapOf
  cases proj with
  | none => simp only [h]
  | some p =>
    have h' := h' p rfl
    have w : s'.projWidth p = s.projWidth p := by unfold St.projWidth; rw [hp, h' .iw (by simp [PField.lens])]
    have hh : s'.projHeight p = s.projHeight p := by unfold St.projHeight; rw [hp, h' .ih (by simp [PField.lens])]
    cases k
    · rfl
    · simp only [h, h' .fx (by simp [PField.lens]), h' .fy (by simp [PField.lens]), h' .cx (by simp [PField.lens]), h' .cy (by simp [PField.lens])]
    · simp only [h, w, hh, h' .cx (by simp [PField.lens]), h' .cy (by simp [PField.lens])]

theorem FreshL.congr {s s' : St} {l : ℕ} (hf : FreshL s l) (hl : s'.lenses l = s.lenses l) (hp : s'.projs = s.projs)
    (h : ∀ f, s'.rd (.l l f) = s.rd (.l l f))
    (h' : ∀ L p, s.lenses l = some L → L.kind ≠ .none → L.proj = some p → ∀ g ∈ PField.lens, s'.rd (.p p g) = s.rd (.p p g)) : FreshL s' l := by
  intro L hL hk
  rw [hl] at hL
  rw [snapOf_congr hp h (fun p e => h' L p hL hk e)]
  exact hf L hL hk

theorem snapOf_idem (s : St) (l : ℕ) (k : LKind) (proj : Option ℕ) (old : Snap) :
    s.snapOf l k proj (s.snapOf l k proj old) = s.snapOf l k proj old := by
  unfold St.snapOf
  cases proj with
  | none => rfl
  | some p => cases k <;> rfl

theorem freshL_runLens (s : St) (l : ℕ) : FreshL (s.runLens l) l := by
  intro L hL _
  unfold St.runLens at *
  cases hl : s.lenses l with
  | none => rw [hl] at hL; simp only at hL; rw [hl] at hL; cases hL
  | some L' =>
    rw [hl] at hL
    simp only [Function.update_self, Option.some.injEq] at hL ⊢
    subst hL
    exact (snapOf_idem s l L'.kind L'.proj L'.snap).symm

theorem runLens_lenses_ne (s : St) {l l' : ℕ} (h : l' ≠ l) : (s.runLens l).lenses l' = s.lenses l' := by
  unfold St.runLens
  cases s.lenses l with
  | none => rfl
  | some L => simp only [Function.update_apply, if_neg h]

theorem FreshL.runLens {s : St} {l' : ℕ} (h : FreshL s l') (l : ℕ) : FreshL (s.runLens l) l' := by
  by_cases e : l' = l
  · rw [e]; exact freshL_runLens s l
  · exact h.congr (runLens_lenses_ne s e) (runLens_projs s l) (fun f => rd_eq_of_par (by rw [runLens_par]))
      fun _ _ _ _ _ _ _ => rd_eq_of_par (by rw [runLens_par])

theorem FreshL.runMatrix {s : St} {l : ℕ} (h : FreshL s l) (o : ℕ) : FreshL (s.runMatrix o) l :=
  h.congr (by rw [runMatrix_lenses]) (runMatrix_projs s o) (fun f => rd_eq_of_par (runMatrix_par s o (by simp)))
    fun _ _ _ _ _ _ _ => rd_eq_of_par (runMatrix_par s o (by simp))

theorem FreshL.runSimple {s : St} {l : ℕ} (h : FreshL s l) (cb : Option Cb) : FreshL (s.runSimple cb) l := by
  unfold St.runSimple
  split
  · exact h.runMatrix _
  · exact h.runLens _
  · exact h

theorem FreshL.copyF {s : St} {l : ℕ} (hb : Bound s) (h : FreshL s l) (p : ℕ) {g : PField} (hg : g ∈ PField.lens) : FreshL (s.copyF p g) l := by
  unfold St.copyF
  by_cases e : ∃ L, s.lenses l = some L ∧ L.kind ≠ .none ∧ L.proj = some p
  · obtain ⟨L, hL, hk, hp⟩ := e
    have := (hb l L p hL hk hp).2 g hg
    simp only [mod_par, if_true, this, St.runSimple]
    exact freshL_runLens _ l
  · apply FreshL.runSimple
    refine h.congr rfl rfl (fun f => rd_eq_of_par (by rw [mod_par, if_neg (by simp)])) ?_
    intro L p' hL hk hp g' _
    apply rd_eq_of_par
    rw [mod_par, if_neg]
    intro hh
    cases hh
    exact e ⟨L, hL, hk, hp⟩

theorem FreshL.run {s : St} {l : ℕ} (hb : Bound s) (h : FreshL s l) (cb : Cb)
    (hf : ∀ p, cb = .focal p → (s.par (.p p .f)).value.isSome) : FreshL (s.run cb) l := by
  cases cb with
  | matrix o' => exact h.runMatrix o'
  | lens l => exact h.runLens l
  | focal p => exact FreshL.copyF (hb.pres (Pres.copyF (hf p rfl) .fx)) (h.copyF hb p (by simp [PField.lens])) p (by simp [PField.lens])

theorem Pres.runAll {order : List Cb} : ∀ {s : St}, (∀ p, .focal p ∈ order → (s.par (.p p .f)).value.isSome) → Pres s (s.runAll order) := by
  induction order with
  | nil => intro s _; exact Pres.refl s
  | cons cb t ih =>
    intro s hf
    have h1 := Pres.run cb (s := s) fun p e => hf p (by simp [e])
    exact h1.trans (ih fun p hp => h1.fval p (hf p (by simp [hp])))

theorem freshL_runAll (order : List Cb) : ∀ s : St, Bound s → (∀ p, .focal p ∈ order → (s.par (.p p .f)).value.isSome) →
    ∀ l, (FreshL s l ∨ .lens l ∈ order) → FreshL (s.runAll order) l := by
  induction order with
  | nil => intro s _ _ o h; rcases h with h | h; · exact h
           · simp at h
  | cons cb t ih =>
    intro s hb hf l h
    have h1 := Pres.run cb (s := s) fun p e => hf p (by simp [e])
    show FreshL ((s.run cb).runAll t) l
    apply ih _ (hb.pres h1) (fun p hp => h1.fval p (hf p (by simp [hp])))
    rcases h with h | h
    · exact Or.inl (h.run hb cb fun p e => hf p (by simp [e]))
    · rcases List.mem_cons.1 h with h | h
      · left; rw [← h]; exact freshL_runLens s l
      · exact Or.inr h

/-! ### assignments -/

/-- `s'` arises from `s` by changing only values, and the reads only of the parameters in `S`. -/
structure Upd (S : Pid → Prop) (s s' : St) : Prop extends Pres s s' where
  orients_eq : s'.orients = s.orients
  lenses_eq : s'.lenses = s.lenses
  read : ∀ q, ¬ S q → (s'.par q).read = (s.par q).read

theorem Upd.refl (S : Pid → Prop) (s : St) : Upd S s s := { Pres.refl s with orients_eq := rfl, lenses_eq := rfl, read := fun _ _ => rfl }

theorem Upd.trans {S : Pid → Prop} {a b c : St} (h : Upd S a b) (k : Upd S b c) : Upd S a c :=
  { h.toPres.trans k.toPres with
    orients_eq := k.orients_eq.trans h.orients_eq
    lenses_eq := k.lenses_eq.trans h.lenses_eq
    read := fun q hq => (k.read q hq).trans (h.read q hq) }

theorem Upd.mono {S T : Pid → Prop} {a b : St} (h : Upd S a b) (hST : ∀ q, S q → T q) : Upd T a b :=
  { h.toPres with
    orients_eq := h.orients_eq
    lenses_eq := h.lenses_eq
    read := fun q hq => h.read q fun x => hq (hST q x) }

theorem Upd.mod {S : Pid → Prop} {s : St} {q : Pid} {f : Param → Param} (h : Pres s (s.mod q f))
    (hr : S q ∨ (f (s.par q)).read = (s.par q).read) : Upd S s (s.mod q f) :=
  { h with
    orients_eq := rfl
    lenses_eq := rfl
    read := by
      intro q' hq'
      rw [mod_par]
      split_ifs with e
      · rw [e]
        rcases hr with hr | hr
        · rw [e] at hq'; exact absurd hr hq'
        · exact hr
      · rfl }

theorem rd_eq_of_read {s s' : St} {q : Pid} (h : (s'.par q).read = (s.par q).read) : s'.rd q = s.rd q := by
  unfold St.rd; rw [h]

/-- After changing the values in `S` and calling at least the callbacks of `S`, all orientations are up to date. -/
theorem Upd.freshO {S : Pid → Prop} {s s' : St} (h : Upd S s s') (hs : Struct s) {order : List Cb}
    (hS : ∀ q, S q → ∀ cb, (s.par q).callback = some cb → cb ∈ order) (hf : ∀ o, FreshO s o) (o : ℕ) :
    FreshO (s'.runAll order) o := by
  apply freshO_runAll
  by_cases e : ∃ f, S (.o o f)
  · obtain ⟨f, hf'⟩ := e
    cases ho : s.orients o with
    | none => left; intro O hO; rw [h.orients_eq, ho] at hO; cases hO
    | some O => right; exact hS _ hf' _ (hs.ocb o (by simp [ho]) f)
  · left
    exact (hf o).congr (by rw [h.orients_eq]) fun f => rd_eq_of_read (h.read _ fun x => e ⟨f, x⟩)

/-- The same for the lenses. -/
theorem Upd.freshL {S : Pid → Prop} {s s' : St} (h : Upd S s s') (hs : Struct s) (hb : Bound s) {order : List Cb}
    (hS : ∀ q, S q → ∀ cb, (s.par q).callback = some cb → cb ∈ order)
    (hfo : ∀ p, .focal p ∈ order → (s.par (.p p .f)).value.isSome) (hf : ∀ l, FreshL s l) (l : ℕ) :
    FreshL (s'.runAll order) l := by
  apply freshL_runAll _ _ (hb.pres h.toPres) fun p hp => h.fval p (hfo p hp)
  cases hl : s.lenses l with
  | none => left; intro L hL; rw [h.lenses_eq, hl] at hL; cases hL
  | some L =>
    by_cases e : ∃ f, S (.l l f)
    · obtain ⟨f, hf'⟩ := e
      right; exact hS _ hf' _ (hs.lcb l (by simp [hl]) f)
    · by_cases e' : ∃ p, L.proj = some p ∧ L.kind ≠ .none ∧ ∃ g ∈ PField.lens, S (.p p g)
      · obtain ⟨p, hp, hk, g, hg, hSg⟩ := e'
        right; exact hS _ hSg _ ((hb l L p hl hk hp).2 g hg)
      · left
        refine (hf l).congr (by rw [h.lenses_eq]) h.projs (fun f => rd_eq_of_read (h.read _ fun x => e ⟨f, x⟩)) ?_
        intro L' p hL' hk hp g hg
        rw [hl] at hL'; cases hL'
        exact rd_eq_of_read (h.read _ fun x => e' ⟨p, hp, hk, g, hg, x⟩)

end Sys
