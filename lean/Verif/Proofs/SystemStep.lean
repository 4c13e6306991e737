import Verif.Proofs.System

/-! Every operation preserves the invariants of the parameter system. -/

set_option linter.constructorNameAsVariable false

open Classical

namespace Sys

theorem runOpt_eq (s : St) (cb : Option Cb) : s.runOpt cb = s.runAll cb.toList := by cases cb <;> rfl

theorem lookup_mem {d : Dict} {n : String} {q : Pid} (h : d.lookup n = some q) : (n, q) ∈ d := by
  induction d with
  | nil => simp at h
  | cons a t ih =>
    obtain ⟨k, v⟩ := a
    rw [List.lookup_cons] at h
    by_cases e : n = k
    · subst e; simp at h; simp [h]
    · have : (n == k) = false := by simpa using e
      rw [this] at h
      exact List.mem_cons_of_mem _ (ih h)

theorem Upd.fitLoop {S : Pid → Prop} {d : Dict} (vals : List (String × ℝ)) : ∀ s : St,
    (∀ nv ∈ vals, ∀ q, d.lookup nv.1 = some q → S q) → Upd S s (s.fitLoop d vals) := by
  induction vals with
  | nil => intro s _; exact Upd.refl S s
  | cons a t ih =>
    intro s h
    obtain ⟨n, v⟩ := a
    unfold St.fitLoop
    have ht := fun s => ih s fun nv hnv q hq => h nv (by simp [hnv]) q hq
    cases hl : d.lookup n with
    | none => exact ht s
    | some q =>
      refine Upd.trans (Upd.mod (Pres.mod rfl rfl id (fun _ => rfl) fun _ _ _ _ _ => rfl) (Or.inl ?_)) (ht _)
      exact h (n, v) (by simp) q hl

theorem Upd.sampleLoop {S : Pid → Prop} {draw : Pid → ℝ} (d : Dict) : ∀ s : St,
    (∀ kv ∈ d, S kv.2) → Upd S s (s.sampleLoop draw d) := by
  induction d with
  | nil => intro s _; exact Upd.refl S s
  | cons a t ih =>
    intro s h
    obtain ⟨n, q⟩ := a
    unfold St.sampleLoop
    refine Upd.trans (Upd.mod (Pres.mod ?_ ?_ ?_ ?_ ?_) (Or.inl (h (n, q) (by simp)))) (ih _ fun kv hkv => h kv (by simp [hkv]))
    all_goals split_ifs
    all_goals first | rfl | exact id | exact fun _ => rfl | exact fun _ _ _ _ _ => rfl | exact fun _ _ _ _ h => h

theorem read_some {x : Param} (h : x.value.isSome) : x.read.isSome := by
  unfold Param.read; obtain ⟨v, hv⟩ := Option.isSome_iff_exists.1 h; rw [hv]; rfl

theorem Upd.meanLoop {S : Pid → Prop} (d : Dict) : ∀ s : St,
    (∀ kv ∈ d, S kv.2) → Upd S s (s.meanLoop d) := by
  induction d with
  | nil => intro s _; exact Upd.refl S s
  | cons a t ih =>
    intro s h
    obtain ⟨n, q⟩ := a
    unfold St.meanLoop
    refine Upd.trans (Upd.mod (Pres.mod ?_ ?_ ?_ ?_ ?_) (Or.inl (h (n, q) (by simp)))) (ih _ fun kv hkv => h kv (by simp [hkv]))
    all_goals split_ifs with hm
    all_goals first | rfl | exact id | exact fun _ => read_some hm | exact fun _ _ _ _ _ => hm | exact fun _ _ _ _ h => h

/-- Operations on existing objects. -/
def Op.isParam : Op → Prop
  | .set .. | .setStats .. | .setDefault .. | .setFit .. | .sample .. | .toMean .. => True
  | _ => False

/-- An operation on existing objects changes some values and then calls at least the callbacks of these values. -/
theorem step_upd {s : St} (hs : Struct s) {op : Op} (hok : s.ok op) (hp : op.isParam) :
    ∃ S s' order, s.step op = s'.runAll order ∧ Upd S s s' ∧
      (∀ q, S q → ∀ cb, (s.par q).callback = some cb → cb ∈ order) ∧
      (∀ p, .focal p ∈ order → (s.par (.p p .f)).value.isSome) := by
  have hfoc : ∀ q p, Cb.focal p ∈ (s.par q).callback.toList → (s.par (.p p .f)).value.isSome := by
    intro q p h; rw [Option.mem_toList] at h; exact (hs.focal q p h).2
  have triv : ∃ S s' order, s = St.runAll s' order ∧ Upd S s s' ∧
      (∀ q, S q → ∀ cb, (s.par q).callback = some cb → cb ∈ order) ∧
      (∀ p, .focal p ∈ order → (s.par (.p p .f)).value.isSome) :=
    ⟨fun _ => False, s, [], rfl, Upd.refl _ s, fun _ h => h.elim, fun _ h => by simp at h⟩
  have single : ∀ q : Pid, ∀ q', q' = q → ∀ cb, (s.par q').callback = some cb → cb ∈ (s.par q).callback.toList := by
    rintro q q' rfl cb h; rw [h]; simp
  cases op with
  | set v name x b =>
    simp only [St.step]
    cases hl : (s.dict v).lookup name with
    | none => exact triv
    | some q =>
      simp only [St.assign, runOpt_eq, mod_par, if_true]
      refine ⟨fun q' => q' = q, _, _, rfl, Upd.mod (Pres.mod rfl rfl id ?_ ?_) (Or.inl rfl), single q, hfoc q⟩
      · intro hr
        cases x with
        | some x => rfl
        | none =>
          rcases hok with hok | hok
          · exact absurd rfl hok
          · exact hs.dflt q fun p f e => hok p f (by rw [hl, e])
      · rintro p g rfl hg _
        rcases hok with hok | hok
        · cases x with
          | some x => rfl
          | none => exact absurd rfl hok
        · exact absurd hg (hok p g hl)
  | setStats v name m σ =>
    simp only [St.step]
    cases hl : (s.dict v).lookup name with
    | none => exact triv
    | some q =>
      simp only [St.assignStats, runOpt_eq, mod_par, if_true]
      exact ⟨fun q' => q' = q, _, _, rfl, Upd.mod (Pres.mod rfl rfl id (fun _ => rfl) fun _ _ _ _ _ => rfl) (Or.inl rfl), single q, hfoc q⟩
  | setDefault v name x =>
    simp only [St.step]
    cases hl : (s.dict v).lookup name with
    | none => exact triv
    | some q =>
      simp only [St.assignDefault, runOpt_eq, mod_par, if_true]
      have hpres : Pres s (s.mod q fun x_1 => { x_1 with default := some x }) := by
        refine Pres.mod rfl rfl (fun _ => rfl) (fun hr => ?_) fun _ _ _ _ h => h
        unfold Param.read at *
        simp only
        cases hv : (s.par q).value <;> rfl
      split_ifs with hv
      · exact ⟨fun q' => q' = q, _, _, rfl, Upd.mod hpres (Or.inl rfl), single q, hfoc q⟩
      · refine ⟨fun _ => False, _, [], rfl, Upd.mod hpres (Or.inr ?_), fun _ h => h.elim, fun _ h => by simp at h⟩
        unfold Param.read
        cases hh : (s.par q).value
        · exact absurd hh hv
        · rfl
  | setFit v vals order =>
    refine ⟨fun q => ∃ nv ∈ vals, (s.dict v).lookup nv.1 = some q, _, order, rfl, Upd.fitLoop vals s fun nv h q hq => ⟨nv, h, hq⟩, ?_, ?_⟩
    · rintro q ⟨nv, h, hq⟩ cb hcb
      rw [hok.2, St.fitCallbacks, List.mem_filterMap]
      exact ⟨nv, h, by rw [hq]; exact hcb⟩
    · intro p h
      rw [hok.2, St.fitCallbacks, List.mem_filterMap] at h
      obtain ⟨nv, -, h⟩ := h
      cases hq : (s.dict v).lookup nv.1 with
      | none => rw [hq] at h; cases h
      | some q => rw [hq] at h; exact (hs.focal q p h).2
  | sample v draw order =>
    refine ⟨fun q => ∃ kv ∈ s.dict v, kv.2 = q, _, order, rfl, Upd.sampleLoop _ s fun kv h => ⟨kv, h, rfl⟩, ?_, ?_⟩
    · rintro q ⟨kv, h, rfl⟩ cb hcb
      rw [hok.2.2, St.allCallbacks, List.mem_filterMap]
      exact ⟨kv, h, hcb⟩
    · intro p h
      rw [hok.2.2, St.allCallbacks, List.mem_filterMap] at h
      obtain ⟨kv, -, h⟩ := h
      exact (hs.focal kv.2 p h).2
  | toMean v order =>
    refine ⟨fun q => ∃ kv ∈ s.dict v, kv.2 = q, _, order, rfl, Upd.meanLoop _ s fun kv h => ⟨kv, h, rfl⟩, ?_, ?_⟩
    · rintro q ⟨kv, h, rfl⟩ cb hcb
      rw [hok.2.2, St.allCallbacks, List.mem_filterMap]
      exact ⟨kv, h, hcb⟩
    · intro p h
      rw [hok.2.2, St.allCallbacks, List.mem_filterMap] at h
      obtain ⟨kv, -, h⟩ := h
      exact (hs.focal kv.2 p h).2
  | _ => exact hp.elim

/-! ### constructors -/

/-- The parameters of `newOrient` before the callback. -/
noncomputable def preOrient (s : St) (o : ℕ) (k : OKind) (args : OField → Option ℝ) : St :=
  { s with
    par := fun q => match q with
      | .o o' f => if o' = o then newParam (args f) (some f.default) f.type (some (.matrix o)) else s.par q
      | _ => s.par q
    orients := Function.update s.orients o (some ⟨k, ⟨⟨0, 0, 0⟩, ⟨⟨0, 0, 0⟩, ⟨0, 0, 0⟩, ⟨0, 0, 0⟩⟩, ⟨⟨0, 0, 0⟩, ⟨0, 0, 0⟩, ⟨0, 0, 0⟩⟩⟩⟩) }

theorem newOrient_eq (s : St) (o k args) : s.newOrient o k args = (preOrient s o k args).runMatrix o := rfl

theorem newParam_read {v d : Option ℝ} {t : ℕ} {cb : Option Cb} (h : v.isSome ∨ d.isSome) : (newParam v d t cb).read.isSome := by
  unfold newParam Param.read
  cases v with
  | none => simpa using h
  | some v => rfl

theorem preOrient_par_o (s : St) (o k args) (f : OField) : (preOrient s o k args).par (.o o f) = newParam (args f) (some f.default) f.type (some (.matrix o)) := by
  simp [preOrient]

theorem preOrient_par (s : St) (o k args) {q : Pid} (h : ∀ f, q ≠ .o o f) : (preOrient s o k args).par q = s.par q := by
  cases q with
  | o o' f => simp only [preOrient]; rw [if_neg]; intro e; exact h f (by rw [e])
  | _ => rfl

theorem preOrient_struct {s : St} (hs : Struct s) (o : ℕ) (k : OKind) (args : OField → Option ℝ) : Struct (preOrient s o k args) where
  ocb o' h f := by
    by_cases e : o' = o
    · subst e; rw [preOrient_par_o]; rfl
    · rw [preOrient_par _ _ _ _ (by intro f hh; cases hh; exact e rfl)]
      apply hs.ocb
      simpa [preOrient, Function.update_apply, e] using h
  dflt q h := by
    by_cases e : ∃ f, q = .o o f
    · obtain ⟨f, rfl⟩ := e; rw [preOrient_par_o]; rfl
    · rw [preOrient_par _ _ _ _ fun f hh => e ⟨f, hh⟩]; exact hs.dflt q h
  lcb l h f := by rw [preOrient_par _ _ _ _ (by simp)]; exact hs.lcb l h f
  valid q := by
    by_cases e : ∃ f, q = .o o f
    · obtain ⟨f, rfl⟩ := e; rw [preOrient_par_o]; exact newParam_read (Or.inr rfl)
    · rw [preOrient_par _ _ _ _ fun f hh => e ⟨f, hh⟩]; exact hs.valid q
  focal q p h := by
    by_cases e : ∃ f, q = .o o f
    · obtain ⟨f, rfl⟩ := e; rw [preOrient_par_o] at h; cases h
    · rw [preOrient_par _ _ _ _ fun f hh => e ⟨f, hh⟩] at h
      rw [preOrient_par _ _ _ _ (by simp)]
      exact hs.focal q p h
  pf p h := by rw [preOrient_par _ _ _ _ (by simp)]; exact hs.pf p h
  pcb := hs.pcb
  gval := hs.gval

theorem newOrient_struct {s : St} (hs : Struct s) (o : ℕ) (k : OKind) (args : OField → Option ℝ) : Struct (s.newOrient o k args) :=
  (preOrient_struct hs o k args).pres (Pres.runMatrix _ _)

theorem newOrient_freshO {s : St} (hf : ∀ o, FreshO s o) (o : ℕ) (k : OKind) (args : OField → Option ℝ) (o' : ℕ) :
    FreshO (s.newOrient o k args) o' := by
  rw [newOrient_eq]
  by_cases e : o' = o
  · rw [e]; exact freshO_runMatrix _ _
  · apply FreshO.runMatrix
    exact (hf o').congr (by simp [preOrient, e]) fun f =>
      rd_eq_of_par (preOrient_par _ _ _ _ (by intro f hh; cases hh; exact e rfl))

theorem newOrient_freshL {s : St} {l : ℕ} (hf : FreshL s l) (o : ℕ) (k : OKind) (args : OField → Option ℝ) :
    FreshL (s.newOrient o k args) l := by
  rw [newOrient_eq]
  apply FreshL.runMatrix
  exact hf.congr rfl rfl (fun f => rd_eq_of_par rfl) fun _ _ _ _ _ _ _ => rd_eq_of_par rfl

theorem newOrient_bound {s : St} (hb : Bound s) (o : ℕ) (k : OKind) (args : OField → Option ℝ) : Bound (s.newOrient o k args) := by
  rw [newOrient_eq]
  refine Bound.pres ?_ (Pres.runMatrix _ _)
  exact fun l L p hl hk hp => hb l L p hl hk hp

/-! newProj -/

theorem newProj_par_f (s : St) (p k args attr) : (s.newProj p k args attr).par (.p p .f) = newParam (args .fx) none 2 (some (.focal p)) := by
  simp [St.newProj]

theorem newProj_par_p (s : St) (p k args attr) {f : PField} (h : f ≠ .f) :
    (s.newProj p k args attr).par (.p p f) = newParam (args f) f.default 2 none := by
  cases f <;> simp [St.newProj] at h ⊢

theorem newProj_par (s : St) (p k args attr) {q : Pid} (h : ∀ f, q ≠ .p p f) : (s.newProj p k args attr).par q = s.par q := by
  cases q with
  | p p' f =>
    have : p' ≠ p := by intro e; exact h f (by rw [e])
    cases f <;> simp [St.newProj, this]
  | _ => rfl

theorem newProj_struct {s : St} (hs : Struct s) {p : ℕ} {k : Projection.Kind} {args : PField → Option ℝ} {attr : Bool}
    (hok : s.ok (.newProj p k args attr)) : Struct (s.newProj p k args attr) where
  ocb o h f := by rw [newProj_par _ _ _ _ _ (by simp)]; exact hs.ocb o h f
  dflt q h := by
    by_cases e : ∃ f, q = .p p f
    · obtain ⟨f, rfl⟩ := e
      have hd := h p f rfl
      have hf : f ≠ .f := by rintro rfl; exact hd rfl
      rw [newProj_par_p _ _ _ _ _ hf]
      exact Option.isSome_iff_ne_none.2 hd
    · rw [newProj_par _ _ _ _ _ fun f hh => e ⟨f, hh⟩]; exact hs.dflt q h
  lcb l h f := by rw [newProj_par _ _ _ _ _ (by simp)]; exact hs.lcb l h f
  valid q := by
    by_cases e : ∃ f, q = .p p f
    · obtain ⟨f, rfl⟩ := e
      by_cases hf : f = .f
      · rw [hf, newProj_par_f]
        rcases hok.2 .fx with h | h | h
        · cases h
        · exact newParam_read (Or.inl (Option.isSome_iff_ne_none.2 h))
        · exact absurd rfl h
      · rw [newProj_par_p _ _ _ _ _ hf]
        rcases hok.2 f with h | h | h
        · exact absurd h hf
        · exact newParam_read (Or.inl (Option.isSome_iff_ne_none.2 h))
        · exact newParam_read (Or.inr (Option.isSome_iff_ne_none.2 h))
    · rw [newProj_par _ _ _ _ _ fun f hh => e ⟨f, hh⟩]; exact hs.valid q
  focal q p' h := by
    by_cases e : ∃ f, q = .p p f
    · obtain ⟨f, rfl⟩ := e
      by_cases hf : f = .f
      · rw [hf, newProj_par_f] at h
        cases h
        refine ⟨by rw [hf], ?_⟩
        rw [newProj_par_f]
        rcases hok.2 .fx with h | h | h
        · cases h
        · exact Option.isSome_iff_ne_none.2 h
        · exact absurd rfl h
      · rw [newProj_par_p _ _ _ _ _ hf] at h; cases h
    · rw [newProj_par _ _ _ _ _ fun f hh => e ⟨f, hh⟩] at h
      obtain ⟨h1, h2⟩ := hs.focal q p' h
      refine ⟨h1, ?_⟩
      rw [newProj_par _ _ _ _ _ (by intro f hh; cases hh; exact e ⟨.f, h1⟩)]
      exact h2
  pf p' h := by
    by_cases e : p' = p
    · rw [e, newProj_par_f]; rfl
    · rw [newProj_par _ _ _ _ _ (by intro f hh; cases hh; exact e rfl)]
      apply hs.pf
      simpa [St.newProj, Function.update_apply, e] using h
  pcb p' g o h := by
    by_cases e : p' = p
    · rw [e] at h
      by_cases hg : g = .f
      · rw [hg, newProj_par_f] at h; cases h
      · rw [newProj_par_p _ _ _ _ _ hg] at h; cases h
    · rw [newProj_par _ _ _ _ _ (by intro f hh; cases hh; exact e rfl)] at h
      exact hs.pcb p' g o h
  gval p' h g hg := by
    by_cases e : p' = p
    · rw [e]
      by_cases hf : g = .f
      · rw [hf, newProj_par_f]
        rcases hok.2 .fx with h | h | h
        · cases h
        · exact Option.isSome_iff_ne_none.2 h
        · exact absurd rfl h
      · rw [newProj_par_p _ _ _ _ _ hf]
        rcases hok.2 g with h | h | h
        · exact absurd h hf
        · exact Option.isSome_iff_ne_none.2 h
        · exact absurd hg h
    · rw [newProj_par _ _ _ _ _ (by intro f hh; cases hh; exact e rfl)]
      exact hs.gval p' (by simpa [St.newProj, Function.update_apply, e] using h) g hg

theorem newProj_freshO {s : St} {o : ℕ} (hf : FreshO s o) (p k args attr) : FreshO (s.newProj p k args attr) o :=
  hf.congr rfl fun f => rd_eq_of_par (newProj_par _ _ _ _ _ (by simp))

theorem newProj_freshL {s : St} {l : ℕ} (hb : Bound s) (hf : FreshL s l) {p : ℕ} (hp : s.projs p = none) (k args attr) :
    FreshL (s.newProj p k args attr) l := by
  intro L hL hk
  have e := hf L hL hk
  have hL' : s.lenses l = some L := hL
  rw [e]
  have : (s.newProj p k args attr).snapOf l L.kind L.proj L.snap = s.snapOf l L.kind L.proj L.snap := by
    cases hpr : L.proj with
    | none => rfl
    | some p' =>
      have hne : p' ≠ p := by rintro rfl; exact (hb l L p' hL' hk hpr).1 hp
      have hpar : ∀ g, (s.newProj p k args attr).rd (.p p' g) = s.rd (.p p' g) := fun g =>
        rd_eq_of_par (newProj_par _ _ _ _ _ (by intro f hh; cases hh; exact hne rfl))
      have hpp : (s.newProj p k args attr).projs p' = s.projs p' := by simp [St.newProj, hne]
      have hw : (s.newProj p k args attr).projWidth p' = s.projWidth p' := by unfold St.projWidth; rw [hpp, hpar]
      have hh : (s.newProj p k args attr).projHeight p' = s.projHeight p' := by unfold St.projHeight; rw [hpp, hpar]
      have hl : ∀ f, (s.newProj p k args attr).rd (.l l f) = s.rd (.l l f) := fun f => rd_eq_of_par rfl
      unfold St.snapOf
      simp only [hpar, hw, hh, hl]
  rw [← e, this]
  exact e

theorem newProj_bound {s : St} (hb : Bound s) {p : ℕ} (hp : s.projs p = none) (k args attr) : Bound (s.newProj p k args attr) := by
  intro l L p' hl hk hpr
  obtain ⟨h1, h2⟩ := hb l L p' hl hk hpr
  have hne : p' ≠ p := by rintro rfl; exact h1 hp
  refine ⟨by simpa [St.newProj, Function.update_apply, hne] using h1, fun g hg => ?_⟩
  rw [newProj_par _ _ _ _ _ (by intro f hh; cases hh; exact hne rfl)]
  exact h2 g hg

/-! newLens -/

noncomputable def preLens (s : St) (l : ℕ) (k : LKind) (args : LField → Option ℝ) : St :=
  { s with
    par := fun q => match q with
      | .l l' f => if l' = l then newParam (args f) (some 0) 16 (some (.lens l)) else s.par q
      | _ => s.par q
    lenses := Function.update s.lenses l (some ⟨k, none, ⟨⟨0, 0, 0⟩, ⟨1, 1⟩, ⟨0, 0⟩⟩⟩) }

theorem newLens_eq (s : St) (l k args) : s.newLens l k args = (preLens s l k args).runLens l := rfl

theorem preLens_par_l (s : St) (l k args) (f : LField) : (preLens s l k args).par (.l l f) = newParam (args f) (some 0) 16 (some (.lens l)) := by
  simp [preLens]

theorem preLens_par (s : St) (l k args) {q : Pid} (h : ∀ f, q ≠ .l l f) : (preLens s l k args).par q = s.par q := by
  cases q with
  | l l' f => simp only [preLens]; rw [if_neg]; intro e; exact h f (by rw [e])
  | _ => rfl

theorem preLens_struct {s : St} (hs : Struct s) (l : ℕ) (k : LKind) (args : LField → Option ℝ) : Struct (preLens s l k args) where
  ocb o h f := by rw [preLens_par _ _ _ _ (by simp)]; exact hs.ocb o h f
  dflt q h := by
    by_cases e : ∃ f, q = .l l f
    · obtain ⟨f, rfl⟩ := e; rw [preLens_par_l]; rfl
    · rw [preLens_par _ _ _ _ fun f hh => e ⟨f, hh⟩]; exact hs.dflt q h
  lcb l' h f := by
    by_cases e : l' = l
    · subst e; rw [preLens_par_l]; rfl
    · rw [preLens_par _ _ _ _ (by intro f hh; cases hh; exact e rfl)]
      apply hs.lcb
      simpa [preLens, Function.update_apply, e] using h
  valid q := by
    by_cases e : ∃ f, q = .l l f
    · obtain ⟨f, rfl⟩ := e; rw [preLens_par_l]; exact newParam_read (Or.inr rfl)
    · rw [preLens_par _ _ _ _ fun f hh => e ⟨f, hh⟩]; exact hs.valid q
  focal q p h := by
    by_cases e : ∃ f, q = .l l f
    · obtain ⟨f, rfl⟩ := e; rw [preLens_par_l] at h; cases h
    · rw [preLens_par _ _ _ _ fun f hh => e ⟨f, hh⟩] at h
      rw [preLens_par _ _ _ _ (by simp)]
      exact hs.focal q p h
  pf p h := by rw [preLens_par _ _ _ _ (by simp)]; exact hs.pf p h
  pcb := hs.pcb
  gval := hs.gval

theorem newLens_struct {s : St} (hs : Struct s) (l : ℕ) (k : LKind) (args : LField → Option ℝ) : Struct (s.newLens l k args) :=
  (preLens_struct hs l k args).pres (Pres.runLens _ _)

theorem newLens_freshO {s : St} {o : ℕ} (hf : FreshO s o) (l : ℕ) (k : LKind) (args : LField → Option ℝ) :
    FreshO (s.newLens l k args) o := by
  rw [newLens_eq]
  apply FreshO.runLens
  exact hf.congr rfl fun f => rd_eq_of_par rfl

theorem newLens_freshL {s : St} (hf : ∀ l, FreshL s l) (l : ℕ) (k : LKind) (args : LField → Option ℝ) (l' : ℕ) :
    FreshL (s.newLens l k args) l' := by
  rw [newLens_eq]
  by_cases e : l' = l
  · rw [e]; exact freshL_runLens _ _
  · apply FreshL.runLens
    exact (hf l').congr (by simp [preLens, e]) rfl
      (fun f => rd_eq_of_par (preLens_par _ _ _ _ (by intro f hh; cases hh; exact e rfl)))
      fun _ _ _ _ _ _ _ => rd_eq_of_par (preLens_par _ _ _ _ (by simp))

theorem newLens_bound {s : St} (hb : Bound s) (l : ℕ) (k : LKind) (args : LField → Option ℝ) : Bound (s.newLens l k args) := by
  rw [newLens_eq]
  refine Bound.pres ?_ (Pres.runLens _ _)
  intro l' L p hl hk hp
  by_cases e : l' = l
  · simp only [preLens, e, Function.update_self, Option.some.injEq] at hl
    rw [← hl] at hp; cases hp
  · have : s.lenses l' = some L := by simpa [preLens, Function.update_apply, e] using hl
    exact hb l' L p this hk hp

/-! newCam -/

theorem hook_par (l : ℕ) (d : Dict) : ∀ (s : St) (q : Pid), (s.hook l d).par q =
    if (∃ n, (n, q) ∈ d) then { s.par q with callback := some (.lens l) } else s.par q := by
  induction d with
  | nil => intro s q; simp [St.hook]
  | cons a t ih =>
    intro s q
    obtain ⟨n, q0⟩ := a
    simp only [St.hook]
    rw [ih, mod_par]
    by_cases e : q = q0
    · subst e
      have : ∃ n', (n', q) ∈ (n, q) :: t := ⟨n, by simp⟩
      simp only [if_true, this]
      split_ifs <;> rfl
    · have : (∃ n', (n', q) ∈ (n, q0) :: t) ↔ ∃ n', (n', q) ∈ t := by simp [e]
      simp only [if_neg e, this]

theorem hook_frame (l : ℕ) (d : Dict) : ∀ s : St, (s.hook l d).orients = s.orients ∧ (s.hook l d).lenses = s.lenses ∧
    (s.hook l d).projs = s.projs ∧ (s.hook l d).cams = s.cams ∧ (s.hook l d).groups = s.groups ∧ (s.hook l d).traces = s.traces := by
  induction d with
  | nil => intro s; exact ⟨rfl, rfl, rfl, rfl, rfl, rfl⟩
  | cons a t ih => intro s; exact ih _

theorem hook_rd (l : ℕ) (d : Dict) (s : St) (q : Pid) : (s.hook l d).rd q = s.rd q := by
  unfold St.rd; rw [hook_par]; split_ifs <;> rfl

theorem mem_lensDict {k : LKind} (hk : k ≠ .none) {l p : ℕ} {q : Pid} :
    (∃ n, (n, q) ∈ lensDict k l (some p)) ↔ (∃ f, q = .l l f) ∨ ∃ g ∈ PField.lens, q = .p p g := by
  have : lensDict k l (some p) = LField.all.map (fun f => (f.name k, .l l f)) ++ PField.lens.map fun f => (f.name, .p p f) := by
    cases k <;> first | exact absurd rfl hk | rfl
  rw [this]
  constructor
  · rintro ⟨n, hn⟩
    rw [List.mem_append, List.mem_map, List.mem_map] at hn
    rcases hn with ⟨f, -, e⟩ | ⟨f, hf, e⟩
    · left; exact ⟨f, by cases e; rfl⟩
    · right; exact ⟨f, hf, by cases e; rfl⟩
  · rintro (⟨f, rfl⟩ | ⟨g, hg, rfl⟩)
    · refine ⟨_, List.mem_append.2 (Or.inl (List.mem_map.2 ⟨f, ?_, rfl⟩))⟩
      cases f <;> simp [LField.all]
    · exact ⟨_, List.mem_append.2 (Or.inr (List.mem_map.2 ⟨g, hg, rfl⟩))⟩

/-- The state after the re-wiring in `setProjection`, before `_init_inverse`. -/
noncomputable def preBind (s : St) (l p : ℕ) (L : LObj) : St :=
  St.hook { s with
        lenses := Function.update s.lenses l (some { L with proj := some p })
        traces := Function.update s.traces (.lens l) none } l (lensDict L.kind l (some p))

theorem setProjection_eq {s : St} {l p : ℕ} {L : LObj} (hl : s.lenses l = some L) (hk : L.kind ≠ .none) :
    s.setProjection l p = (preBind s l p L).runLens l := by
  unfold St.setProjection preBind; rw [hl]; simp only [if_neg hk]

theorem setProjection_none {s : St} {l p : ℕ} (h : ∀ L, s.lenses l = some L → L.kind = .none) : s.setProjection l p = s := by
  unfold St.setProjection
  cases hl : s.lenses l with
  | none => rfl
  | some L => simp only [if_pos (h L hl)]

theorem preBind_lenses (s : St) (l p : ℕ) (L : LObj) : (preBind s l p L).lenses = Function.update s.lenses l (some { L with proj := some p }) :=
  (hook_frame _ _ _).2.1

theorem preBind_orients (s : St) (l p : ℕ) (L : LObj) : (preBind s l p L).orients = s.orients := (hook_frame _ _ _).1

theorem preBind_projs (s : St) (l p : ℕ) (L : LObj) : (preBind s l p L).projs = s.projs := (hook_frame _ _ _).2.2.1

theorem preBind_rd (s : St) (l p : ℕ) (L : LObj) (q : Pid) : (preBind s l p L).rd q = s.rd q := hook_rd _ _ _ _

theorem preBind_par {s : St} {l p : ℕ} {L : LObj} (hk : L.kind ≠ .none) (q : Pid) : (preBind s l p L).par q =
    if (∃ f, q = .l l f) ∨ (∃ g ∈ PField.lens, q = .p p g) then { s.par q with callback := some (.lens l) } else s.par q := by
  unfold preBind; rw [hook_par]; simp only [mem_lensDict hk]

theorem preBind_struct {s : St} (hs : Struct s) {l p : ℕ} {L : LObj} (hl : s.lenses l = some L) (hk : L.kind ≠ .none) : Struct (preBind s l p L) where
  ocb o h f := by
    rw [preBind_orients] at h
    rw [preBind_par hk, if_neg (by simp)]; exact hs.ocb o h f
  dflt q h := by rw [preBind_par hk]; split_ifs <;> exact hs.dflt q h
  lcb l' h f := by
    rw [preBind_par hk]
    by_cases e : (∃ f', Pid.l l' f = .l l f') ∨ (∃ g ∈ PField.lens, Pid.l l' f = .p p g)
    · rw [if_pos e]
      rcases e with ⟨f', e⟩ | ⟨g, _, e⟩
      · cases e; rfl
      · cases e
    · rw [if_neg e]
      apply hs.lcb
      rw [preBind_lenses, Function.update_apply] at h
      split_ifs at h with e'
      · rw [e', hl]; simp
      · exact h
  valid q := by rw [preBind_par hk]; split_ifs <;> exact hs.valid q
  focal q p' h := by
    rw [preBind_par hk] at h
    split_ifs at h
    · cases h
    · obtain ⟨h1, h2⟩ := hs.focal q p' h
      refine ⟨h1, ?_⟩
      rw [preBind_par hk]; split_ifs <;> exact h2
  pf p' h := by
    rw [preBind_projs] at h
    rw [preBind_par hk, if_neg (by simp [PField.lens])]; exact hs.pf p' h
  pcb p' g o h := by
    rw [preBind_par hk] at h
    by_cases e : (∃ f, Pid.p p' g = .l l f) ∨ (∃ g' ∈ PField.lens, Pid.p p' g = .p p g')
    · rw [if_pos e] at h; cases h
    · rw [if_neg e] at h; exact hs.pcb p' g o h
  gval p' h g hg := by
    rw [preBind_projs] at h
    rw [preBind_par hk]
    have := hs.gval p' h g hg
    by_cases e : (∃ f, Pid.p p' g = .l l f) ∨ (∃ g' ∈ PField.lens, Pid.p p' g = .p p g')
    · rw [if_pos e]; exact this
    · rw [if_neg e]; exact this

theorem preBind_freshO {s : St} {o : ℕ} (hf : FreshO s o) (l p : ℕ) (L : LObj) : FreshO (preBind s l p L) o :=
  hf.congr (by rw [preBind_orients]) fun _ => preBind_rd _ _ _ _ _

theorem setProjection_struct {s : St} (hs : Struct s) (l p : ℕ) : Struct (s.setProjection l p) := by
  by_cases h : ∃ L, s.lenses l = some L ∧ L.kind ≠ .none
  · obtain ⟨L, hl, hk⟩ := h
    rw [setProjection_eq hl hk]
    exact (preBind_struct hs hl hk).pres (Pres.runLens _ _)
  · rw [setProjection_none fun L hL => by by_contra hk; exact h ⟨L, hL, hk⟩]; exact hs

theorem setProjection_freshO {s : St} {o : ℕ} (hf : FreshO s o) (l p : ℕ) : FreshO (s.setProjection l p) o := by
  by_cases h : ∃ L, s.lenses l = some L ∧ L.kind ≠ .none
  · obtain ⟨L, hl, hk⟩ := h
    rw [setProjection_eq hl hk]
    exact (preBind_freshO hf l p L).runLens _
  · rw [setProjection_none fun L hL => by by_contra hk; exact h ⟨L, hL, hk⟩]; exact hf

/-- `p` is not in use by another lens. -/
def Free (s : St) (l p : ℕ) : Prop := ∀ l' L', l' ≠ l → s.lenses l' = some L' → L'.kind ≠ .none → L'.proj ≠ some p

theorem setProjection_bound {s : St} (hb : Bound s) {l p : ℕ} (hp : s.projs p ≠ none) (hfree : Free s l p) : Bound (s.setProjection l p) := by
  by_cases h : ∃ L, s.lenses l = some L ∧ L.kind ≠ .none
  · obtain ⟨L, hl, hk⟩ := h
    rw [setProjection_eq hl hk]
    refine Bound.pres ?_ (Pres.runLens _ _)
    intro l' L' p' hl' hk' hp'
    rw [preBind_lenses, Function.update_apply] at hl'
    split_ifs at hl' with e
    · cases hl'
      cases hp'
      rw [preBind_projs]
      refine ⟨hp, fun g hg => ?_⟩
      rw [preBind_par hk, if_pos (Or.inr ⟨g, hg, rfl⟩), e]
    · obtain ⟨h1, h2⟩ := hb l' L' p' hl' hk' hp'
      rw [preBind_projs]
      refine ⟨h1, fun g hg => ?_⟩
      rw [preBind_par hk, if_neg]
      · exact h2 g hg
      · rintro (⟨f, e'⟩ | ⟨g', _, e'⟩)
        · cases e'
        · cases e'; exact hfree l' L' e hl' hk' hp'
  · rw [setProjection_none fun L hL => by by_contra hk; exact h ⟨L, hL, hk⟩]; exact hb

theorem setProjection_freshL {s : St} (hf : ∀ l, FreshL s l) (l p l' : ℕ) : FreshL (s.setProjection l p) l' := by
  by_cases h : ∃ L, s.lenses l = some L ∧ L.kind ≠ .none
  · obtain ⟨L, hl, hk⟩ := h
    rw [setProjection_eq hl hk]
    by_cases e : l' = l
    · rw [e]; exact freshL_runLens _ _
    · apply FreshL.runLens
      exact (hf l').congr (by rw [preBind_lenses, Function.update_apply, if_neg e]) (preBind_projs _ _ _ _)
        (fun _ => preBind_rd _ _ _ _ _) fun _ _ _ _ _ _ _ => preBind_rd _ _ _ _ _
  · rw [setProjection_none fun L hL => by by_contra hk; exact h ⟨L, hL, hk⟩]; exact hf l'

/-- The part of `newCam` after `setProjection`. -/
noncomputable def camTail (s : St) (c p o l : ℕ) : St :=
  let s := { s with
    par := fun q => match q with
      | .c c' _ => if c' = c then newParam (some 0) (some 0) 32 none else s.par q
      | _ => s.par q }
  let d : Dict := CField.all.map fun f => (f.name, .c c f)
  let d := dictUpdate d (s.dict (.proj p))
  let d := dictUpdate d (s.dict (.orient o))
  let d := dictUpdate d (s.dict (.lens l))
  { s with
    cams := Function.update s.cams c (some ⟨p, o, l, d⟩)
    traces := Function.update s.traces (.cam c) none }

theorem newCam_eq (s : St) (c p o l : ℕ) : s.newCam c p o l = camTail (s.setProjection l p) c p o l := rfl

theorem camTail_par (s : St) (c p o l : ℕ) {q : Pid} (h : ∀ f, q ≠ .c c f) : (camTail s c p o l).par q = s.par q := by
  cases q with
  | c c' f => simp only [camTail]; rw [if_neg]; intro e; exact h f (by rw [e])
  | _ => rfl

theorem camTail_par_c (s : St) (c p o l : ℕ) (f : CField) : (camTail s c p o l).par (.c c f) = newParam (some 0) (some 0) 32 none := by
  simp [camTail]

theorem camTail_struct {s : St} (hs : Struct s) (c p o l : ℕ) : Struct (camTail s c p o l) where
  ocb o h f := hs.ocb o h f
  dflt q h := by
    by_cases e : ∃ f, q = .c c f
    · obtain ⟨f, rfl⟩ := e; rw [camTail_par_c]; rfl
    · rw [camTail_par _ _ _ _ _ fun f hh => e ⟨f, hh⟩]; exact hs.dflt q h
  lcb l h f := hs.lcb l h f
  valid q := by
    by_cases e : ∃ f, q = .c c f
    · obtain ⟨f, rfl⟩ := e; rw [camTail_par_c]; rfl
    · rw [camTail_par _ _ _ _ _ fun f hh => e ⟨f, hh⟩]; exact hs.valid q
  focal q p h := by
    by_cases e : ∃ f, q = .c c f
    · obtain ⟨f, rfl⟩ := e; rw [camTail_par_c] at h; cases h
    · rw [camTail_par _ _ _ _ _ fun f hh => e ⟨f, hh⟩] at h; exact hs.focal q p h
  pf p h := hs.pf p h
  pcb := hs.pcb
  gval := hs.gval

theorem camTail_freshO {s : St} {o' : ℕ} (hf : FreshO s o') (c p o l : ℕ) : FreshO (camTail s c p o l) o' :=
  hf.congr rfl fun _ => rd_eq_of_par rfl

theorem camTail_freshL {s : St} {l' : ℕ} (hf : FreshL s l') (c p o l : ℕ) : FreshL (camTail s c p o l) l' :=
  hf.congr rfl rfl (fun _ => rd_eq_of_par rfl) fun _ _ _ _ _ _ _ => rd_eq_of_par rfl

theorem camTail_bound {s : St} (hb : Bound s) (c p o l : ℕ) : Bound (camTail s c p o l) := hb

/-! ### reachable states -/

/-- The invariant of all histories. -/
structure Inv (s : St) : Prop where
  struct : Struct s
  fresh : ∀ o, FreshO s o

theorem Inv.empty : Inv St.empty where
  struct :=
    { ocb := fun _ h => absurd rfl h
      dflt := fun _ _ => rfl
      lcb := fun _ h => absurd rfl h
      valid := fun _ => rfl
      focal := fun _ _ h => by injection h
      pf := fun _ h => absurd rfl h
      pcb := fun _ _ _ h => by injection h
      gval := fun _ h => absurd rfl h }
  fresh := fun _ _ h => by cases h

theorem Inv.step {s : St} (h : Inv s) {op : Op} (hok : s.ok op) : Inv (s.step op) := by
  by_cases hp : op.isParam
  · obtain ⟨S, s', order, e, hu, hS, hf⟩ := step_upd h.struct hok hp
    rw [e]
    exact ⟨h.struct.pres (hu.toPres.trans (Pres.runAll fun p hp => hu.fval p (hf p hp))), hu.freshO h.struct hS h.fresh⟩
  · cases op with
    | newOrient o k args => exact ⟨newOrient_struct h.struct o k args, newOrient_freshO h.fresh o k args⟩
    | newProj p k args attr => exact ⟨newProj_struct h.struct hok, fun o => newProj_freshO (h.fresh o) p k args attr⟩
    | newLens l k args => exact ⟨newLens_struct h.struct l k args, fun o => newLens_freshO (h.fresh o) l k args⟩
    | newCam c p o l =>
      exact ⟨camTail_struct (setProjection_struct h.struct l p) c p o l, fun o' => camTail_freshO (setProjection_freshO (h.fresh o') l p) c p o l⟩
    | newGroup g d => exact ⟨⟨h.struct.ocb, h.struct.dflt, h.struct.lcb, h.struct.valid, h.struct.focal, h.struct.pf, h.struct.pcb, h.struct.gval⟩, h.fresh⟩
    | setTrace v t => exact ⟨⟨h.struct.ocb, h.struct.dflt, h.struct.lcb, h.struct.valid, h.struct.focal, h.struct.pf, h.struct.pcb, h.struct.gval⟩, h.fresh⟩
    | _ => exact absurd trivial hp

theorem Reach.inv {s : St} (h : Reach s) : Inv s := by
  induction h with
  | start => exact Inv.empty
  | step _ hok ih => exact ih.step hok

end Sys
