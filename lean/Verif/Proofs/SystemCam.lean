import Verif.Proofs.SystemStep

/-! The dictionary of a camera, and the objects a dictionary refers to. -/

set_option linter.constructorNameAsVariable false

open Classical

namespace Sys

/-- The dictionary of a camera (camera.py:454-459), written out. -/
def camDict (ko : OKind) (kl : LKind) (c p o l : ℕ) : Dict :=
  CField.all.map (fun f => (f.name, .c c f)) ++ projDict p ++ orientDict ko o ++ lensDict kl l none

theorem camDict_eq (ko : OKind) (kl : LKind) (c p o l : ℕ) :
    dictUpdate (dictUpdate (dictUpdate (CField.all.map fun f => (f.name, .c c f)) (projDict p)) (orientDict ko o))
      (lensDict kl l (some p)) = camDict ko kl c p o l := by
  cases ko <;> cases kl <;>
    simp [camDict, dictUpdate, dictSet, projDict, orientDict, lensDict, CField.all, PField.all, OField.all, LField.all, PField.lens,
      CField.name, PField.name, OField.name, LField.name]

/-- The parameter belongs to an existing object. -/
def Created (s : St) : Pid → Prop
  | .o o _ => s.orients o ≠ none
  | .p p _ => s.projs p ≠ none
  | .l l _ => s.lenses l ≠ none
  | .c c _ => s.cams c ≠ none

/-- What is known about cameras. -/
def CamOk (s : St) : Prop := ∀ c C, s.cams c = some C → ∃ P O L, s.projs C.proj = some P ∧ s.orients C.orient = some O ∧
  s.lenses C.lens = some L ∧ C.params = camDict O.kind L.kind c C.proj C.orient C.lens ∧ (L.kind ≠ .none → L.proj ≠ none)

/-- Lenses refer to existing projections. -/
def LensOk (s : St) : Prop := ∀ l L p, s.lenses l = some L → L.proj = some p → s.projs p ≠ none

/-- Groups refer to existing parameters. -/
def GroupOk (s : St) : Prop := ∀ g d, s.groups g = some d → ∀ kv ∈ d, Created s kv.2

/-- Objects do not disappear and keep their classes. -/
structure Keep (s s' : St) : Prop where
  orients : ∀ o O, s.orients o = some O → ∃ O', s'.orients o = some O' ∧ O'.kind = O.kind
  lenses : ∀ l L, s.lenses l = some L → ∃ L', s'.lenses l = some L' ∧ L'.kind = L.kind ∧ (L.proj ≠ none → L'.proj ≠ none)
  projs : ∀ p P, s.projs p = some P → s'.projs p = some P
  cams : ∀ c, s.cams c ≠ none → s'.cams c ≠ none

theorem Keep.refl (s : St) : Keep s s := ⟨fun _ O h => ⟨O, h, rfl⟩, fun _ L h => ⟨L, h, rfl, id⟩, fun _ _ h => h, fun _ h => h⟩

theorem Pres.keep {s s' : St} (h : Pres s s') : Keep s s' where
  orients o O ho := by
    have := h.orients o
    rw [ho] at this
    cases e : s'.orients o with
    | none => rw [e] at this; cases this
    | some O' => rw [e] at this; exact ⟨O', rfl, by simpa using this⟩
  lenses l L hl := by
    have := h.lenses l
    rw [hl] at this
    cases e : s'.lenses l with
    | none => rw [e] at this; cases this
    | some L' =>
      rw [e] at this
      simp only [Option.map_some, Option.some.injEq, Prod.mk.injEq] at this
      exact ⟨L', rfl, this.1, by rw [this.2]; exact id⟩
  projs p P hp := by rw [h.projs]; exact hp
  cams c hc := by rw [h.cams]; exact hc

theorem Keep.trans {a b c : St} (h : Keep a b) (k : Keep b c) : Keep a c where
  orients o O ho := by
    obtain ⟨O', h1, e1⟩ := h.orients o O ho
    obtain ⟨O'', h2, e2⟩ := k.orients o O' h1
    exact ⟨O'', h2, e2.trans e1⟩
  lenses l L hl := by
    obtain ⟨L', h1, e1, n1⟩ := h.lenses l L hl
    obtain ⟨L'', h2, e2, n2⟩ := k.lenses l L' h1
    exact ⟨L'', h2, e2.trans e1, fun x => n2 (n1 x)⟩
  projs p P hp := k.projs p P (h.projs p P hp)
  cams x hx := k.cams x (h.cams x hx)

theorem Keep.created {s s' : St} (h : Keep s s') {q : Pid} (hq : Created s q) : Created s' q := by
  cases q with
  | o o f =>
    obtain ⟨O, hO⟩ := Option.ne_none_iff_exists'.1 hq
    obtain ⟨O', h1, -⟩ := h.orients o O hO
    simp [Created, h1]
  | p p f =>
    obtain ⟨O, hO⟩ := Option.ne_none_iff_exists'.1 hq
    simp [Created, h.projs p O hO]
  | l l f =>
    obtain ⟨O, hO⟩ := Option.ne_none_iff_exists'.1 hq
    obtain ⟨O', h1, -⟩ := h.lenses l O hO
    simp [Created, h1]
  | c c f => exact h.cams c hq

theorem setProjection_keep (s : St) (l p : ℕ) : Keep s (s.setProjection l p) := by
  by_cases h : ∃ L, s.lenses l = some L ∧ L.kind ≠ .none
  · obtain ⟨L, hl, hk⟩ := h
    rw [setProjection_eq hl hk]
    refine Keep.trans ⟨?_, ?_, ?_, ?_⟩ (Pres.runLens _ _).keep
    · intro o O ho; exact ⟨O, by rw [preBind_orients]; exact ho, rfl⟩
    · intro l' L' hl'
      rw [preBind_lenses, Function.update_apply]
      split_ifs with e
      · rw [e, hl] at hl'
        cases hl'
        exact ⟨_, rfl, rfl, by simp⟩
      · exact ⟨L', hl', rfl, id⟩
    · intro p' P h; rw [preBind_projs]; exact h
    · intro c hc; unfold preBind; rw [(hook_frame _ _ _).2.2.2.1]; exact hc
  · rw [setProjection_none fun L hL => by by_contra hk; exact h ⟨L, hL, hk⟩]; exact Keep.refl s

theorem camTail_keep (s : St) (c p o l : ℕ) : Keep s (camTail s c p o l) := by
  refine ⟨fun _ O h => ⟨O, h, rfl⟩, fun _ L h => ⟨L, h, rfl, id⟩, fun _ _ h => h, fun c' h => ?_⟩
  simp only [camTail, Function.update_apply]
  split_ifs <;> simp [h]

/-- What an operation on existing objects leaves alone. -/
theorem step_pres {s : St} (hs : Struct s) {op : Op} (hok : s.ok op) (hp : op.isParam) : Pres s (s.step op) := by
  obtain ⟨S, s', order, e, hu, -, hf⟩ := step_upd hs hok hp
  rw [e]; exact hu.toPres.trans (Pres.runAll fun p hp => hu.fval p (hf p hp))

theorem step_keep {s : St} (hs : Struct s) {op : Op} (hok : s.ok op) : Keep s (s.step op) := by
  by_cases hp : op.isParam
  · exact (step_pres hs hok hp).keep
  · cases op with
    | newOrient o k args =>
      refine Keep.trans (b := preOrient s o k args) ⟨?_, fun _ L h => ⟨L, h, rfl, id⟩, fun _ _ h => h, fun _ h => h⟩ (Pres.runMatrix _ o).keep
      intro o' O h
      simp only [preOrient, Function.update_apply]
      split_ifs with e
      · rw [e, show s.orients o = none from hok] at h; cases h
      · exact ⟨O, h, rfl⟩
    | newProj p k args attr =>
      refine ⟨fun _ O h => ⟨O, h, rfl⟩, fun _ L h => ⟨L, h, rfl, id⟩, ?_, fun _ h => h⟩
      intro p' P h
      simp only [St.step, St.newProj, Function.update_apply]
      by_cases e : p' = p
      · rw [e, show s.projs p = none from hok.1] at h; cases h
      · rw [if_neg e]; exact h
    | newLens l k args =>
      refine Keep.trans (b := preLens s l k args) ⟨fun _ O h => ⟨O, h, rfl⟩, ?_, fun _ _ h => h, fun _ h => h⟩ (Pres.runLens _ l).keep
      intro l' L h
      simp only [preLens, Function.update_apply]
      split_ifs with e
      · rw [e, show s.lenses l = none from hok] at h; cases h
      · exact ⟨L, h, rfl, id⟩
    | newCam c p o l => exact (setProjection_keep s l p).trans (camTail_keep _ c p o l)
    | newGroup g d => exact ⟨fun _ O h => ⟨O, h, rfl⟩, fun _ L h => ⟨L, h, rfl, id⟩, fun _ _ h => h, fun _ h => h⟩
    | setTrace v t => exact ⟨fun _ O h => ⟨O, h, rfl⟩, fun _ L h => ⟨L, h, rfl, id⟩, fun _ _ h => h, fun _ h => h⟩
    | _ => exact absurd trivial hp

/-- The dictionaries only refer to existing parameters. -/
structure Dicts (s : St) : Prop where
  cam : CamOk s
  lens : LensOk s
  group : GroupOk s

theorem mem_orientDict {k : OKind} {o : ℕ} {kv : String × Pid} (h : kv ∈ orientDict k o) : ∃ f, kv = (f.name k, .o o f) := by
  simp only [orientDict, List.mem_map] at h; obtain ⟨f, -, e⟩ := h; exact ⟨f, e.symm⟩

theorem mem_projDict {p : ℕ} {kv : String × Pid} (h : kv ∈ projDict p) : ∃ f, kv = (f.name, .p p f) := by
  simp only [projDict, List.mem_map] at h; obtain ⟨f, -, e⟩ := h; exact ⟨f, e.symm⟩

theorem mem_lensDict' {k : LKind} {l : ℕ} {pr : Option ℕ} {kv : String × Pid} (h : kv ∈ lensDict k l pr) :
    (∃ f, kv = (f.name k, .l l f)) ∨ ∃ p f, pr = some p ∧ kv = (f.name, .p p f) := by
  cases k with
  | none => simp [lensDict] at h
  | brown | abc =>
    simp only [lensDict, List.mem_append] at h
    rcases h with h | h
    · simp only [List.mem_map] at h; obtain ⟨f, -, e⟩ := h; exact Or.inl ⟨f, e.symm⟩
    · cases pr with
      | none => simp at h
      | some p => simp only [List.mem_map] at h; obtain ⟨f, -, e⟩ := h; exact Or.inr ⟨p, f, rfl, e.symm⟩

theorem mem_camDict {ko : OKind} {kl : LKind} {c p o l : ℕ} {kv : String × Pid} (h : kv ∈ camDict ko kl c p o l) :
    (∃ f, kv.2 = .c c f) ∨ (∃ f, kv.2 = .p p f) ∨ (∃ f, kv.2 = .o o f) ∨ ∃ f, kv.2 = .l l f := by
  simp only [camDict, List.mem_append] at h
  rcases h with ((h | h) | h) | h
  · simp only [List.mem_map] at h; obtain ⟨f, -, e⟩ := h; exact Or.inl ⟨f, by rw [← e]⟩
  · obtain ⟨f, e⟩ := mem_projDict h; exact Or.inr (Or.inl ⟨f, by rw [e]⟩)
  · obtain ⟨f, e⟩ := mem_orientDict h; exact Or.inr (Or.inr (Or.inl ⟨f, by rw [e]⟩))
  · rcases mem_lensDict' h with ⟨f, e⟩ | ⟨p, f, e, -⟩
    · exact Or.inr (Or.inr (Or.inr ⟨f, by rw [e]⟩))
    · cases e

theorem Dicts.created {s : St} (hd : Dicts s) {v : View} {kv : String × Pid} (h : kv ∈ s.dict v) : Created s kv.2 := by
  cases v with
  | orient o =>
    simp only [St.dict] at h
    cases e : s.orients o with
    | none => rw [e] at h; simp at h
    | some O =>
      rw [e] at h
      obtain ⟨f, rfl⟩ := mem_orientDict h
      simp [Created, e]
  | proj p =>
    simp only [St.dict] at h
    cases e : s.projs p with
    | none => rw [e] at h; simp at h
    | some O =>
      rw [e] at h
      obtain ⟨f, rfl⟩ := mem_projDict h
      simp [Created, e]
  | lens l =>
    simp only [St.dict] at h
    cases e : s.lenses l with
    | none => rw [e] at h; simp at h
    | some L =>
      rw [e] at h
      rcases mem_lensDict' h with ⟨f, rfl⟩ | ⟨p, f, ep, rfl⟩
      · simp [Created, e]
      · exact hd.lens l L p e ep
  | cam c =>
    simp only [St.dict] at h
    cases e : s.cams c with
    | none => rw [e] at h; simp at h
    | some C =>
      rw [e] at h
      obtain ⟨P, O, L, h1, h2, h3, h4, -⟩ := hd.cam c C e
      simp only [h4] at h
      rcases mem_camDict h with ⟨f, e'⟩ | ⟨f, e'⟩ | ⟨f, e'⟩ | ⟨f, e'⟩
      all_goals rw [e']; simp [Created, *]
  | group g =>
    simp only [St.dict] at h
    cases e : s.groups g with
    | none => rw [e] at h; simp at h
    | some d => rw [e] at h; exact hd.group g d e kv h

theorem CamOk.keep {s s' : St} (h : CamOk s) (hk : Keep s s') (hc : s'.cams = s.cams) : CamOk s' := by
  intro c C e
  rw [hc] at e
  obtain ⟨P, O, L, h1, h2, h3, h4, h5⟩ := h c C e
  obtain ⟨O', h2', e2⟩ := hk.orients _ O h2
  obtain ⟨L', h3', e3, n3⟩ := hk.lenses _ L h3
  refine ⟨P, O', L', hk.projs _ P h1, h2', h3', by rw [h4, e2, e3], fun hh => n3 (h5 (by rw [← e3]; exact hh))⟩

theorem Dicts.pres {s s' : St} (h : Dicts s) (hp : Pres s s') : Dicts s' where
  cam := h.cam.keep hp.keep hp.cams
  lens l L p hl hpr := by
    have e := hp.lenses l
    rw [hl] at e
    cases e' : s.lenses l with
    | none => rw [e'] at e; cases e
    | some L' =>
      rw [e'] at e
      simp only [Option.map_some, Option.some.injEq, Prod.mk.injEq] at e
      rw [hp.projs]; exact h.lens l L' p e' (by rw [← e.2]; exact hpr)
  group g d hg kv hkv := by
    rw [hp.groups] at hg
    exact hp.keep.created (h.group g d hg kv hkv)

theorem GroupOk.keep {s s' : St} (h : GroupOk s) (hk : Keep s s') (hg : s'.groups = s.groups) : GroupOk s' := by
  intro g d hd kv hkv
  rw [hg] at hd
  exact hk.created (h g d hd kv hkv)

theorem setProjection_cams (s : St) (l p : ℕ) : (s.setProjection l p).cams = s.cams := by
  by_cases h : ∃ L, s.lenses l = some L ∧ L.kind ≠ .none
  · obtain ⟨L, hl, hk⟩ := h
    rw [setProjection_eq hl hk, (Pres.runLens _ _).cams]
    exact (hook_frame _ _ _).2.2.2.1
  · rw [setProjection_none fun L hL => by by_contra hk; exact h ⟨L, hL, hk⟩]

theorem setProjection_groups (s : St) (l p : ℕ) : (s.setProjection l p).groups = s.groups := by
  by_cases h : ∃ L, s.lenses l = some L ∧ L.kind ≠ .none
  · obtain ⟨L, hl, hk⟩ := h
    rw [setProjection_eq hl hk, (Pres.runLens _ _).groups]
    exact (hook_frame _ _ _).2.2.2.2.1
  · rw [setProjection_none fun L hL => by by_contra hk; exact h ⟨L, hL, hk⟩]

theorem setProjection_lensOk {s : St} (h : LensOk s) {l p : ℕ} (hp : s.projs p ≠ none) : LensOk (s.setProjection l p) := by
  by_cases h' : ∃ L, s.lenses l = some L ∧ L.kind ≠ .none
  · obtain ⟨L, hl, hk⟩ := h'
    rw [setProjection_eq hl hk]
    intro l' L' p' hl' hpr
    rw [runLens_projs, preBind_projs]
    by_cases e : l' = l
    · have hh := (Pres.runLens (preBind s l p L) l).lenses l'
      rw [hl', preBind_lenses, e, Function.update_self] at hh
      simp only [Option.map_some, Option.some.injEq, Prod.mk.injEq] at hh
      rw [hh.2] at hpr
      cases hpr
      exact hp
    · rw [runLens_lenses_ne _ e, preBind_lenses, Function.update_apply, if_neg e] at hl'
      exact h l' L' p' hl' hpr
  · rw [setProjection_none fun L hL => by by_contra hk; exact h' ⟨L, hL, hk⟩]; exact h

/-- After `setProjection` the lens is bound (a `NoDistortion` ignores it). -/
theorem setProjection_lens {s : St} {l p : ℕ} {L : LObj} (hl : s.lenses l = some L) :
    ∃ L', (s.setProjection l p).lenses l = some L' ∧ L'.kind = L.kind ∧ (L.kind ≠ .none → L'.proj = some p) := by
  by_cases hk : L.kind = .none
  · refine ⟨L, ?_, rfl, fun h => absurd hk h⟩
    rw [setProjection_none fun L' hL => by rw [hl] at hL; cases hL; exact hk]; exact hl
  · rw [setProjection_eq hl hk]
    have hh := (Pres.runLens (preBind s l p L) l).lenses l
    rw [preBind_lenses, Function.update_self] at hh
    cases e : ((preBind s l p L).runLens l).lenses l with
    | none => rw [e] at hh; cases hh
    | some L' =>
      rw [e] at hh
      simp only [Option.map_some, Option.some.injEq, Prod.mk.injEq] at hh
      exact ⟨L', rfl, hh.1, fun _ => hh.2⟩

theorem lensDict_none (l : ℕ) (pr : Option ℕ) : lensDict .none l pr = [] := rfl

theorem Dicts.step {s : St} (hs : Struct s) (h : Dicts s) {op : Op} (hok : s.ok op) : Dicts (s.step op) := by
  have hkeep := step_keep hs hok
  by_cases hp : op.isParam
  · exact h.pres (step_pres hs hok hp)
  · cases op with
    | newOrient o k args =>
      have e1 : (s.step (.newOrient o k args)).cams = s.cams := (Pres.runMatrix (preOrient s o k args) o).cams
      have e2 : (s.step (.newOrient o k args)).groups = s.groups := (Pres.runMatrix (preOrient s o k args) o).groups
      refine ⟨h.cam.keep hkeep e1, ?_, h.group.keep hkeep e2⟩
      intro l L p hl hpr
      have e3 : (s.step (.newOrient o k args)).lenses = s.lenses := runMatrix_lenses (preOrient s o k args) o
      have e4 : (s.step (.newOrient o k args)).projs = s.projs := runMatrix_projs (preOrient s o k args) o
      rw [e3] at hl; rw [e4]; exact h.lens l L p hl hpr
    | newProj p k args attr =>
      refine ⟨h.cam.keep hkeep rfl, ?_, h.group.keep hkeep rfl⟩
      intro l L p' hl hpr
      exact hkeep.created (q := .p p' .f) (h.lens l L p' hl hpr)
    | newLens l k args =>
      have e1 : (s.step (.newLens l k args)).cams = s.cams := (Pres.runLens (preLens s l k args) l).cams
      have e2 : (s.step (.newLens l k args)).groups = s.groups := (Pres.runLens (preLens s l k args) l).groups
      refine ⟨h.cam.keep hkeep e1, ?_, h.group.keep hkeep e2⟩
      intro l' L p hl hpr
      have e4 : (s.step (.newLens l k args)).projs = s.projs := runLens_projs (preLens s l k args) l
      rw [e4]
      by_cases e : l' = l
      · have hh := (Pres.runLens (preLens s l k args) l).lenses l'
        have hl2 : ((preLens s l k args).runLens l).lenses l' = some L := hl
        rw [hl2, e] at hh
        simp only [preLens, Function.update_self, Option.map_some, Option.some.injEq, Prod.mk.injEq] at hh
        rw [hh.2] at hpr; cases hpr
      · have hl2 : ((preLens s l k args).runLens l).lenses l' = some L := hl
        rw [runLens_lenses_ne _ e] at hl2
        have : s.lenses l' = some L := by simpa [preLens, Function.update_apply, e] using hl2
        exact h.lens l' L p this hpr
    | newCam c p o l =>
      obtain ⟨hp0, ho0, hl0⟩ := hok
      have hL1 := setProjection_lensOk h.lens (l := l) hp0
      refine ⟨?_, hL1, ?_⟩
      · intro c' C hC
        have hC' : (Function.update (s.setProjection l p).cams c (some ⟨p, o, l, (camTail (s.setProjection l p) c p o l).dict (.cam c)⟩)) c' = some C := by
          have : (s.step (.newCam c p o l)).cams c' = some C := hC
          simp only [Function.update_apply]
          simp only [St.step, newCam_eq, camTail, Function.update_apply] at this
          split_ifs at this ⊢ with e
          · rw [← this]; simp [St.dict, camTail]
          · exact this
        rw [Function.update_apply] at hC'
        split_ifs at hC' with e
        · cases hC'
          obtain ⟨P, hP⟩ := Option.ne_none_iff_exists'.1 hp0
          obtain ⟨O, hO⟩ := Option.ne_none_iff_exists'.1 ho0
          obtain ⟨L, hL⟩ := Option.ne_none_iff_exists'.1 hl0
          have hkp := setProjection_keep s l p
          obtain ⟨O', hO', eO⟩ := hkp.orients o O hO
          obtain ⟨L', hL', eL, bL⟩ := setProjection_lens (p := p) hL
          refine ⟨P, O', L', hkp.projs p P hP, hO', hL', ?_, fun hk => by rw [bL (by rw [← eL]; exact hk)]; simp⟩
          rw [e, ← camDict_eq]
          simp only [St.dict, camTail, Function.update_self, hkp.projs p P hP, hO', hL']
          congr 1
          by_cases hk : L'.kind = .none
          · rw [hk]; rfl
          · rw [bL (by rw [← eL]; exact hk)]
        · rw [setProjection_cams] at hC'
          obtain ⟨P, O, L, h1, h2, h3, h4, h5⟩ := h.cam c' C hC'
          obtain ⟨O', h2', e2⟩ := hkeep.orients _ O h2
          obtain ⟨L', h3', e3, n3⟩ := hkeep.lenses _ L h3
          exact ⟨P, O', L', hkeep.projs _ P h1, h2', h3', by rw [h4, e2, e3], fun hh => n3 (h5 (by rw [← e3]; exact hh))⟩
      · exact h.group.keep hkeep (setProjection_groups s l p)
    | newGroup g d =>
      refine ⟨h.cam.keep hkeep rfl, h.lens, ?_⟩
      intro g' d' hd kv hkv
      simp only [St.step, Function.update_apply] at hd
      split_ifs at hd with e
      · cases hd
        obtain ⟨v, n, -, hl⟩ := hok.2 kv hkv
        exact hkeep.created (h.created (kv := (n, kv.2)) (lookup_mem hl))
      · exact hkeep.created (h.group g' d' hd kv hkv)
    | setTrace v t => exact ⟨h.cam.keep hkeep rfl, h.lens, h.group.keep hkeep rfl⟩
    | _ => exact absurd trivial hp

theorem Reach.dicts {s : St} (h : Reach s) : Dicts s := by
  induction h with
  | start => exact ⟨fun _ _ h => (by injection h), fun _ _ _ h => (by injection h), fun _ _ h => (by injection h)⟩
  | step hr hok ih => exact ih.step hr.inv.struct hok

end Sys
