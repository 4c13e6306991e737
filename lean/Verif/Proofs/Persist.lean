import Verif.Model.Persist
import Verif.Spec.Persist
import Verif.Props.SystemFit
import Verif.Props.SystemCache

/-! # Lemmas about saving and loading -/

set_option linter.constructorNameAsVariable false

open Classical Sys

namespace Persist

theorem lastOf_cons (d : Dict) (a : String × ℝ) (t : List (String × ℝ)) (q : Pid) :
    lastOf d (a :: t) q = (lastOf d t q).or (if d.lookup a.1 = some q then some a.2 else none) := by
  unfold lastOf
  rw [List.reverse_cons, List.find?_append]
  cases List.find? (fun nv => decide (d.lookup nv.1 = some q)) t.reverse with
  | some x => simp
  | none =>
    simp only [Option.none_or, Option.map_none]
    by_cases h : d.lookup a.1 = some q <;> simp [h]

theorem lastOf_mem {d : Dict} {vals : List (String × ℝ)} {q : Pid} {x : ℝ} (h : lastOf d vals q = some x) :
    ∃ n, (n, x) ∈ vals ∧ d.lookup n = some q := by
  unfold lastOf at h
  obtain ⟨a, ha, rfl⟩ := Option.map_eq_some_iff.1 h
  refine ⟨a.1, ?_, ?_⟩
  · have := List.mem_of_find?_eq_some ha
    simpa using this
  · simpa using List.find?_some ha

/-- What a series of assignments does. -/
theorem assignAll_spec {v : View} (vals : List (String × ℝ)) {s : St} (hr : Reach s)
    (hf : ∀ nx ∈ vals, ∀ p, (s.dict v).lookup nx.1 ≠ some (.p p .f)) :
    Reach (assignAll s v vals) ∧ (ReachX s → ReachX (assignAll s v vals)) ∧ Pres s (assignAll s v vals) ∧
    (∀ q, (assignAll s v vals).rd q = match lastOf (s.dict v) vals q with
      | some x => norm360 q x
      | none => s.rd q) ∧
    (∀ q, lastOf (s.dict v) vals q = none → (assignAll s v vals).par q = s.par q) ∧
    (∀ q, lastOf (s.dict v) vals q ≠ none → ((assignAll s v vals).par q).mean = none ∧ ((assignAll s v vals).par q).state = .userSet) := by
  induction vals generalizing s with
  | nil => exact ⟨hr, id, Pres.refl s, fun q => rfl, fun q _ => rfl, fun q h => absurd rfl h⟩
  | cons a t ih =>
    have hok : s.ok (.set v a.1 (some a.2) false) := Or.inl (by simp)
    have hp := step_pres hr.struct hok trivial
    have hd : (s.step (.set v a.1 (some a.2) false)).dict v = s.dict v := hp.dict v
    obtain ⟨h1, h1', h2, h3, h4, h5⟩ := ih (.step hr hok) (fun nx h p => by rw [hd]; exact hf nx (by simp [h]) p)
    have e : assignAll s v (a :: t) = assignAll (s.step (.set v a.1 (some a.2) false)) v t := rfl
    rw [e]
    refine ⟨h1, fun hx => h1' (.step hx hok trivial), hp.trans h2, fun q => ?_, fun q hq => ?_, fun q hq => ?_⟩
    · rw [h3, hd, lastOf_cons]
      cases hl : lastOf (s.dict v) t q with
      | some x => rfl
      | none =>
        simp only [Option.none_or]
        by_cases hq : (s.dict v).lookup a.1 = some q
        · simp only [if_pos hq]
          have := (set_read hr hq a.2 false).1
          unfold St.rd Param.read
          rw [this]; rfl
        · simp only [if_neg hq]
          cases hl' : (s.dict v).lookup a.1 with
          | none => simp only [St.step, hl']
          | some q' =>
            exact rd_eq_of_par (set_other hr hl' _ _ (by rintro rfl; exact hq hl') fun p g hg e => absurd (e ▸ hl') (hf a (by simp) p))
    · rw [lastOf_cons, Option.or_eq_none_iff] at hq
      rw [h4 q (by rw [hd]; exact hq.1)]
      have hq' : (s.dict v).lookup a.1 ≠ some q := by
        intro h; rw [if_pos h] at hq; cases hq.2
      cases hl' : (s.dict v).lookup a.1 with
      | none => simp only [St.step, hl']
      | some q' =>
        exact set_other hr hl' _ _ (by rintro rfl; exact hq' hl') fun p g hg e => absurd (e ▸ hl') (hf a (by simp) p)
    · by_cases hl : lastOf (s.dict v) t q = none
      · rw [lastOf_cons, hl, Option.none_or] at hq
        have hq' : (s.dict v).lookup a.1 = some q := by
          by_contra h; rw [if_neg h] at hq; exact hq rfl
        rw [h4 q (by rw [hd]; exact hl)]
        exact (set_read hr hq' a.2 false).2
      · exact h5 q (by rw [hd]; exact hl)

/-- The role of a parameter in a camera. -/
inductive Role | c (f : CField) | p (f : PField) | o (f : OField) | l (f : LField)
deriving DecidableEq

/-- The parameter object of a role. -/
def Role.pid (c p o l : ℕ) : Role → Pid
  | .c f => .c c f
  | .p f => .p p f
  | .o f => .o o f
  | .l f => .l l f

/-- The name of a role. -/
def Role.name (ko : OKind) (kl : LKind) : Role → String
  | .c f => f.name
  | .p f => f.name
  | .o f => f.name ko
  | .l f => f.name kl

/-- Roles of a camera without lens distortion have no lens parameters. -/
def Role.In (kl : LKind) : Role → Prop
  | .l _ => kl ≠ .none
  | _ => True

theorem Role.lookup (ko : OKind) {kl : LKind} (c p o l : ℕ) {r : Role} (h : r.In kl) :
    (camDict ko kl c p o l).lookup (r.name ko kl) = some (r.pid c p o l) := by
  cases r with
  | c f => exact camDict_lookup_c _ _ _ _ _ _ f
  | p f => exact camDict_lookup_p _ _ _ _ _ _ f
  | o f => exact camDict_lookup_o _ _ _ _ _ _ f
  | l f => exact camDict_lookup_l _ h _ _ _ _ f

theorem Role.of_mem {ko : OKind} {kl : LKind} {c p o l : ℕ} {n : String} {q : Pid} (h : (n, q) ∈ camDict ko kl c p o l) :
    ∃ r : Role, r.In kl ∧ n = r.name ko kl ∧ q = r.pid c p o l := by
  simp only [camDict, List.mem_append] at h
  rcases h with ((h | h) | h) | h
  · rw [List.mem_map] at h
    obtain ⟨f, -, e⟩ := h
    cases e; exact ⟨.c f, trivial, rfl, rfl⟩
  · obtain ⟨f, e⟩ := mem_projDict h
    cases e; exact ⟨.p f, trivial, rfl, rfl⟩
  · obtain ⟨f, e⟩ := mem_orientDict h
    cases e; exact ⟨.o f, trivial, rfl, rfl⟩
  · have hk : kl ≠ .none := by rintro rfl; simp [lensDict] at h
    rcases mem_lensDict' h with ⟨f, e⟩ | ⟨p', f, e1, e2⟩
    · cases e; exact ⟨.l f, hk, rfl, rfl⟩
    · cases e1

theorem Role.pid_inj {c p o l : ℕ} {r r' : Role} (h : r.pid c p o l = r'.pid c p o l) : r = r' := by
  cases r <;> cases r' <;> simp only [Role.pid] at h <;> cases h <;> rfl

theorem Role.mem (ko : OKind) {kl : LKind} (c p o l : ℕ) {r : Role} (h : r.In kl) : (r.name ko kl, r.pid c p o l) ∈ camDict ko kl c p o l :=
  lookup_mem (r.lookup ko c p o l h)

/-- The names of the angles that the two classes do not share. -/
theorem Role.lookup_thr {kl : LKind} (c p o l : ℕ) {r : Role} (h : r.In kl) :
    (camDict .thr kl c p o l).lookup (r.name .ypr kl) = if r = .o .ang ∨ r = .o .turn then none else some (r.pid c p o l) := by
  by_cases hr : r = .o .ang ∨ r = .o .turn
  · rw [if_pos hr]
    rcases hr with rfl | rfl <;> cases kl <;>
      simp [Role.name, camDict, projDict, PField.all, PField.name, CField.all, CField.name, orientDict, OField.all, OField.name, lensDict, LField.all, LField.name, List.lookup]
  · rw [if_neg hr]
    have : r.name .ypr kl = r.name .thr kl := by
      cases r with
      | o f => cases f <;> first | rfl | simp at hr
      | _ => rfl
    rw [this]; exact r.lookup _ _ _ _ _ h

theorem Role.name_f {ko : OKind} {kl : LKind} {r : Role} (h : r.In kl) : r.name ko kl = "focallength_px" ↔ r = .p .f := by
  cases r with
  | c f => cases f <;> simp [Role.name, CField.name]
  | p f => cases f <;> simp [Role.name, PField.name]
  | o f => cases ko <;> cases f <;> simp [Role.name, OField.name]
  | l f => cases kl <;> cases f <;> simp [Role.name, LField.name]

/-- A new camera with new parts. -/
noncomputable def mkCam (s : St) (c p l o : ℕ) (kp : Projection.Kind) (kl : LKind) (ko : OKind) : St :=
  (((s.step (.newProj p kp initArgs false)).step (.newLens l kl fun _ => none)).step (.newOrient o ko fun _ => none)).step (.newCam c p o l)

/-- The new camera before the assignments of `load`. -/
noncomputable def loadInit (s : St) (c p l o : ℕ) (kp : Projection.Kind) (kl : LKind) : St := mkCam s c p l o kp kl .thr

theorem newLens_kind (s : St) (l : ℕ) (k : LKind) (args) : ∃ L, (s.newLens l k args).lenses l = some L ∧ L.kind = k ∧ L.proj = none := by
  have h := (Pres.runLens (preLens s l k args) l).lenses l
  have e : ((preLens s l k args).runLens l) = s.newLens l k args := rfl
  rw [e] at h
  cases e' : (s.newLens l k args).lenses l with
  | none => rw [e'] at h; simp [preLens] at h
  | some L =>
    rw [e'] at h
    simp only [preLens, Function.update_self, Option.map_some, Option.some.injEq, Prod.mk.injEq] at h
    exact ⟨L, rfl, h⟩

theorem newOrient_kind (s : St) (o : ℕ) (k : OKind) (args) : ∃ O, (s.newOrient o k args).orients o = some O ∧ O.kind = k := by
  have h := (Pres.runMatrix (preOrient s o k args) o).orients o
  have e : ((preOrient s o k args).runMatrix o) = s.newOrient o k args := rfl
  rw [e] at h
  cases e' : (s.newOrient o k args).orients o with
  | none => rw [e'] at h; simp [preOrient] at h
  | some O =>
    rw [e'] at h
    simp only [preOrient, Function.update_self, Option.map_some, Option.some.injEq] at h
    exact ⟨O, rfl, h⟩

theorem mkCam_spec {s : St} (hr : Reach s) {c p l o : ℕ} (hF : Fresh s p l o) (kp : Projection.Kind) (kl : LKind) (ko : OKind) :
    Reach (mkCam s c p l o kp kl ko) ∧ (ReachX s → ReachX (mkCam s c p l o kp kl ko)) ∧
    (∃ C O L, (mkCam s c p l o kp kl ko).cams c = some C ∧ C.proj = p ∧ C.orient = o ∧ C.lens = l ∧
      (mkCam s c p l o kp kl ko).projs p = some ⟨kp, none⟩ ∧ (mkCam s c p l o kp kl ko).orients o = some O ∧ O.kind = ko ∧
      (mkCam s c p l o kp kl ko).lenses l = some L ∧ L.kind = kl) ∧
    (mkCam s c p l o kp kl ko).dict (.cam c) = camDict ko kl c p o l ∧
    (∀ f, ((mkCam s c p l o kp kl ko).par (.o o f)).value = none ∧ (mkCam s c p l o kp kl ko).rd (.o o f) = f.default) ∧
    (mkCam s c p l o kp kl ko).rd (.p p .f) = 100 ∧ ((mkCam s c p l o kp kl ko).par (.p p .f)).mean = none := by
  set s1 := s.step (.newProj p kp initArgs false) with h1
  set s2 := s1.step (.newLens l kl fun _ => none) with h2
  set s3 := s2.step (.newOrient o ko fun _ => none) with h3
  set s4 := s3.step (.newCam c p o l) with h4
  have hs4 : mkCam s c p l o kp kl ko = s4 := rfl
  have ok1 : s.ok (.newProj p kp initArgs false) := ⟨hF.p, fun f => by cases f <;> simp [initArgs, PField.default]⟩
  have r1 : Reach s1 := .step hr ok1
  have k1 : s1.projs p = some ⟨kp, none⟩ := by simp [h1, St.step, St.newProj]
  have ok2 : s1.ok (.newLens l kl fun _ => none) := hF.l
  have r2 : Reach s2 := .step r1 ok2
  have k2 : s2.projs p = some ⟨kp, none⟩ := (step_keep r1.struct ok2).projs _ _ k1
  obtain ⟨L2, e2, e2', e2''⟩ := newLens_kind s1 l kl fun _ => none
  change s2.lenses l = some L2 at e2
  have ok3 : s2.ok (.newOrient o ko fun _ => none) := by
    show s2.orients o = none
    have : s2.orients = s1.orients := runLens_orients (preLens s1 l kl fun _ => none) l
    rw [this]; exact hF.o
  have r3 : Reach s3 := .step r2 ok3
  have k3 : s3.projs p = some ⟨kp, none⟩ := (step_keep r2.struct ok3).projs _ _ k2
  have e3l : s3.lenses l = some L2 := by
    have : s3.lenses = s2.lenses := runMatrix_lenses (preOrient s2 o ko fun _ => none) o
    rw [this]; exact e2
  obtain ⟨O3, e3, e3'⟩ := newOrient_kind s2 o ko fun _ => none
  change s3.orients o = some O3 at e3
  have ok4 : s3.ok (.newCam c p o l) := ⟨by rw [k3]; simp, by rw [e3]; simp, by rw [e3l]; simp⟩
  have r4 : Reach s4 := .step r3 ok4
  have k4 : s4.projs p = some ⟨kp, none⟩ := (step_keep r3.struct ok4).projs _ _ k3
  obtain ⟨O4, f1, f1'⟩ := (step_keep r3.struct ok4).orients o O3 e3
  obtain ⟨L4, f2, f2', -⟩ := (step_keep r3.struct ok4).lenses l L2 e3l
  have hC : ∃ C, s4.cams c = some C ∧ C.proj = p ∧ C.orient = o ∧ C.lens = l := by
    simp only [h4, St.step, St.newCam, Function.update_self]
    exact ⟨_, rfl, rfl, rfl, rfl⟩
  obtain ⟨C, g1, g2, g3, g4⟩ := hC
  have hpar : ∀ f, s4.par (.o o f) = newParam none (some f.default) f.type (some (.matrix o)) := by
    intro f
    have a1 : s4.par (.o o f) = (s3.setProjection l p).par (.o o f) := rfl
    have a2 : (s3.setProjection l p).par (.o o f) = s3.par (.o o f) := by
      by_cases hk : kl = .none
      · rw [setProjection_none fun L hL => by rw [e3l] at hL; cases hL; rw [e2', hk]]
      · rw [setProjection_eq e3l (by rw [e2']; exact hk), runLens_par, preBind_par (by rw [e2']; exact hk), if_neg]
        rintro (⟨f', e⟩ | ⟨g, -, e⟩) <;> cases e
    rw [a1, a2]
    have a3 : s3 = (preOrient s2 o ko fun _ => none).runMatrix o := rfl
    rw [a3]
    by_cases hf : f = .turn
    · subst hf
      rw [runMatrix_par_turn, if_pos (by simp [preOrient]), preOrient_par_o, wrapP_none_in]
      simp [newParam, Param.read, OField.default, Out]
    · rw [runMatrix_par _ _ (by intro e; cases e; exact hf rfl), preOrient_par_o]
  have hparf : (s4.par (.p p .f)).value = some 100 ∧ (s4.par (.p p .f)).mean = none := by
    have a1 : s4.par (.p p .f) = (s3.setProjection l p).par (.p p .f) := rfl
    obtain ⟨b1, -, b2, -⟩ := setProjection_fields s3 l p (.p p .f)
    have a3 : s3.par (.p p .f) = newParam (some 100) none 2 (some (.focal p)) := by
      rw [show s3 = (preOrient s2 o ko fun _ => none).runMatrix o from rfl, runMatrix_par _ _ (by simp)]
      show s2.par (.p p .f) = _
      rw [show s2 = (preLens s1 l kl fun _ => none).runLens l from rfl, runLens_par]
      show s1.par (.p p .f) = _
      simp [h1, St.step, St.newProj, initArgs]
    rw [a1, b1, b2, a3]
    exact ⟨rfl, rfl⟩
  rw [hs4]
  refine ⟨r4, fun hx => ?_, ⟨C, O4, L4, g1, g2, g3, g4, k4, f1, f1'.trans e3', f2, f2'.trans e2'⟩, ?_, fun f => ⟨by rw [hpar]; rfl, ?_⟩, ?_, hparf.2⟩
  · refine .step (.step (.step (.step hx ok1 trivial) ok2 trivial) ok3 trivial) ok4 ?_
    intro L hL hk
    rw [e3l] at hL; cases hL
    refine ⟨Or.inl e2'', fun l' L' hne hL' hk' hp => ?_⟩
    -- a lens that was there before has no reference to the new projection
    have q1 : s3.lenses l' = s.lenses l' := by
      have a : s3.lenses = s2.lenses := runMatrix_lenses (preOrient s2 o ko fun _ => none) o
      rw [a]
      have b : s2 = (preLens s1 l kl fun _ => none).runLens l := rfl
      rw [b, runLens_lenses_ne _ hne]
      show Function.update s1.lenses l _ l' = _
      rw [Function.update_of_ne hne]; rfl
    rw [q1] at hL'
    exact hr.dicts.lens l' L' p hL' hp hF.p
  · obtain ⟨P', O', L', q1, q2, q3, q4, -⟩ := r4.dicts.cam c C g1
    rw [g3, f1] at q2; cases q2
    rw [g4, f2] at q3; cases q3
    simp only [St.dict, g1, q4, g2, g3, g4, f1'.trans e3', f2'.trans e2']
  · unfold St.rd; rw [hpar]; rfl
  · unfold St.rd Param.read; rw [hparf.1]; rfl

theorem loadInit_spec {s : St} (hr : Reach s) {c p l o : ℕ} (hF : Fresh s p l o) (kp : Projection.Kind) (kl : LKind) :
    Reach (loadInit s c p l o kp kl) ∧ (ReachX s → ReachX (loadInit s c p l o kp kl)) ∧
    (∃ C O L, (loadInit s c p l o kp kl).cams c = some C ∧ C.proj = p ∧ C.orient = o ∧ C.lens = l ∧
      (loadInit s c p l o kp kl).projs p = some ⟨kp, none⟩ ∧ (loadInit s c p l o kp kl).orients o = some O ∧ O.kind = .thr ∧
      (loadInit s c p l o kp kl).lenses l = some L ∧ L.kind = kl) ∧
    (loadInit s c p l o kp kl).dict (.cam c) = camDict .thr kl c p o l ∧
    (∀ f, ((loadInit s c p l o kp kl).par (.o o f)).value = none ∧ (loadInit s c p l o kp kl).rd (.o o f) = f.default) ∧
    (loadInit s c p l o kp kl).rd (.p p .f) = 100 ∧ ((loadInit s c p l o kp kl).par (.p p .f)).mean = none :=
  mkCam_spec hr hF kp kl .thr

theorem save_eq {s : St} {c : ℕ} {disk disk' : Disk} {name : String} (h : save s c disk name = (disk', .ok ())) :
    disk' name = some (.json
      { values := (exports s (.cam c) (some "focallength_px")).map fun kv => (kv.1, s.rd kv.2)
        projection := (s.cams c).bind fun C => (s.projs C.proj).map fun P => projCode P.kind
        lens := (s.cams c).bind fun C => (s.lenses C.lens).map fun L => lensCode L.kind }) := by
  unfold save writeJson at h
  simp only at h
  split_ifs at h with hs
  · simp only [Prod.mk.injEq] at h
    rw [← h.1, Function.update_self]
  · simp at h

theorem projOf_code (k : Projection.Kind) : projOf (some (projCode k)) = .ok k := by cases k <;> rfl
theorem lensOf_code (k : LKind) : lensOfCode (some (lensCode k)) = .ok k := by cases k <;> rfl

/-- `load` of a saved file: never an error, and the new state. -/
theorem load_eq {s : St} {c : ℕ} {C : CObj} {P : PObj} {L : LObj} (hC : s.cams c = some C) (hP : s.projs C.proj = some P)
    (hL : s.lenses C.lens = some L) {disk disk' : Disk} {name : String} (h : save s c disk name = (disk', .ok ())) (s1 : St) (c' p l o : ℕ) :
    load s1 c' p l o disk' name = .ok (assignAll (loadInit s1 c' p l o P.kind L.kind) (.cam c')
      ((exports s (.cam c) (some "focallength_px")).map fun kv => (kv.1, s.rd kv.2))) := by
  simp only [load, readJson, save_eq h, hC, hP, hL, Option.bind_some, Option.map_some, projOf_code, lensOf_code, bind, Except.bind, pure,
    Except.pure]
  rfl

theorem not_out {s : St} (hr : Reach s) {o : ℕ} {O : OObj} (hO : s.orients o = some O) : ¬ Out (s.rd (.o o .turn)) := by
  obtain ⟨-, h1, h2⟩ := hr.inv.fresh o O hO
  rintro (h | h) <;> linarith

theorem norm360_same {q : Pid} {x : ℝ} (h : IsTurn q → ¬ Out x) : norm360 q x = x := by
  by_cases ht : IsTurn q
  · cases q with
    | o o f =>
      cases f with
      | turn => rw [norm360_eq, if_neg (h ht)]
      | _ => exact ht.elim
    | _ => exact ht.elim
  · exact norm360_not ht x

/-- What every parameter of the loaded camera reads. -/
theorem load_rd {s : St} (hr : Reach s) {c : ℕ} {C : CObj} {P : PObj} {O : OObj} {L : LObj} (hC : s.cams c = some C)
    (hO : s.orients C.orient = some O) (hL : s.lenses C.lens = some L) {s1 : St} (hr1 : Reach s1) {c' p l o : ℕ} (hF : Fresh s1 p l o) {s' : St}
    (hs' : s' = assignAll (loadInit s1 c' p l o P.kind L.kind) (.cam c') ((exports s (.cam c) (some "focallength_px")).map fun kv => (kv.1, s.rd kv.2))) :
    Reach s' ∧ (ReachX s1 → ReachX s') ∧ Pres (loadInit s1 c' p l o P.kind L.kind) s' ∧
    (∀ r : Role, r.In L.kind → r ≠ .p .f → s'.rd (r.pid c' p o l) =
      if O.kind = .ypr ∧ (r = .o .ang ∨ r = .o .turn) then (loadInit s1 c' p l o P.kind L.kind).rd (r.pid c' p o l) else s.rd (r.pid c C.proj C.orient C.lens)) ∧
    s'.par (.p p .f) = (loadInit s1 c' p l o P.kind L.kind).par (.p p .f) ∧
    ∀ r : Role, r.In L.kind → (s'.par (r.pid c' p o l)).mean = none ∨ (O.kind = .ypr ∧ (r = .o .ang ∨ r = .o .turn)) := by
  obtain ⟨i1, i1', -, i3, -, -, i6⟩ := loadInit_spec hr1 hF (c := c') P.kind L.kind
  set s0 := loadInit s1 c' p l o P.kind L.kind with hs0
  set vals := (exports s (.cam c) (some "focallength_px")).map fun kv => (kv.1, s.rd kv.2) with hvals
  have hd : s.dict (.cam c) = camDict O.kind L.kind c C.proj C.orient C.lens := by
    obtain ⟨P', O', L', -, q2, q3, q4, -⟩ := hr.dicts.cam c C hC
    rw [hO] at q2; cases q2
    rw [hL] at q3; cases q3
    simp only [St.dict, hC, q4]
  have hmem : ∀ nx, nx ∈ vals ↔ ∃ r : Role, r.In L.kind ∧ r ≠ .p .f ∧ nx = (r.name O.kind L.kind, s.rd (r.pid c C.proj C.orient C.lens)) := by
    intro nx
    simp only [hvals, exports, hd, List.mem_map, List.mem_filter, ne_eq, decide_not, Bool.not_eq_true', decide_eq_false_iff_not, Option.some.injEq]
    constructor
    · rintro ⟨⟨n, q⟩, ⟨h1, h2⟩, rfl⟩
      obtain ⟨r, hr', rfl, rfl⟩ := Role.of_mem h1
      exact ⟨r, hr', fun e => h2 ((Role.name_f hr').2 e), rfl⟩
    · rintro ⟨r, hr', h2, rfl⟩
      exact ⟨(_, _), ⟨Role.mem O.kind _ _ _ _ hr', fun e => h2 ((Role.name_f hr').1 e)⟩, rfl⟩
  have hlook : ∀ r : Role, r.In L.kind → (s0.dict (.cam c')).lookup (r.name O.kind L.kind) =
      if O.kind = .ypr ∧ (r = .o .ang ∨ r = .o .turn) then none else some (r.pid c' p o l) := by
    intro r hr'
    rw [i3]
    cases hk : O.kind with
    | thr => simp only [reduceCtorEq, false_and, if_false]; exact r.lookup _ _ _ _ _ hr'
    | ypr => simp only [true_and]; exact Role.lookup_thr _ _ _ _ hr'
  have hlast : ∀ r : Role, r.In L.kind → lastOf (s0.dict (.cam c')) vals (r.pid c' p o l) =
      if r = .p .f ∨ O.kind = .ypr ∧ (r = .o .ang ∨ r = .o .turn) then none else some (s.rd (r.pid c C.proj C.orient C.lens)) := by
    intro r hr'
    have hsome : ∀ x, lastOf (s0.dict (.cam c')) vals (r.pid c' p o l) = some x →
        ¬ (r = .p .f ∨ O.kind = .ypr ∧ (r = .o .ang ∨ r = .o .turn)) ∧ x = s.rd (r.pid c C.proj C.orient C.lens) := by
      intro x hx
      obtain ⟨n, h1, h2⟩ := lastOf_mem hx
      obtain ⟨r', hr1', hr2, e⟩ := (hmem _).1 h1
      simp only [Prod.mk.injEq] at e
      obtain ⟨rfl, rfl⟩ := e
      rw [hlook r' hr1'] at h2
      split_ifs at h2 with hc
      have : r' = r := Role.pid_inj (Option.some.inj h2)
      subst this
      exact ⟨by rintro (h | h) <;> [exact hr2 h; exact hc h], rfl⟩
    split_ifs with hc
    · cases hx : lastOf (s0.dict (.cam c')) vals (r.pid c' p o l) with
      | none => rfl
      | some x => exact absurd hc (hsome x hx).1
    · have hne : lastOf (s0.dict (.cam c')) vals (r.pid c' p o l) ≠ none := by
        rw [lastOf_some]
        rw [not_or] at hc
        exact ⟨_, (hmem _).2 ⟨r, hr', hc.1, rfl⟩, by rw [hlook r hr', if_neg hc.2]⟩
      obtain ⟨x, hx⟩ := Option.ne_none_iff_exists'.1 hne
      rw [hx, (hsome x hx).2]
  obtain ⟨a1, a2, a3, a4, a5, a6⟩ := assignAll_spec (v := .cam c') vals i1 (by
    intro nx hnx p' e
    obtain ⟨r, hr', hrf, rfl⟩ := (hmem _).1 hnx
    simp only at e
    rw [hlook r hr'] at e
    split_ifs at e
    have e := Option.some.inj e
    cases r with
    | p f => simp only [Role.pid, Pid.p.injEq] at e; exact hrf (by rw [e.2])
    | _ => cases e)
  rw [← hs'] at a1 a2 a3 a4 a5 a6
  refine ⟨a1, fun hx => a2 (i1' hx), a3, fun r hr' hrf => ?_, a5 (.p p .f) ((hlast (.p .f) trivial).trans (if_pos (Or.inl rfl))), fun r hr' => ?_⟩
  · rw [a4, hlast r hr']
    by_cases hc : O.kind = .ypr ∧ (r = .o .ang ∨ r = .o .turn)
    · rw [if_pos (Or.inr hc), if_pos hc]
    · rw [if_neg (by rintro (h | h) <;> [exact hrf h; exact hc h]), if_neg hc]
      apply norm360_same
      intro ht
      cases r with
      | o f => cases f <;> first | exact ht.elim | exact not_out hr hO
      | _ => exact ht.elim
  · by_cases hc : O.kind = .ypr ∧ (r = .o .ang ∨ r = .o .turn)
    · exact Or.inr hc
    · left
      by_cases hrf : r = .p .f
      · subst hrf
        show (s'.par (.p p .f)).mean = none
        rw [a5 (.p p .f) ((hlast (.p .f) trivial).trans (if_pos (Or.inl rfl))), i6]
      · refine (a6 _ ?_).1
        rw [hlast r hr', if_neg (by rintro (h | h) <;> [exact hrf h; exact hc h])]
        simp

/-! ### Values that cannot be saved -/

def NoBox (s : St) : Prop := ∀ q, (s.par q).boxed = false

theorem wrapP_boxed {x : Param} (h : x.boxed = false) : (wrapP x).boxed = false := by
  unfold wrapP; split_ifs <;> [rfl; exact h]

theorem NoBox.after {s : St} (h : NoBox s) (A : Cb → Prop) (q : Pid) : (after s A q).boxed = false := by
  unfold Sys.after
  split <;> (try split_ifs) <;> first | exact h _ | exact wrapP_boxed (h _)

theorem NoBox.mod {s : St} (h : NoBox s) (q : Pid) {f : Param → Param} (hf : ∀ x, x.boxed = false → (f x).boxed = false) : NoBox (s.mod q f) := by
  intro q'
  rw [mod_par]; split_ifs with e
  · exact hf _ (h _)
  · exact h _

theorem NoBox.runMatrix {s : St} (h : NoBox s) (o : ℕ) : NoBox (s.runMatrix o) := by
  intro q
  by_cases e : q = .o o .turn
  · subst e; rw [runMatrix_par_turn]; split_ifs
    · exact wrapP_boxed (h _)
    · exact h _
  · rw [runMatrix_par _ _ e]; exact h q

theorem NoBox.setProjection {s : St} (h : NoBox s) (l p : ℕ) : NoBox (s.setProjection l p) := by
  intro q
  by_cases e : ∃ L, s.lenses l = some L ∧ L.kind ≠ .none
  · obtain ⟨L, hl, hk⟩ := e
    rw [setProjection_eq hl hk, runLens_par, preBind_par hk]
    split_ifs <;> exact h q
  · rw [setProjection_none fun L hL => by by_contra hk; exact e ⟨L, hL, hk⟩]; exact h q

theorem NoBox.step {s : St} (h : NoBox s) (hs : Struct s) {op : Op} (hok : s.ok op) (hb : op.NoBox) : NoBox (s.step op) := by
  cases op with
  | newOrient o k args =>
    refine NoBox.runMatrix (s := preOrient s o k args) (fun q => ?_) o
    by_cases e : ∃ f, q = .o o f
    · obtain ⟨f, rfl⟩ := e; rw [preOrient_par_o]; rfl
    · rw [preOrient_par _ _ _ _ (by push Not at e; exact e)]; exact h q
  | newProj p k args attr =>
    intro q
    show ((s.newProj p k args attr).par q).boxed = false
    by_cases e : ∃ f, q = .p p f
    · obtain ⟨f, rfl⟩ := e
      by_cases ef : f = .f
      · subst ef; rw [newProj_par_f]; rfl
      · rw [newProj_par_p _ _ _ _ _ ef]; rfl
    · rw [newProj_par _ _ _ _ _ (by push Not at e; exact e)]; exact h q
  | newLens l k args =>
    intro q
    show ((s.newLens l k args).par q).boxed = false
    rw [newLens_eq, runLens_par]
    cases q with
    | l l' f =>
      simp only [preLens]
      split_ifs
      · rfl
      · exact h _
    | _ => exact h _
  | newCam c p o l =>
    intro q
    show ((s.newCam c p o l).par q).boxed = false
    rw [newCam_eq]
    by_cases e : ∃ f, q = .c c f
    · obtain ⟨f, rfl⟩ := e; rw [camTail_par_c]; rfl
    · rw [camTail_par _ _ _ _ _ (by push Not at e; exact e)]; exact h.setProjection l p q
  | newGroup g d => exact h
  | set v n x b =>
    have hb : b = false := hb
    subst hb
    intro q
    cases hl : (s.dict v).lookup n with
    | none => simp only [St.step, hl]; exact h q
    | some q0 => rw [set_par hs hl]; exact (h.mod q0 fun x hx => rfl).after _ q
  | setStats v n m σ =>
    intro q
    cases hl : (s.dict v).lookup n with
    | none => simp only [St.step, hl]; exact h q
    | some q0 => rw [setStats_par hs hl]; exact (h.mod q0 fun x hx => rfl).after _ q
  | setDefault v n x =>
    intro q
    cases hl : (s.dict v).lookup n with
    | none => simp only [St.step, hl]; exact h q
    | some q0 => rw [setDefault_par hs hl]; exact NoBox.after (h.mod q0 (f := fun y => { y with default := some x }) fun x hx => hx) _ q
  | setFit v vals order =>
    intro q
    rw [setFit_par hs hok]
    refine NoBox.after (fun q => ?_) _ q
    rw [fitLoop_par]
    cases lastOf (s.dict v) vals q <;> [exact h q; rfl]
  | sample v draw order =>
    intro q
    rw [sample_par hs hok]
    refine NoBox.after (fun q => ?_) _ q
    rw [sampleLoop_par]
    split_ifs <;> [rfl; exact h q]
  | toMean v order =>
    intro q
    rw [toMean_par hs hok]
    refine NoBox.after (fun q => ?_) _ q
    rw [meanLoop_par]
    split_ifs <;> [rfl; exact h q]
  | setTrace v t => exact h

theorem ReachN.reach {s : St} (h : ReachN s) : Reach s := by
  induction h with
  | start => exact .start
  | step _ hok _ ih => exact .step ih hok

theorem ReachN.noBox {s : St} (h : ReachN s) : NoBox s := by
  induction h with
  | start => intro q; rfl
  | step hr hok hb ih => exact ih.step hr.reach.struct hok hb

theorem mkCam_reachN {s : St} (hr : ReachN s) {c p l o : ℕ} (hF : Fresh s p l o) (kp : Projection.Kind) (kl : LKind) (ko : OKind) :
    ReachN (mkCam s c p l o kp kl ko) := by
  set s1 := s.step (.newProj p kp initArgs false) with h1
  set s2 := s1.step (.newLens l kl fun _ => none) with h2
  set s3 := s2.step (.newOrient o ko fun _ => none) with h3
  have ok1 : s.ok (.newProj p kp initArgs false) := ⟨hF.p, fun f => by cases f <;> simp [initArgs, PField.default]⟩
  have r1 : ReachN s1 := .step hr ok1 trivial
  have k1 : s1.projs p = some ⟨kp, none⟩ := by simp [h1, St.step, St.newProj]
  have ok2 : s1.ok (.newLens l kl fun _ => none) := hF.l
  have r2 : ReachN s2 := .step r1 ok2 trivial
  have k2 : s2.projs p = some ⟨kp, none⟩ := (step_keep r1.reach.struct ok2).projs _ _ k1
  obtain ⟨L2, e2, -⟩ := newLens_kind s1 l kl fun _ => none
  change s2.lenses l = some L2 at e2
  have ok3 : s2.ok (.newOrient o ko fun _ => none) := by
    show s2.orients o = none
    have : s2.orients = s1.orients := runLens_orients (preLens s1 l kl fun _ => none) l
    rw [this]; exact hF.o
  have r3 : ReachN s3 := .step r2 ok3 trivial
  have k3 : s3.projs p = some ⟨kp, none⟩ := (step_keep r2.reach.struct ok3).projs _ _ k2
  have e3l : s3.lenses l = some L2 := by
    have : s3.lenses = s2.lenses := runMatrix_lenses (preOrient s2 o ko fun _ => none) o
    rw [this]; exact e2
  obtain ⟨O3, e3, -⟩ := newOrient_kind s2 o ko fun _ => none
  change s3.orients o = some O3 at e3
  exact .step r3 ⟨by rw [k3]; simp, by rw [e3]; simp, by rw [e3l]; simp⟩ trivial

/-- The values of the projection of a new camera. -/
theorem mkCam_value (s : St) (c p l o : ℕ) (kp : Projection.Kind) (kl : LKind) (ko : OKind) (f : PField) (hf : f ≠ .f) :
    ((mkCam s c p l o kp kl ko).par (.p p f)).value = initArgs f := by
  set s1 := s.step (.newProj p kp initArgs false) with h1
  set s2 := s1.step (.newLens l kl fun _ => none) with h2
  set s3 := s2.step (.newOrient o ko fun _ => none) with h3
  have a1 : (mkCam s c p l o kp kl ko).par (.p p f) = (s3.setProjection l p).par (.p p f) := rfl
  obtain ⟨b1, -, b2, -⟩ := setProjection_fields s3 l p (.p p f)
  rw [a1, b1, show s3 = (preOrient s2 o ko fun _ => none).runMatrix o from rfl, runMatrix_par _ _ (by simp)]
  show (s2.par (.p p f)).value = _
  rw [show s2 = (preLens s1 l kl fun _ => none).runLens l from rfl, runLens_par]
  show (s1.par (.p p f)).value = _
  rw [show s1 = s.newProj p kp initArgs false from rfl, newProj_par_p _ _ _ _ _ hf]
  rfl

theorem mkCam_f {s : St} (hr : Reach s) {c p l o : ℕ} (hF : Fresh s p l o) (kp : Projection.Kind) (kl : LKind) (ko : OKind) :
    ((mkCam s c p l o kp kl ko).par (.p p .f)).value = some 100 := by
  obtain ⟨h1, -, ⟨C, O, L, -, -, -, -, h5, -⟩, -, -, h6, -⟩ := mkCam_spec hr hF (c := c) kp kl ko
  have := read_value h1 (p := p) (by rw [h5]; simp) (g := .f) rfl
  rw [← this, read_rd h1, h6]

theorem mkCam_rd (s : St) (c p l o : ℕ) (kp : Projection.Kind) (kl : LKind) (ko : OKind) (f : PField) (x : ℝ)
    (hx : initArgs f = some x) : (mkCam s c p l o kp kl ko).rd (.p p f) = x := by
  have h := mkCam_value s c p l o kp kl ko f (by rintro rfl; cases hx)
  unfold St.rd Param.read
  rw [h, hx]; rfl

/-- The example camera has the given classes. -/
theorem mkCam_classes {s : St} (hr : Reach s) {c p l o : ℕ} (hF : Fresh s p l o) (kp : Projection.Kind) (kl : LKind) (ko : OKind) :
    Classes (mkCam s c p l o kp kl ko) c kp kl ko ∧ ∀ C, (mkCam s c p l o kp kl ko).cams c = some C → Plain (mkCam s c p l o kp kl ko) (.proj C.proj) := by
  obtain ⟨-, -, ⟨C, O, L, h1, h2, h3, h4, h5, h6, h7, h8, h9⟩, -⟩ := mkCam_spec hr hF (c := c) kp kl ko
  refine ⟨⟨C, _, L, O, h1, by rw [h2]; exact h5, by rw [h4]; exact h8, by rw [h3]; exact h6, rfl, h9, h7⟩, fun C' e => ?_⟩
  rw [h1] at e; cases e
  rw [h2]; intro p' P' e hP'; cases e; rw [h5] at hP'; cases hP'; rfl

theorem fresh0 : Fresh St.empty 0 0 0 := ⟨rfl, rfl, rfl⟩

theorem save_ok {s : St} (h : NoBox s) (c : ℕ) (disk : Disk) (name : String) : save s c disk name = ((save s c disk name).1, .ok ()) := by
  have hk : ∀ kv ∈ exports s (.cam c) (some "focallength_px"), Serialisable (s.par kv.2) := fun kv _ => Or.inr (h kv.2)
  unfold save writeJson
  simp only
  rw [if_pos hk]

/-! ### Copying the parameters of one part to another -/

theorem lookup_map_inj {α : Type} (K : List α) (nm : α → String) (q : α → Pid) (hn : ∀ a ∈ K, ∀ b ∈ K, nm a = nm b → a = b) {a : α} (ha : a ∈ K) :
    (K.map fun a => (nm a, q a)).lookup (nm a) = some (q a) := by
  cases h : (K.map fun a => (nm a, q a)).lookup (nm a) with
  | some x =>
    obtain ⟨b, hb, e1, e2⟩ := lookup_map K nm q h
    rw [hn a ha b hb e1, e2]
  | none =>
    rw [List.lookup_eq_none_iff] at h
    have := h (nm a, q a) (List.mem_map.2 ⟨a, ha, rfl⟩)
    simp at this

theorem lookup_map_none {α : Type} (K : List α) (nm : α → String) (q : α → Pid) {n : String} (h : ∀ a ∈ K, n ≠ nm a) :
    (K.map fun a => (nm a, q a)).lookup n = none := by
  cases h' : (K.map fun a => (nm a, q a)).lookup n with
  | none => rfl
  | some x =>
    obtain ⟨b, hb, e1, -⟩ := lookup_map K nm q h'
    exact absurd e1 (h b hb)

theorem copy_lastOf {α : Type} (K : List α) (nm : α → String) (q : α → Pid) (x : α → ℝ) (keep : α → Prop)
    (hn : ∀ a ∈ K, ∀ b ∈ K, nm a = nm b → a = b) (hq : ∀ a ∈ K, ∀ b ∈ K, q a = q b → a = b) {vals : List (String × ℝ)}
    (hv : ∀ nx, nx ∈ vals ↔ ∃ a ∈ K, keep a ∧ nx = (nm a, x a)) :
    (∀ a ∈ K, lastOf (K.map fun a => (nm a, q a)) vals (q a) = if keep a then some (x a) else none) ∧
    ∀ y, (∀ a ∈ K, y ≠ q a) → lastOf (K.map fun a => (nm a, q a)) vals y = none := by
  have hsome : ∀ y z, lastOf (K.map fun a => (nm a, q a)) vals y = some z → ∃ a ∈ K, keep a ∧ y = q a ∧ z = x a := by
    intro y z h
    obtain ⟨n, h1, h2⟩ := lastOf_mem h
    obtain ⟨a, ha, hk, e⟩ := (hv _).1 h1
    simp only [Prod.mk.injEq] at e
    obtain ⟨rfl, rfl⟩ := e
    rw [lookup_map_inj K nm q hn ha] at h2
    exact ⟨a, ha, hk, (Option.some.inj h2).symm, rfl⟩
  constructor
  · intro a ha
    split_ifs with hk
    · have : lastOf (K.map fun a => (nm a, q a)) vals (q a) ≠ none :=
        lastOf_some.2 ⟨_, (hv _).2 ⟨a, ha, hk, rfl⟩, lookup_map_inj K nm q hn ha⟩
      obtain ⟨z, hz⟩ := Option.ne_none_iff_exists'.1 this
      obtain ⟨b, hb, -, e1, e2⟩ := hsome _ _ hz
      rw [hz, e2, hq a ha b hb e1]
    · cases hz : lastOf (K.map fun a => (nm a, q a)) vals (q a) with
      | none => rfl
      | some z =>
        obtain ⟨b, hb, hkb, e1, e2⟩ := hsome _ _ hz
        rw [hq a ha b hb e1] at hk
        exact absurd hkb hk
  · intro y hy
    cases hz : lastOf (K.map fun a => (nm a, q a)) vals y with
    | none => rfl
    | some z =>
      obtain ⟨b, hb, -, e1, -⟩ := hsome _ _ hz
      exact absurd e1 (hy b hb)

theorem savePart_eq {s : St} {v : View} {disk disk' : Disk} {name : String} (h : savePart s v disk name = (disk', .ok ())) :
    disk' name = some (.json
      { values := (exports s v (skipOf v)).map fun kv => (kv.1, attrOf s v kv.1) }) := by
  unfold savePart writeJson at h
  simp only at h
  split_ifs at h with hs
  · simp only [Prod.mk.injEq] at h
    rw [← h.1, Function.update_self]
  · simp at h

theorem attrOf_eq {s : St} (hr : Reach s) {v : View} {n : String} {q : Pid} (hp : Plain s v) (h : (s.dict v).lookup n = some q) : attrOf s v n = s.rd q := by
  unfold attrOf
  rw [getattr_eq hp, h, Option.map_some, read_rd hr]; rfl

theorem savePart_ok {s : St} (h : NoBox s) (v : View) (disk : Disk) (name : String) :
    savePart s v disk name = ((savePart s v disk name).1, .ok ()) := by
  have hk : ∀ skip, ∀ kv ∈ exports s v skip, Serialisable (s.par kv.2) := fun skip kv _ => Or.inr (h kv.2)
  unfold savePart writeJson
  simp only
  rw [if_pos (hk _)]

end Persist
