import Verif.Props.LoadView
import Verif.Props.Fit
import Verif.Proofs.Lens
import Verif.Spec.Twins

/-! # The order of callbacks -/

set_option linter.constructorNameAsVariable false

open Classical Stat Sys

namespace Sys

/-- Two states that differ at most in what the callbacks have computed. -/
structure Sim (s s' : St) : Prop where
  par : s.par = s'.par
  orients : ∀ o, (s.orients o).map OObj.kind = (s'.orients o).map OObj.kind
  lenses : ∀ l, (s.lenses l).map (fun L => (L.kind, L.proj)) = (s'.lenses l).map (fun L => (L.kind, L.proj))
  projs : s.projs = s'.projs
  cams : s.cams = s'.cams
  groups : s.groups = s'.groups
  traces : s.traces = s'.traces

theorem Sim.dict {s s' : St} (h : Sim s s') : s.dict = s'.dict := by
  funext v
  cases v with
  | orient o =>
    have := h.orients o
    simp only [St.dict]
    cases e : s.orients o <;> cases e' : s'.orients o <;> rw [e, e'] at this <;>
      simp only [Option.map_some, Option.map_none, reduceCtorEq, Option.some.injEq] at this ⊢
    rw [this]
  | proj p => simp only [St.dict, h.projs]
  | lens l =>
    have := h.lenses l
    simp only [St.dict]
    cases e : s.lenses l <;> cases e' : s'.lenses l <;> rw [e, e'] at this <;>
      simp only [Option.map_some, Option.map_none, reduceCtorEq, Option.some.injEq, Prod.mk.injEq] at this ⊢
    rw [this.1, this.2]
  | cam c => simp only [St.dict, h.cams]
  | group g => simp only [St.dict, h.groups]

theorem Sim.orients_none {s s' : St} (h : Sim s s') (o : ℕ) : s.orients o ≠ none ↔ s'.orients o ≠ none := by
  have := h.orients o
  cases e : s.orients o <;> cases e' : s'.orients o <;> rw [e, e'] at this <;> simp at this ⊢

theorem after_congr {s s' : St} {A B : Cb → Prop} (hp : s.par = s'.par) (ho : ∀ o, s.orients o ≠ none ↔ s'.orients o ≠ none) (hA : ∀ cb, A cb ↔ B cb) (q : Pid) :
    after s A q = after s' B q := by
  have e : A = B := funext fun cb => propext (hA cb)
  subst e
  cases q with
  | o o f =>
    cases f with
    | turn => rw [after_turn, after_turn, hp]; simp only [ho]
    | _ => simp only [after, hp]
  | p p f => cases f <;> simp only [after, hp]
  | _ => simp only [after, hp]

theorem mod_par_congr {s s' : St} (hp : s.par = s'.par) (q : Pid) (f : Param → Param) : (s.mod q f).par = (s'.mod q f).par := by
  simp only [St.mod, hp]

theorem fitLoop_congr (d : Dict) (vals : List (String × ℝ)) : ∀ {s s' : St}, s.par = s'.par → (s.fitLoop d vals).par = (s'.fitLoop d vals).par := by
  induction vals with
  | nil => intro s s' h; exact h
  | cons nv t ih =>
    intro s s' h
    obtain ⟨n, v⟩ := nv
    unfold St.fitLoop
    cases d.lookup n with
    | none => exact ih h
    | some q => exact ih (mod_par_congr h _ _)

theorem sampleLoop_congr (draw : Pid → ℝ) (d : Dict) : ∀ {s s' : St}, s.par = s'.par → (s.sampleLoop draw d).par = (s'.sampleLoop draw d).par := by
  induction d with
  | nil => intro s s' h; exact h
  | cons nv t ih =>
    intro s s' h
    exact ih (mod_par_congr h _ _)

theorem meanLoop_congr (d : Dict) : ∀ {s s' : St}, s.par = s'.par → (s.meanLoop d).par = (s'.meanLoop d).par := by
  induction d with
  | nil => intro s s' h; exact h
  | cons nv t ih =>
    intro s s' h
    exact ih (mod_par_congr h _ _)

theorem runOpt_traces (s : St) (cb : Option Cb) : (s.runOpt cb).traces = s.traces := by
  cases cb with
  | none => rfl
  | some cb => exact run_traces s cb

theorem sampleLoop_traces (draw : Pid → ℝ) (d : Dict) : ∀ s : St, (s.sampleLoop draw d).traces = s.traces := by
  induction d with
  | nil => intro s; rfl
  | cons nv t ih => intro s; exact ih _

theorem meanLoop_traces (d : Dict) : ∀ s : St, (s.meanLoop d).traces = s.traces := by
  induction d with
  | nil => intro s; rfl
  | cons nv t ih => intro s; exact ih _

theorem param_traces (s : St) {op : Op} (hp : op.isParam) : (s.step op).traces = s.traces := by
  cases op with
  | set v n x b =>
    simp only [St.step]
    cases (s.dict v).lookup n with
    | none => rfl
    | some q => exact runOpt_traces _ _
  | setStats v n x b =>
    simp only [St.step]
    cases (s.dict v).lookup n with
    | none => rfl
    | some q => exact runOpt_traces _ _
  | setDefault v n x =>
    simp only [St.step]
    cases (s.dict v).lookup n with
    | none => rfl
    | some q =>
      simp only [St.assignDefault]
      split_ifs
      · exact runOpt_traces _ _
      · rfl
  | setFit v vals order => exact setFit_traces _ _ _ _
  | sample v draw order => exact (runAll_traces _ _).trans (sampleLoop_traces _ _ _)
  | toMean v order => exact (runAll_traces _ _).trans (meanLoop_traces _ _)
  | _ => exact hp.elim

/-- A call on existing objects: only the parameters need to be compared. -/
theorem Sim.param {s s' : St} (h : Sim s s') (hs : Struct s) (hs' : Struct s') {op op' : Op} (hok : s.ok op) (hok' : s'.ok op') (hp : op.isParam) (hp' : op'.isParam)
    (hq : ∀ q, (s.step op).par q = (s'.step op').par q) : Sim (s.step op) (s'.step op') := by
  have p := step_pres hs hok hp
  have p' := step_pres hs' hok' hp'
  refine ⟨funext hq, fun o => ?_, fun l => ?_, ?_, ?_, ?_, ?_⟩
  · rw [p.orients, p'.orients, h.orients]
  · rw [p.lenses, p'.lenses, h.lenses]
  · rw [p.projs, p'.projs, h.projs]
  · rw [p.cams, p'.cams, h.cams]
  · rw [p.groups, p'.groups, h.groups]
  · rw [param_traces s hp, param_traces s' hp', h.traces]

theorem Sim.setFit {s s' : St} (h : Sim s s') (hs : Struct s) (hs' : Struct s') {v : View} {vals : List (String × ℝ)} {order order' : List Cb}
    (hok : s.ok (.setFit v vals order)) (hok' : s'.ok (.setFit v vals order')) : Sim (s.step (.setFit v vals order)) (s'.step (.setFit v vals order')) := by
  refine h.param hs hs' hok hok' trivial trivial fun q => ?_
  have u : Upd (fun _ => True) s (s.fitLoop (s.dict v) vals) := Upd.fitLoop vals s fun _ _ _ _ => trivial
  have u' : Upd (fun _ => True) s' (s'.fitLoop (s'.dict v) vals) := Upd.fitLoop vals s' fun _ _ _ _ => trivial
  rw [setFit_par hs hok, setFit_par hs' hok']
  refine after_congr ?_ (fun o => ?_) (fun cb => ?_) q
  · rw [h.dict]; exact fitLoop_congr _ _ h.par
  · rw [u.orients_eq, u'.orients_eq]; exact h.orients_none o
  · rw [fitOrder_mem hok, fitOrder_mem hok', h.dict, h.par]

theorem Sim.sample {s s' : St} (h : Sim s s') (hs : Struct s) (hs' : Struct s') {v : View} {draw : Pid → ℝ} {order order' : List Cb}
    (hok : s.ok (.sample v draw order)) (hok' : s'.ok (.sample v draw order')) : Sim (s.step (.sample v draw order)) (s'.step (.sample v draw order')) := by
  refine h.param hs hs' hok hok' trivial trivial fun q => ?_
  have u := Upd.sampleLoop (S := fun _ => True) (draw := draw) (s.dict v) s fun _ _ => trivial
  have u' := Upd.sampleLoop (S := fun _ => True) (draw := draw) (s'.dict v) s' fun _ _ => trivial
  rw [sample_par hs hok, sample_par hs' hok']
  refine after_congr ?_ (fun o => ?_) (fun cb => ?_) q
  · rw [h.dict]; exact sampleLoop_congr _ _ h.par
  · rw [u.orients_eq, u'.orients_eq]; exact h.orients_none o
  · rw [order_mem hok.2, order_mem hok'.2, h.dict, h.par]

theorem Sim.toMean {s s' : St} (h : Sim s s') (hs : Struct s) (hs' : Struct s') {v : View} {order order' : List Cb}
    (hok : s.ok (.toMean v order)) (hok' : s'.ok (.toMean v order')) : Sim (s.step (.toMean v order)) (s'.step (.toMean v order')) := by
  refine h.param hs hs' hok hok' trivial trivial fun q => ?_
  have u := Upd.meanLoop (S := fun _ => True) (s.dict v) s fun _ _ => trivial
  have u' := Upd.meanLoop (S := fun _ => True) (s'.dict v) s' fun _ _ => trivial
  rw [toMean_par hs hok, toMean_par hs' hok']
  refine after_congr ?_ (fun o => ?_) (fun cb => ?_) q
  · rw [h.dict]; exact meanLoop_congr _ h.par
  · rw [u.orients_eq, u'.orients_eq]; exact h.orients_none o
  · rw [order_mem hok.2, order_mem hok'.2, h.dict, h.par]

theorem Sim.assign {s s' : St} (h : Sim s s') (hs : Struct s) (hs' : Struct s') {op : Op} (hok : s.ok op) (hok' : s'.ok op)
    (hop : (∃ v n x b, op = .set v n x b) ∨ (∃ v n m σ, op = .setStats v n m σ) ∨ ∃ v n x, op = .setDefault v n x) : Sim (s.step op) (s'.step op) := by
  obtain ⟨v, n, x, b, rfl⟩ | ⟨v, n, m, σ, rfl⟩ | ⟨v, n, x, rfl⟩ := hop
  · refine h.param hs hs' hok hok' trivial trivial fun q => ?_
    cases hl : (s.dict v).lookup n with
    | none => simp only [St.step, ← h.dict, hl, h.par]
    | some q0 =>
      rw [set_par hs hl, set_par hs' (by rw [← h.dict]; exact hl)]
      exact after_congr (mod_par_congr h.par _ _) h.orients_none (fun cb => by rw [h.par]) q
  · refine h.param hs hs' hok hok' trivial trivial fun q => ?_
    cases hl : (s.dict v).lookup n with
    | none => simp only [St.step, ← h.dict, hl, h.par]
    | some q0 =>
      rw [setStats_par hs hl, setStats_par hs' (by rw [← h.dict]; exact hl)]
      exact after_congr (mod_par_congr h.par _ _) h.orients_none (fun cb => by rw [h.par]) q
  · refine h.param hs hs' hok hok' trivial trivial fun q => ?_
    cases hl : (s.dict v).lookup n with
    | none => simp only [St.step, ← h.dict, hl, h.par]
    | some q0 =>
      rw [setDefault_par hs hl, setDefault_par hs' (by rw [← h.dict]; exact hl)]
      exact after_congr (mod_par_congr h.par _ _) h.orients_none (fun cb => by rw [h.par]) q

theorem Sim.runMatrix {s s' : St} (h : Sim s s') (o : ℕ) : Sim (s.runMatrix o) (s'.runMatrix o) := by
  have p := Pres.runMatrix s o
  have p' := Pres.runMatrix s' o
  refine ⟨funext fun q => ?_, fun o => ?_, fun l => ?_, ?_, ?_, ?_, ?_⟩
  · by_cases e : q = .o o .turn
    · rw [e, runMatrix_par_turn, runMatrix_par_turn, h.par]
      simp only [h.orients_none]
    · rw [runMatrix_par _ _ e, runMatrix_par _ _ e, h.par]
  · rw [p.orients, p'.orients, h.orients]
  · rw [p.lenses, p'.lenses, h.lenses]
  · rw [p.projs, p'.projs, h.projs]
  · rw [p.cams, p'.cams, h.cams]
  · rw [p.groups, p'.groups, h.groups]
  · rw [runMatrix_traces, runMatrix_traces, h.traces]

theorem Sim.runLens {s s' : St} (h : Sim s s') (l : ℕ) : Sim (s.runLens l) (s'.runLens l) := by
  have p := Pres.runLens s l
  have p' := Pres.runLens s' l
  refine ⟨?_, fun o => ?_, fun l => ?_, ?_, ?_, ?_, ?_⟩
  · rw [runLens_par, runLens_par, h.par]
  · rw [p.orients, p'.orients, h.orients]
  · rw [p.lenses, p'.lenses, h.lenses]
  · rw [p.projs, p'.projs, h.projs]
  · rw [p.cams, p'.cams, h.cams]
  · rw [p.groups, p'.groups, h.groups]
  · have : ∀ s : St, (s.runLens l).traces = s.traces := fun s => by unfold St.runLens; split <;> rfl
    rw [this, this, h.traces]

theorem Sim.newOrient {s s' : St} (h : Sim s s') (o : ℕ) (k : OKind) (args : OField → Option ℝ) : Sim (s.newOrient o k args) (s'.newOrient o k args) := by
  rw [newOrient_eq, newOrient_eq]
  refine Sim.runMatrix (s := preOrient s o k args) (s' := preOrient s' o k args) ⟨?_, fun o' => ?_, h.lenses, h.projs, h.cams, h.groups, h.traces⟩ o
  · simp only [preOrient, h.par]
  · simp only [preOrient, Function.update_apply]
    split_ifs
    · rfl
    · exact h.orients o'

theorem Sim.newLens {s s' : St} (h : Sim s s') (l : ℕ) (k : LKind) (args : LField → Option ℝ) : Sim (s.newLens l k args) (s'.newLens l k args) := by
  rw [newLens_eq, newLens_eq]
  refine Sim.runLens (s := preLens s l k args) (s' := preLens s' l k args) ⟨?_, h.orients, fun l' => ?_, h.projs, h.cams, h.groups, h.traces⟩ l
  · simp only [preLens, h.par]
  · simp only [preLens, Function.update_apply]
    split_ifs
    · rfl
    · exact h.lenses l'

theorem hook_congr (l : ℕ) (d : Dict) : ∀ {s s' : St}, Sim s s' → Sim (s.hook l d) (s'.hook l d) := by
  induction d with
  | nil => intro s s' h; exact h
  | cons nv t ih =>
    intro s s' h
    exact ih ⟨mod_par_congr h.par _ _, h.orients, h.lenses, h.projs, h.cams, h.groups, h.traces⟩

theorem Sim.setProjection {s s' : St} (h : Sim s s') (l p : ℕ) : Sim (s.setProjection l p) (s'.setProjection l p) := by
  have hl := h.lenses l
  unfold St.setProjection
  cases e : s.lenses l with
  | none =>
    cases e' : s'.lenses l with
    | none => exact h
    | some L' => rw [e, e'] at hl; simp at hl
  | some L =>
    cases e' : s'.lenses l with
    | none => rw [e, e'] at hl; simp at hl
    | some L' =>
      rw [e, e'] at hl
      simp only [Option.map_some, Option.some.injEq, Prod.mk.injEq] at hl
      simp only [← hl.1]
      split_ifs with hk
      · exact h
      · refine Sim.runLens ?_ l
        apply hook_congr
        refine ⟨h.par, h.orients, fun l' => ?_, h.projs, h.cams, h.groups, ?_⟩
        · simp only [Function.update_apply]
          split_ifs
          · simp [hl.1]
          · exact h.lenses l'
        · simp only [h.traces]

theorem Sim.camTail {s s' : St} (h : Sim s s') (c p o l : ℕ) : Sim (camTail s c p o l) (camTail s' c p o l) := by
  have hc : ∀ s : St, (Sys.camTail s c p o l).cams = Function.update s.cams c (some ⟨p, o, l,
      dictUpdate (dictUpdate (dictUpdate (CField.all.map fun f => (f.name, Pid.c c f)) (s.dict (.proj p))) (s.dict (.orient o))) (s.dict (.lens l))⟩) := fun _ => rfl
  refine ⟨?_, h.orients, h.lenses, h.projs, ?_, h.groups, ?_⟩
  · simp only [Sys.camTail, h.par]
  · rw [hc, hc, h.dict, h.cams]
  · simp only [Sys.camTail, h.traces]

theorem Twins.sim {s s' : St} (h : Twins s s') : Reach s ∧ Reach s' ∧ Sim s s' := by
  induction h with
  | start => exact ⟨.start, .start, ⟨rfl, fun _ => rfl, fun _ => rfl, rfl, rfl, rfl, rfl⟩⟩
  | @step s s' op op' _ hc hok hok' ih =>
    obtain ⟨r, r', h⟩ := ih
    refine ⟨.step r hok, .step r' hok', ?_⟩
    have hs := r.struct
    have hs' := r'.struct
    cases hc with
    | setFit v vals order order' => exact h.setFit hs hs' hok hok'
    | sample v draw order order' => exact h.sample hs hs' hok hok'
    | toMean v order order' => exact h.toMean hs hs' hok hok'
    | same =>
      cases op with
      | newOrient o k args => exact h.newOrient o k args
      | newProj p k args attr => exact ⟨by simp only [St.step, St.newProj, h.par], h.orients, h.lenses, by simp only [St.step, St.newProj, h.projs], h.cams, h.groups, h.traces⟩
      | newLens l k args => exact h.newLens l k args
      | newCam c p o l => exact (h.setProjection l p).camTail c p o l
      | newGroup g d => exact ⟨h.par, h.orients, h.lenses, h.projs, h.cams, by simp only [St.step, h.groups], h.traces⟩
      | set v n x b => exact h.assign hs hs' hok hok' (Or.inl ⟨_, _, _, _, rfl⟩)
      | setStats v n m σ => exact h.assign hs hs' hok hok' (Or.inr (Or.inl ⟨_, _, _, _, rfl⟩))
      | setDefault v n x => exact h.assign hs hs' hok hok' (Or.inr (Or.inr ⟨_, _, _, rfl⟩))
      | setFit v vals order => exact h.setFit hs hs' hok hok'
      | sample v draw order => exact h.sample hs hs' hok hok'
      | toMean v order => exact h.toMean hs hs' hok hok'
      | setTrace v t => exact ⟨h.par, h.orients, h.lenses, h.projs, h.cams, h.groups, by simp only [St.step, h.traces]⟩

end Sys

open Num LensModel LensSpec

/-- **C161** Two runs of a program that differ only in the orders in which callbacks were called have the same parameters: everything that can be read, the names that a
fit would vary, and the matrices of all orientations. -/
theorem C161_read {s s' : St} (h : Twins s s') :
    (∀ v n, s.getattr v n = s'.getattr v n) ∧ (∀ v mask, s.getFit v mask = s'.getFit v mask) ∧ (∀ q, s.par q = s'.par q) ∧ s.orients = s'.orients ∧
      s.traces = s'.traces := by
  obtain ⟨r, r', h⟩ := h.sim
  refine ⟨fun v n => ?_, fun v mask => ?_, fun q => by rw [h.par], funext fun o => ?_, h.traces⟩
  · unfold St.getattr
    simp only [h.dict, h.par, h.projs]
  · unfold St.getFit
    simp only [h.dict, h.par]
  · have hk := h.orients o
    have f := r.inv.fresh o
    have f' := r'.inv.fresh o
    cases e : s.orients o with
    | none =>
      cases e' : s'.orients o with
      | none => rfl
      | some O' => rw [e, e'] at hk; simp at hk
    | some O =>
      cases e' : s'.orients o with
      | none => rw [e, e'] at hk; simp at hk
      | some O' =>
        rw [e, e'] at hk
        simp only [Option.map_some, Option.some.injEq] at hk
        have m := (f O e).1
        have m' := (f' O' e').1
        have hm : s'.matOf O.kind o = s.matOf O.kind o := matOf_congr (fun f => by unfold St.rd; rw [h.par]) _
        obtain ⟨k, m1⟩ := O
        obtain ⟨k', m2⟩ := O'
        simp only at hk m m' hm
        rw [m, m', ← hk, hm]

namespace Sys

theorem Reach.twins {s : St} (h : Reach s) : Twins s s := by
  induction h with
  | start => exact .start
  | step _ hok ih => exact .step ih (.same _) hok hok

end Sys

example : ∃ (s s' : St) (order : List Cb), Twins s s' ∧ ReachX s ∧ ReachX s' ∧ s = Ex.s4.step (.toMean (.cam 0) order) ∧ s' = Ex.s4.step (.toMean (.cam 0) order.reverse) := by
  obtain ⟨order, h⟩ := Ex.exists_order (Ex.s4.allCallbacks (Ex.s4.dict (.cam 0)))
  have h' : IsOrder order.reverse (Ex.s4.allCallbacks (Ex.s4.dict (.cam 0))) := ⟨List.nodup_reverse.mpr h.1, fun cb => by rw [List.mem_reverse]; exact h.2 cb⟩
  have ok1 : Ex.s4.ok (.toMean (.cam 0) order) := ⟨Ex.trace4, h⟩
  have ok2 : Ex.s4.ok (.toMean (.cam 0) order.reverse) := ⟨Ex.trace4, h'⟩
  exact ⟨_, _, order, .step (Ex.reachX4.reach.twins) (.toMean _ _ _) ok1 ok2, .step Ex.reachX4 ok1 trivial, .step Ex.reachX4 ok2 trivial, rfl, rfl⟩

namespace Sys

/-- With equal lenses, everything is computed equally. -/
theorem Sim.image {s s' : St} (h : Sim s s') (ho : s.orients = s'.orients) (spline : Spline) {c : ℕ} {C : CObj} (hC : s.cams c = some C)
    (hl : s.lensOf spline C.lens = s'.lensOf spline C.lens) :
    (∀ pt hide, s.imageFromSpace spline c pt hide = s'.imageFromSpace spline c pt hide) ∧ ∀ pt normed, s.getRay spline c pt normed = s'.getRay spline c pt normed := by
  have hi : s.intrOf C.proj = s'.intrOf C.proj := by
    simp only [St.intrOf, St.projWidth, St.projHeight, St.rd, h.par, h.projs]
  have hC' : s'.cams c = some C := by rw [← h.cams]; exact hC
  refine ⟨fun pt hide => ?_, fun pt normed => ?_⟩
  · simp only [St.imageFromSpace, hC, hC', hl, hi, ho, h.projs]
  · simp only [St.getRay, hC, hC', hl, hi, ho, h.projs]

end Sys

/-- **C161** A camera without distortion shows the same and casts the same rays. -/
theorem C161_undistorted (spline : Spline) {s s' : St} (h : Twins s s') {c : ℕ} {C : CObj} (hC : s.cams c = some C) {L : LObj} (hL : s.lenses C.lens = some L)
    (hk : L.kind = .none) :
    (∀ pt hide, s.imageFromSpace spline c pt hide = s'.imageFromSpace spline c pt hide) ∧ ∀ pt normed, s.getRay spline c pt normed = s'.getRay spline c pt normed := by
  obtain ⟨-, -, -, ho, -⟩ := C161_read h
  obtain ⟨-, -, h⟩ := h.sim
  refine h.image ho spline hC ?_
  have hl := h.lenses C.lens
  rw [hL] at hl
  cases e : s'.lenses C.lens with
  | none => rw [e] at hl; simp at hl
  | some L' =>
    rw [e] at hl
    simp only [Option.map_some, Option.some.injEq, Prod.mk.injEq] at hl
    simp only [St.lensOf, hL, e, ← hl.1, hk]

example : ∃ (s s' : St) (C : CObj) (L : LObj), Twins s s' ∧ s.cams 1 = some C ∧ s.lenses C.lens = some L ∧ L.kind = .none := by
  obtain ⟨O, hO, -⟩ := Ex.s4_orients
  have ok1 : Ex.s4.ok (.newLens 1 .none fun _ => none) := Ex.s4_lens1
  have r1 : Reach (Ex.s4.step (.newLens 1 .none fun _ => none)) := .step Ex.reachX4.reach ok1
  have k1 := step_keep Ex.reachX4.reach.inv.struct ok1
  have h := (Pres.runLens (preLens Ex.s4 1 .none fun _ => none) 1).lenses 1
  have e : ((preLens Ex.s4 1 .none fun _ => none).runLens 1) = Ex.s4.step (.newLens 1 .none fun _ => none) := rfl
  rw [e] at h
  cases e' : (Ex.s4.step (.newLens 1 .none fun _ => none)).lenses 1 with
  | none => rw [e'] at h; simp [preLens] at h
  | some L =>
    rw [e'] at h
    simp only [preLens, Function.update_self, Option.map_some, Option.some.injEq, Prod.mk.injEq] at h
    have ok2 : (Ex.s4.step (.newLens 1 .none fun _ => none)).ok (.newCam 1 0 0 1) := by
      refine ⟨?_, ?_, ?_⟩
      · rw [k1.projs 0 _ Ex.s4_projs]; simp
      · obtain ⟨O', h3, -⟩ := k1.orients 0 O hO
        rw [h3]; simp
      · rw [e']; simp
    have r2 := Reach.step r1 ok2
    obtain ⟨L2, h5, h6, -⟩ := (step_keep r1.inv.struct ok2).lenses 1 L e'
    have hc : ∃ C, ((Ex.s4.step (.newLens 1 .none fun _ => none)).step (.newCam 1 0 0 1)).cams 1 = some C ∧ C.lens = 1 := by
      simp [St.step, St.newCam]
    obtain ⟨C, hC, hCl⟩ := hc
    exact ⟨_, _, C, L2, r2.twins, hC, by rw [hCl]; exact h5, h6.trans h.1⟩

/-- **C161** So does every camera, if no two lenses share a projection and no two projections a lens. Missing: see `C161_violated`. -/
theorem C161_image_partial (spline : Spline) {s s' : St} (h : Twins s s') (hx : ReachX s) (hx' : ReachX s') (c : ℕ) :
    (∀ pt hide, s.imageFromSpace spline c pt hide = s'.imageFromSpace spline c pt hide) ∧ ∀ pt normed, s.getRay spline c pt normed = s'.getRay spline c pt normed := by
  obtain ⟨-, -, -, ho, -⟩ := C161_read h
  obtain ⟨-, -, h⟩ := h.sim
  cases hC : s.cams c with
  | none =>
    have hC' : s'.cams c = none := by rw [← h.cams]; exact hC
    exact ⟨fun pt hide => by simp only [St.imageFromSpace, hC, hC'], fun pt normed => by simp only [St.getRay, hC, hC']⟩
  | some C =>
    refine h.image ho spline hC ?_
    have hC' : s'.cams c = some C := by rw [← h.cams]; exact hC
    have hl := h.lenses C.lens
    cases e : s.lenses C.lens with
    | none =>
      cases e' : s'.lenses C.lens with
      | none => simp only [St.lensOf, e, e']
      | some L' => rw [e, e'] at hl; simp at hl
    | some L =>
      cases e' : s'.lenses C.lens with
      | none => rw [e, e'] at hl; simp at hl
      | some L' =>
        rw [e, e'] at hl
        simp only [Option.map_some, Option.some.injEq, Prod.mk.injEq] at hl
        have f := hx.invX.fresh C.lens L e
        have f' := hx'.invX.fresh C.lens L' e'
        have b := hx.invX.cam c C L hC e
        have b' := hx'.invX.cam c C L' hC' e'
        have hrd : ∀ q, s.rd q = s'.rd q := fun q => by unfold St.rd; rw [h.par]
        by_cases hk : L.kind = .none
        · simp only [St.lensOf, e, e', ← hl.1, hk]
        · have hk' : L'.kind ≠ .none := by rw [← hl.1]; exact hk
          have e1 : L.snap = L'.snap := by
            rw [f hk, f' hk', b hk, b' hk', ← hl.1]
            have hw : s.projWidth C.proj = s'.projWidth C.proj := by simp only [St.projWidth, hrd, h.projs]
            have hh : s.projHeight C.proj = s'.projHeight C.proj := by simp only [St.projHeight, hrd, h.projs]
            simp only [St.snapOf, hrd, hw, hh]
            cases ek : L.kind with
            | none => exact absurd ek hk
            | brown => rfl
            | abc => rfl
          simp only [St.lensOf, e, e', e1, hl.1, hrd]

namespace Sys

theorem runLens_lenses_eq (s : St) {l : ℕ} {L : LObj} (h : s.lenses l = some L) : (s.runLens l).lenses l = some { L with snap := s.snapOf l L.kind L.proj L.snap } := by
  unfold St.runLens
  rw [h]
  simp

theorem copyF_lenses_ne (s : St) {p : ℕ} {g : PField} {l l' : ℕ} (hcb : (s.par (.p p g)).callback = some (.lens l)) (hne : l' ≠ l) :
    (s.copyF p g).lenses l' = s.lenses l' := by
  unfold St.copyF
  simp only [mod_par, if_true, hcb, St.runSimple]
  rw [runLens_lenses_ne _ hne]
  rfl

theorem copyF_par' (s : St) {p : ℕ} {g : PField} {l : ℕ} (hcb : (s.par (.p p g)).callback = some (.lens l)) (q : Pid) :
    (s.copyF p g).par q = if q = .p p g then { s.par q with value := (s.par (.p p .f)).value, boxed := (s.par (.p p .f)).boxed } else s.par q := by
  unfold St.copyF
  simp only [mod_par, if_true, hcb, St.runSimple]
  rw [runLens_par, mod_par]
  by_cases e : q = .p p g
  · rw [if_pos e, if_pos e, e]
  · rw [if_neg e, if_neg e]

theorem brown_axis (L : Radial) {a t : ℝ} (hc : L.conv = brownRadius a 0 0) (hx : 0 < L.scale.x) (hy : 0 < L.scale.y) (ht : t ≠ 0) :
    (L.lens.distortedFromImage ⟨.fin (L.offset.x + t), .fin L.offset.y⟩).Is ⟨L.offset.x + t * (1 + a * (t / L.scale.x) ^ 2), L.offset.y⟩ := by
  have hr : radius L.scale L.offset ⟨L.offset.x + t, L.offset.y⟩ = |t / L.scale.x| := by
    unfold radius
    simp only [add_sub_cancel_left, sub_self, zero_div]
    rw [zero_pow two_ne_zero, add_zero]
    exact Real.sqrt_sq_eq_abs _
  have h0 : |t / L.scale.x| ≠ 0 := abs_ne_zero.mpr (div_ne_zero ht hx.ne')
  have := transform_is (L := L) (f := L.conv) (n := ⟨.fin (L.offset.x + t), .fin L.offset.y⟩) (p := ⟨L.offset.x + t, L.offset.y⟩) ⟨is_fin _, is_fin _⟩ hx.ne' hy.ne'
    (by rw [hr]; exact h0) (R := brownPoly a 0 0 |t / L.scale.x|) (fun m hm => by rw [hc]; rw [hr] at hm; exact brownRadius_is hm)
  rw [hr] at this
  refine ⟨this.1.congr ?_, this.2.congr ?_⟩
  · unfold brownPoly
    simp only [add_sub_cancel_left, sq_abs, zero_mul, add_zero]
    rw [mul_div_cancel_left₀ _ h0]
    ring
  · simp

end Sys

/-- **C161** is violated if two cameras with different lenses share a projection: after the second camera was created, a fit of the first that sets its distortion
and `focallength_px` leaves a distortion that depends on the order in which the two callbacks are called. -/
theorem C161_violated (spline : Spline) {s : St} (hr : Reach s) {c : ℕ} {C : CObj} (hC : s.cams c = some C) {c' o l : ℕ} (hne : c' ≠ c) (hl : l ≠ C.lens)
    {L L' : LObj} (hL : s.lenses C.lens = some L) (hk : L.kind = .brown) (hp : L.proj = some C.proj) (hL' : s.lenses l = some L') (hk' : L'.kind ≠ .none)
    (hok : s.ok (.newCam c' C.proj o l)) {a f : ℝ} (ha : a ≠ 0) (hf : 0 < f) (hx : 0 < s.rd (.p C.proj .fx)) (hy : 0 < s.rd (.p C.proj .fy))
    (hfx : f ≠ s.rd (.p C.proj .fx)) :
    let s1 := s.step (.newCam c' C.proj o l)
    let call := Op.setFit (.cam c) [("k1", a), ("k2", 0), ("k3", 0), ("focallength_px", f)]
    ∃ order order', s1.ok (call order) ∧ s1.ok (call order') ∧ Twins (s1.step (call order)) (s1.step (call order')) ∧ ∀ t : ℝ, t ≠ 0 →
      ∃ x x' y : ℝ, x ≠ x' ∧
        (((s1.step (call order)).lensOf spline C.lens).distortedFromImage ⟨.fin (s.rd (.p C.proj .cx) + t), .fin (s.rd (.p C.proj .cy))⟩).Is ⟨x, y⟩ ∧
        (((s1.step (call order')).lensOf spline C.lens).distortedFromImage ⟨.fin (s.rd (.p C.proj .cx) + t), .fin (s.rd (.p C.proj .cy))⟩).Is ⟨x', y⟩ := by
  intro s1 call
  have hr1 : Reach s1 := .step hr hok
  set p := C.proj with hpdef
  set l1 := C.lens with hl1
  have hC1 : s1.cams c = some C := by
    have : s1.cams = (s.newCam c' C.proj o l).cams := rfl
    rw [this, newCam_eq]
    simp only [camTail, Function.update_apply, if_neg hne.symm, setProjection_cams, hC]
  have hL1 : s1.lenses l1 = some L := by
    have : s1.lenses l1 = (s.setProjection l p).lenses l1 := rfl
    rw [this, setProjection_eq hL' hk', runLens_lenses_ne _ hl.symm, preBind_lenses, Function.update_apply, if_neg hl.symm, hL]
  have hcb : ∀ g ∈ PField.lens, (s1.par (.p p g)).callback = some (.lens l) := by
    intro g hg
    have : s1.par (.p p g) = (s.setProjection l p).par (.p p g) := rfl
    rw [this, setProjection_eq hL' hk', runLens_par, preBind_par hk', if_pos (Or.inr ⟨g, hg, rfl⟩)]
  have hcx := hcb .fx (by simp [PField.lens])
  have hcy := hcb .fy (by simp [PField.lens])
  have hrd : ∀ q, (∀ c'' g, q ≠ .c c'' g) → s1.rd q = s.rd q := by
    intro q hq
    have e2 : s1.par q = (s.setProjection l p).par q := by
      cases q with
      | c c'' g => exact absurd rfl (hq c'' g)
      | _ => rfl
    have hf := setProjection_fields s l p q
    unfold St.rd
    rw [e2]
    unfold Param.read
    rw [hf.1, hf.2.1]
  have hbr : L.kind ≠ .none := by rw [hk]; simp
  have hd := hr1.dicts
  have lk : ∀ g : LField, (s1.dict (.cam c)).lookup (g.name L.kind) = some (.l l1 g) := fun g => cam_lookup_l hd hC1 hL1 hbr g
  have k1 := lk .k1
  have k2 := lk .k2
  have k3 := lk .k3
  rw [hk] at k1 k2 k3
  have kf := cam_lookup_p hd hC1 .f
  have cbl : ∀ g : LField, (s1.par (.l l1 g)).callback = some (.lens l1) := hr1.struct.lcb l1 (by rw [hL1]; simp)
  have cbf : (s1.par (.p p .f)).callback = some (.focal p) := hr1.struct.pf p (by
    obtain ⟨P, -, -, hP, -⟩ := hd.cam c C hC1
    rw [hP]; simp)
  simp only [LField.name, PField.name] at k1 k2 k3 kf
  have hcbs : s1.fitCallbacks (s1.dict (.cam c)) [("k1", a), ("k2", 0), ("k3", 0), ("focallength_px", f)] = [.lens l1, .lens l1, .lens l1, .focal p] := by
    simp only [St.fitCallbacks, List.filterMap_cons, List.filterMap_nil, k1, k2, k3, kf, Option.bind_some, cbl, cbf, ← hpdef]
  have ok1 : s1.ok (call [.lens l1, .focal p]) := by
    show IsOrder _ _
    rw [hcbs]
    exact ⟨by simp, by simp⟩
  have ok2 : s1.ok (call [.focal p, .lens l1]) := by
    show IsOrder _ _
    rw [hcbs]
    exact ⟨by simp, by intro cb; simp; tauto⟩
  set s2 := s1.fitLoop (s1.dict (.cam c)) [("k1", a), ("k2", 0), ("k3", 0), ("focallength_px", f)] with hs2
  have hs2' : s2 = (((s1.mod (.l l1 .k1) fun x => { x with value := some a, state := .fit, boxed := false }).mod (.l l1 .k2)
      fun x => { x with value := some 0, state := .fit, boxed := false }).mod (.l l1 .k3) fun x => { x with value := some 0, state := .fit, boxed := false }).mod (.p p .f)
      fun x => { x with value := some f, state := .fit, boxed := false } := by
    rw [hs2]
    simp only [St.fitLoop, k1, k2, k3, kf, ← hpdef]
  have L2 : s2.lenses l1 = some L := by rw [hs2']; exact hL1
  have par2 : ∀ g : PField, g ≠ .f → s2.par (.p p g) = s1.par (.p p g) := by
    intro g hg
    rw [hs2']
    simp only [mod_par, Pid.p.injEq, true_and, hg, reduceCtorEq, if_false]
  have f2 : (s2.par (.p p .f)).value = some f := by
    rw [hs2']
    simp only [mod_par, if_true]
  have v1 : (s2.par (.l l1 .k1)).value = some a := by
    rw [hs2']; simp only [mod_par, if_true, reduceCtorEq, if_false, Pid.l.injEq, and_false]
  have v2 : (s2.par (.l l1 .k2)).value = some 0 := by
    rw [hs2']; simp only [mod_par, if_true, reduceCtorEq, if_false, Pid.l.injEq, and_false]
  have v3 : (s2.par (.l l1 .k3)).value = some 0 := by
    rw [hs2']; simp only [mod_par, if_true, reduceCtorEq, if_false, Pid.l.injEq, and_false]
  have cx2 : (s2.par (.p p .fx)).callback = some (.lens l) := by rw [par2 _ (by simp)]; exact hcx
  have cy2 : (s2.par (.p p .fy)).callback = some (.lens l) := by rw [par2 _ (by simp)]; exact hcy
  -- the effect of the callback of the focal length on a state with these parameters
  have foc : ∀ z : St, z.par = s2.par → (z.run (.focal p)).lenses l1 = z.lenses l1 ∧ ∀ q, (z.run (.focal p)).par q =
      if q = .p p .fx ∨ q = .p p .fy then { s2.par q with value := some f, boxed := (s2.par (.p p .f)).boxed } else s2.par q := by
    intro z hz
    have c1 : (z.par (.p p .fx)).callback = some (.lens l) := by rw [hz]; exact cx2
    have p1 := copyF_par' z c1
    have c2 : ((z.copyF p .fx).par (.p p .fy)).callback = some (.lens l) := by rw [p1, if_neg (by simp), hz]; exact cy2
    refine ⟨?_, fun q => ?_⟩
    · simp only [St.run]
      rw [copyF_lenses_ne _ c2 hl.symm, copyF_lenses_ne _ c1 hl.symm]
    · simp only [St.run]
      rw [copyF_par' _ c2]
      simp only [p1, hz, reduceCtorEq, if_false, Pid.p.injEq, and_false, f2]
      by_cases e : q = .p p .fy
      · rw [if_pos e, if_pos (Or.inr e), if_neg (by rw [e]; simp)]
      · by_cases e' : q = .p p .fx
        · rw [if_neg e, if_pos e', if_pos (Or.inl e')]
        · rw [if_neg e, if_neg e', if_neg (by tauto)]
  have st1 : s1.step (call [.lens l1, .focal p]) = (s2.runLens l1).run (.focal p) := rfl
  have st2 : s1.step (call [.focal p, .lens l1]) = (s2.run (.focal p)).runLens l1 := rfl
  obtain ⟨la, pa⟩ := foc (s2.runLens l1) (runLens_par s2 l1)
  obtain ⟨lb, pb⟩ := foc s2 rfl
  have ea := la.trans (runLens_lenses_eq s2 L2)
  have eb := runLens_lenses_eq (s2.run (.focal p)) (lb.trans L2)
  have rv : ∀ (z : St) (q : Pid) (x : ℝ), (z.par q).value = some x → z.rd q = x := by
    intro z q x h; unfold St.rd Param.read; rw [h]; rfl
  have ka : ∀ (z : St), (∀ q, z.par q = if q = .p p .fx ∨ q = .p p .fy then { s2.par q with value := some f, boxed := (s2.par (.p p .f)).boxed } else s2.par q) →
      z.rd (.l l1 .k1) = a ∧ z.rd (.l l1 .k2) = 0 ∧ z.rd (.l l1 .k3) = 0 := by
    intro z hz
    refine ⟨rv _ _ _ ?_, rv _ _ _ ?_, rv _ _ _ ?_⟩ <;> rw [hz, if_neg (by simp)] <;> assumption
  have rd2 : ∀ g : PField, g ≠ .f → s2.rd (.p p g) = s.rd (.p p g) := by
    intro g hg
    rw [← hrd _ (by simp)]
    unfold St.rd
    rw [par2 g hg]
  refine ⟨[.lens l1, .focal p], [.focal p, .lens l1], ok1, ok2, .step hr1.twins (.setFit _ _ _ _) ok1 ok2, fun t ht => ?_⟩
  obtain ⟨a1, a2, a3⟩ := ka _ pa
  obtain ⟨b1, b2, b3⟩ := ka ((s2.run (.focal p)).runLens l1) (fun q => by rw [runLens_par]; exact pb q)
  rw [st1, st2]
  set g := s.rd (.p p .fx) with hg
  have S1 : s2.snapOf l1 L.kind L.proj L.snap = ⟨⟨a, 0, 0⟩, ⟨g, s.rd (.p p .fy)⟩, ⟨s.rd (.p p .cx), s.rd (.p p .cy)⟩⟩ := by
    simp only [St.snapOf, hk, hp, rv _ _ _ v1, rv _ _ _ v2, rv _ _ _ v3, rd2 .fx (by simp), rd2 .fy (by simp), rd2 .cx (by simp), rd2 .cy (by simp), hg]
  have S2 : (s2.run (.focal p)).snapOf l1 L.kind L.proj L.snap = ⟨⟨a, 0, 0⟩, ⟨f, f⟩, ⟨s.rd (.p p .cx), s.rd (.p p .cy)⟩⟩ := by
    obtain ⟨d1, d2, d3⟩ := ka _ pb
    have e1 : (s2.run (.focal p)).rd (.p p .fx) = f := rv _ _ _ (by rw [pb, if_pos (Or.inl rfl)])
    have e2 : (s2.run (.focal p)).rd (.p p .fy) = f := rv _ _ _ (by rw [pb, if_pos (Or.inr rfl)])
    have e3 : (s2.run (.focal p)).rd (.p p .cx) = s.rd (.p p .cx) := by rw [← rd2 .cx (by simp)]; unfold St.rd; rw [pb, if_neg (by simp)]
    have e4 : (s2.run (.focal p)).rd (.p p .cy) = s.rd (.p p .cy) := by rw [← rd2 .cy (by simp)]; unfold St.rd; rw [pb, if_neg (by simp)]
    simp only [St.snapOf, hk, hp, d1, d2, d3, e1, e2, e3, e4]
  rw [S1] at ea
  rw [S2] at eb
  refine ⟨s.rd (.p p .cx) + t * (1 + a * (t / g) ^ 2), s.rd (.p p .cx) + t * (1 + a * (t / f) ^ 2), s.rd (.p p .cy), ?_, ?_, ?_⟩
  · intro e
    have h1 : a * (t / g) ^ 2 = a * (t / f) ^ 2 := by
      have := mul_left_cancel₀ ht (add_left_cancel e)
      linarith
    have h2 := mul_left_cancel₀ ha h1
    rw [div_pow, div_pow, div_eq_div_iff (pow_ne_zero 2 hx.ne') (pow_ne_zero 2 hf.ne')] at h2
    have h3 := mul_left_cancel₀ (pow_ne_zero 2 ht) h2
    exact hfx (by nlinarith [sq_nonneg (f - g), mul_pos hf hx, (mul_self_eq_mul_self_iff.mp (by nlinarith : f * f = g * g)).resolve_right (by linarith)])
  · have := brown_axis ⟨⟨g, s.rd (.p p .fy)⟩, ⟨s.rd (.p p .cx), s.rd (.p p .cy)⟩, brownRadius a 0 0, invertFunction spline knots (brownRadius a 0 0)⟩ rfl hx hy ht
    simp only [St.lensOf, ea, hk, a1, a2, a3]
    exact this
  · have := brown_axis ⟨⟨f, f⟩, ⟨s.rd (.p p .cx), s.rd (.p p .cy)⟩, brownRadius a 0 0, invertFunction spline knots (brownRadius a 0 0)⟩ rfl hf hf ht
    simp only [St.lensOf, eb, hk, b1, b2, b3]
    exact this

example : ∃ (s : St) (C : CObj) (L L' : LObj), Reach s ∧ s.cams 0 = some C ∧ (1 : ℕ) ≠ C.lens ∧ s.lenses C.lens = some L ∧ L.kind = .brown ∧ L.proj = some C.proj ∧
    s.lenses 1 = some L' ∧ L'.kind ≠ .none ∧ s.ok (.newCam 1 C.proj 0 1) ∧ 0 < s.rd (.p C.proj .fx) ∧ 0 < s.rd (.p C.proj .fy) ∧ (50 : ℝ) ≠ s.rd (.p C.proj .fx) := by
  obtain ⟨C, hC, hp, ho, hl⟩ := Ex.s4_cams
  obtain ⟨L, hL, hk, hLp⟩ := Ex.s4_lens
  obtain ⟨O, hO, -⟩ := Ex.s4_orients
  obtain ⟨O', h3, -⟩ := Ex.keep46.orients 0 O hO
  obtain ⟨L1, h4, h5⟩ := Ex.s6_lens1
  have e0 : Ex.s6.lenses 0 = some L := by
    have : Ex.s6.lenses 0 = ((preLens Ex.s5 1 .brown fun _ => none).runLens 1).lenses 0 := rfl
    rw [this, runLens_lenses_ne _ (by simp)]
    exact hL
  have ey : Ex.s6.rd (.p 0 .fy) = 120 := by
    have e : Ex.s6.par (.p 0 .fy) = Ex.s4.par (.p 0 .fy) := by
      simp only [Ex.s6, St.step, newLens_eq, runLens_par]
      simp [preLens, Ex.s5, St.step, St.newProj]
    have e2 : (Ex.s4.par (.p 0 .fy)).value = some 120 := by
      have h := (setProjection_fields Ex.s3 0 0 (.p 0 .fy)).1
      have : Ex.s4.par (.p 0 .fy) = (Ex.s3.setProjection 0 0).par (.p 0 .fy) := rfl
      rw [this, h]
      simp only [Ex.s3, St.step, newLens_eq, runLens_par]
      simp [preLens, Ex.s2, St.step, St.newProj, Ex.args, newParam]
    unfold St.rd; rw [e]; unfold Param.read; rw [e2]; rfl
  refine ⟨_, C, L, L1, Ex.reachX6.reach, by rw [Ex.s6_cams]; exact hC, by rw [hl]; simp, by rw [hl]; exact e0, hk, by rw [hp]; exact hLp, h4,
    by rw [h5]; simp, ⟨?_, ?_, ?_⟩, ?_, ?_, ?_⟩
  · rw [hp, Ex.keep46.projs 0 _ Ex.s4_projs]; simp
  · rw [h3]; simp
  · rw [h4]; simp
  · rw [hp, Ex.s6_fx0]; norm_num
  · rw [hp, ey]; norm_num
  · rw [hp, Ex.s6_fx0]; norm_num
