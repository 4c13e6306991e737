import Verif.Proofs.SystemLookup

/-! What a single operation does to the parameters. -/

set_option linter.constructorNameAsVariable false

open Classical

namespace Sys

theorem run_one_par {s : St} (hpcb : ∀ p g o, (s.par (.p p g)).callback ≠ some (.matrix o)) {cb : Option Cb} (q : Pid) :
    (s.runOpt cb).par q = after s (fun c => cb = some c) q := by
  cases cb with
  | none =>
    cases q with
    | o o f => cases f <;> simp [St.runOpt, after]
    | p p f => cases f <;> simp [St.runOpt, after]
    | _ => rfl
  | some cb =>
    rw [show s.runOpt (some cb) = s.run cb from rfl, run_par hpcb]
    have : (fun c => some cb = some c) = (· = cb) := by
      funext c; apply propext; constructor
      · intro h; injection h with h; exact h.symm
      · intro h; rw [h]
    rw [this]

/-- An assignment. -/
theorem set_par {s : St} (hs : Struct s) {v : View} {n : String} {q0 : Pid} (hl : (s.dict v).lookup n = some q0) (x : Option ℝ) (b : Bool) (q : Pid) :
    (s.step (.set v n x b)).par q =
      after (s.mod q0 fun y => { y with mean := none, value := x, state := .userSet, boxed := b }) (fun c => (s.par q0).callback = some c) q := by
  simp only [St.step, hl, St.assign]
  rw [run_one_par]
  · simp
  · intro p g o; rw [mod_par]; split_ifs with e
    · exact fun hh => hs.pcb p g o (by rw [e]; exact hh)
    · exact hs.pcb p g o

/-- An assignment of a tuple. -/
theorem setStats_par {s : St} (hs : Struct s) {v : View} {n : String} {q0 : Pid} (hl : (s.dict v).lookup n = some q0) (m σ : ℝ) (q : Pid) :
    (s.step (.setStats v n m σ)).par q =
      after (s.mod q0 fun y => { y with mean := some m, value := some m, std := σ, state := .userSet, boxed := false })
        (fun c => (s.par q0).callback = some c) q := by
  simp only [St.step, hl, St.assignStats]
  rw [run_one_par]
  · simp
  · intro p g o; rw [mod_par]; split_ifs with e
    · exact fun hh => hs.pcb p g o (by rw [e]; exact hh)
    · exact hs.pcb p g o

/-- An assignment of a default. -/
theorem setDefault_par {s : St} (hs : Struct s) {v : View} {n : String} {q0 : Pid} (hl : (s.dict v).lookup n = some q0) (x : ℝ) (q : Pid) :
    (s.step (.setDefault v n x)).par q =
      after (s.mod q0 fun y => { y with default := some x }) (fun c => (s.par q0).value = none ∧ (s.par q0).callback = some c) q := by
  simp only [St.step, hl, St.assignDefault, mod_par, if_true]
  have hpcb : ∀ p g o, ((s.mod q0 fun y => { y with default := some x }).par (.p p g)).callback ≠ some (.matrix o) := by
    intro p g o; rw [mod_par]; split_ifs with e
    · exact fun hh => hs.pcb p g o (by rw [e]; exact hh)
    · exact hs.pcb p g o
  split_ifs with hv
  · rw [run_one_par hpcb]
    simp [hv]
  · simp only [hv, false_and]
    cases q with
    | o o f => cases f <;> simp [after]
    | p p f => cases f <;> simp [after]
    | _ => rfl

/-- Which callbacks run in sample and set_to_mean. -/
theorem order_mem {s : St} {v : View} {order : List Cb} (hord : IsOrder order (s.allCallbacks (s.dict v))) (cb : Cb) :
    cb ∈ order ↔ ∃ q, InDict (s.dict v) q ∧ (s.par q).callback = some cb := by
  rw [hord.2, St.allCallbacks, List.mem_filterMap]
  constructor
  · rintro ⟨kv, hkv, hb⟩; exact ⟨kv.2, ⟨kv.1, hkv⟩, hb⟩
  · rintro ⟨q, ⟨n, hn⟩, hb⟩; exact ⟨(n, q), hn, hb⟩

/-- sample. -/
theorem sample_par {s : St} (hs : Struct s) {v : View} {draw : Pid → ℝ} {order : List Cb} (hok : s.ok (.sample v draw order)) (q : Pid) :
    (s.step (.sample v draw order)).par q = after (s.sampleLoop draw (s.dict v)) (· ∈ order) q := by
  have hU := Upd.sampleLoop (S := fun _ => True) (draw := draw) (s.dict v) s fun _ _ => trivial
  simp only [St.step]
  refine runAll_par order (fun p g o => by rw [hU.cb]; exact hs.pcb p g o) (fun p hp => hU.fval p ?_) q
  obtain ⟨q, -, hq⟩ := (order_mem hok.2 _).1 hp
  exact (hs.focal q p hq).2

/-- set_to_mean. -/
theorem toMean_par {s : St} (hs : Struct s) {v : View} {order : List Cb} (hok : s.ok (.toMean v order)) (q : Pid) :
    (s.step (.toMean v order)).par q = after (s.meanLoop (s.dict v)) (· ∈ order) q := by
  have hU := Upd.meanLoop (S := fun _ => True) (s.dict v) s fun _ _ => trivial
  simp only [St.step]
  refine runAll_par order (fun p g o => by rw [hU.cb]; exact hs.pcb p g o) (fun p hp => hU.fval p ?_) q
  obtain ⟨q, -, hq⟩ := (order_mem hok.2 _).1 hp
  exact (hs.focal q p hq).2

/-- Which callbacks run in set_fit_parameters. -/
theorem fitOrder_mem {s : St} {v : View} {vals : List (String × ℝ)} {order : List Cb} (hok : s.ok (.setFit v vals order)) (cb : Cb) :
    cb ∈ order ↔ ∃ q, lastOf (s.dict v) vals q ≠ none ∧ (s.par q).callback = some cb := by
  rw [hok.2, St.fitCallbacks, List.mem_filterMap]
  constructor
  · rintro ⟨nv, hnv, hb⟩
    cases hq : (s.dict v).lookup nv.1 with
    | none => rw [hq] at hb; cases hb
    | some q => rw [hq] at hb; exact ⟨q, lastOf_some.2 ⟨nv, hnv, hq⟩, hb⟩
  · rintro ⟨q, hq, hb⟩
    obtain ⟨nv, hnv, hl⟩ := lastOf_some.1 hq
    exact ⟨nv, hnv, by rw [hl]; exact hb⟩

/-- set_fit_parameters. -/
theorem setFit_par {s : St} (hs : Struct s) {v : View} {vals : List (String × ℝ)} {order : List Cb} (hok : s.ok (.setFit v vals order)) (q : Pid) :
    (s.step (.setFit v vals order)).par q = after (s.fitLoop (s.dict v) vals) (· ∈ order) q := by
  have hU : Upd (fun _ => True) s (s.fitLoop (s.dict v) vals) := Upd.fitLoop vals s fun _ _ _ _ => trivial
  simp only [St.step, St.setFit]
  refine runAll_par order (fun p g o => by rw [hU.cb]; exact hs.pcb p g o) (fun p hp => hU.fval p ?_) q
  obtain ⟨q, -, hq⟩ := (fitOrder_mem hok _).1 hp
  exact (hs.focal q p hq).2

theorem Dicts.lookup_created {s : St} (hd : Dicts s) {v : View} {n : String} {q : Pid} (hl : (s.dict v).lookup n = some q) : Created s q :=
  hd.created (kv := (n, q)) (lookup_mem hl)

theorem orient_lookup {s : St} {o : ℕ} {O : OObj} (h : s.orients o = some O) (f : OField) :
    (s.dict (.orient o)).lookup (f.name O.kind) = some (.o o f) := by
  simp only [St.dict, h]; exact orientDict_lookup _ _ _

theorem proj_lookup {s : St} {p : ℕ} {P : PObj} (h : s.projs p = some P) (f : PField) :
    (s.dict (.proj p)).lookup f.name = some (.p p f) := by
  simp only [St.dict, h]; exact projDict_lookup _ _

theorem cam_lookup_p {s : St} (hd : Dicts s) {c : ℕ} {C : CObj} (h : s.cams c = some C) (f : PField) :
    (s.dict (.cam c)).lookup f.name = some (.p C.proj f) := by
  obtain ⟨P, O, L, -, -, -, e, -⟩ := hd.cam c C h
  simp only [St.dict, h, e]; exact camDict_lookup_p _ _ _ _ _ _ _

theorem cam_lookup_o {s : St} (hd : Dicts s) {c : ℕ} {C : CObj} (h : s.cams c = some C) {O : OObj} (hO : s.orients C.orient = some O) (f : OField) :
    (s.dict (.cam c)).lookup (f.name O.kind) = some (.o C.orient f) := by
  obtain ⟨P, O', L, -, h2, -, e, -⟩ := hd.cam c C h
  rw [hO] at h2; cases h2
  simp only [St.dict, h, e]; exact camDict_lookup_o _ _ _ _ _ _ _

theorem cam_lookup_l {s : St} (hd : Dicts s) {c : ℕ} {C : CObj} (h : s.cams c = some C) {L : LObj} (hL : s.lenses C.lens = some L)
    (hk : L.kind ≠ .none) (f : LField) : (s.dict (.cam c)).lookup (f.name L.kind) = some (.l C.lens f) := by
  obtain ⟨P, O', L', -, -, h2, e, -⟩ := hd.cam c C h
  rw [hL] at h2; cases h2
  simp only [St.dict, h, e]; exact camDict_lookup_l _ hk _ _ _ _ _

/-- The matrices of an orientation, for the current values. -/
theorem orient_mat {s : St} {o : ℕ} {O : OObj} (hf : FreshO s o) (h : s.orients o = some O) : O.mat = s.matOf O.kind o := (hf O h).1

end Sys
