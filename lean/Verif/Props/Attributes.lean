import Verif.Spec.Attributes
import Verif.Props.SystemCache

/-! # The public attributes of a camera (C124) -/

set_option linter.constructorNameAsVariable false

open Classical Sys

theorem Sys.lookup_isSome {d : Dict} {n : String} : (d.lookup n).isSome ↔ n ∈ d.map Prod.fst := by
  induction d with
  | nil => simp
  | cons kv d ih =>
    obtain ⟨k, v⟩ := kv
    by_cases h : n = k
    · subst h; simp [List.lookup]
    · have : (n == k) = false := by simp [h]
      simp [List.lookup, this, h, ih]

/-- **C124** The numbers that can be read from a camera are those of its projection, its orientation, its lens, and the two
GPS coordinates. -/
theorem C124_names {s : St} (hr : Reach s) {c : ℕ} {C : CObj} (hC : s.cams c = some C) {O : OObj} (hO : s.orients C.orient = some O)
    {L : LObj} (hL : s.lenses C.lens = some L) (n : String) :
    (∃ x, s.getattr (.cam c) n = some (some x)) ↔
      n ∈ projNames ∨ n ∈ orientNames O.kind ∨ n ∈ lensNames L.kind ∨ n = "gps_lat" ∨ n = "gps_lon" := by
  obtain ⟨P, O', L', -, hO', hL', e, -⟩ := hr.dicts.cam c C hC
  rw [hO] at hO'; cases hO'
  rw [hL] at hL'; cases hL'
  have h1 : (∃ x, s.getattr (.cam c) n = some (some x)) ↔ ((camDict O.kind L.kind c C.proj C.orient C.lens).lookup n).isSome := by
    rw [getattr_eq (plain_cam _ _)]
    simp only [St.dict, hC, e]
    rw [Option.isSome_iff_exists]
    constructor
    · rintro ⟨x, h⟩
      obtain ⟨q, h, -⟩ := Option.map_eq_some_iff.1 h
      exact ⟨q, h⟩
    · rintro ⟨q, h⟩
      exact ⟨_, by rw [h, Option.map_some, read_rd hr]⟩
  rw [h1, lookup_isSome]
  generalize O.kind = ko
  generalize L.kind = kl
  cases ko <;> cases kl <;>
    simp only [camDict, projDict, PField.all, PField.name, CField.all, CField.name, orientDict, OField.all, OField.name, lensDict, LField.all,
      LField.name, projNames, orientNames, lensNames, List.map_cons, List.map_nil, List.mem_append, List.mem_cons,
      List.not_mem_nil, or_false, List.cons_append, List.nil_append, false_or] <;>
    constructor <;> intro h <;> (repeat' (rcases h with h | h)) <;> simp

/-- **C124** The camera is determined by its public attributes: whatever happened before, the current camera is the one
with the numbers that are read from it. -/
theorem C124_camera (spline : LensModel.Spline) {s : St} (hr : Reach s) {c : ℕ} {C : CObj} (hC : s.cams c = some C)
    {P : PObj} (hP : s.projs C.proj = some P) {O : OObj} (hO : s.orients C.orient = some O) {L : LObj} (hL : s.lenses C.lens = some L)
    {a : String → ℝ} (ha : ∀ n x, s.getattr (.cam c) n = some (some x) → a n = x) :
    s.camNow spline c = some (attributeCamera spline P.kind O.kind L.kind a) := by
  have hp : ∀ f : PField, a f.name = s.rd (.p C.proj f) := fun f => ha _ _ (by
    rw [getattr_eq (plain_cam _ _), cam_lookup_p hr.dicts hC, Option.map_some, read_rd hr])
  have ho : ∀ f : OField, a (f.name O.kind) = s.rd (.o C.orient f) := fun f => ha _ _ (by
    rw [getattr_eq (plain_cam _ _), cam_lookup_o hr.dicts hC hO, Option.map_some, read_rd hr])
  have hl : ∀ f : LField, L.kind ≠ .none → a (f.name L.kind) = s.rd (.l C.lens f) := fun f h => ha _ _ (by
    rw [getattr_eq (plain_cam _ _), cam_lookup_l hr.dicts hC hL h, Option.map_some, read_rd hr])
  have e1 := hp .fx
  have e2 := hp .fy
  have e3 := hp .cx
  have e4 := hp .cy
  have e5 := hp .iw
  have e6 := hp .ih
  have o1 := ho .elev
  have o2 := ho .ang
  have o3 := ho .roll
  have o4 := ho .turn
  have o5 := ho .posX
  have o6 := ho .posY
  have l1 := hl .k1
  have l2 := hl .k2
  have l3 := hl .k3
  simp only [St.camNow, hC, hP, hO, hL, attributeCamera]
  simp only [PField.name] at e1 e2 e3 e4 e5 e6
  rw [e1, e2, e3, e4, e5, e6]
  congr 2
  · cases hk : O.kind <;> rw [hk] at o1 o2 o3 o4 o5 o6 <;> simp only [OField.name] at o1 o2 o3 o4 o5 o6 <;>
      simp only [orientOf, o1, o2, o3, o4, o5, o6]
  · cases hk : L.kind <;> rw [hk] at l1 l2 l3
    · simp only [LField.name, ne_eq, reduceCtorEq, not_false_eq_true, true_implies] at l1 l2 l3
      simp only [l1, l2, l3]
    · simp only [LField.name, ne_eq, reduceCtorEq, not_false_eq_true, true_implies] at l1 l2 l3
      simp only [l1, l2, l3]

example : ∃ (s : St) (C : CObj) (P : PObj) (O : OObj) (L : LObj), Reach s ∧ s.cams 0 = some C ∧ s.projs C.proj = some P ∧
    s.orients C.orient = some O ∧ s.lenses C.lens = some L := by
  obtain ⟨C, hC, -⟩ := Ex.s4_cams
  obtain ⟨P, O, L, h1, h2, h3, -⟩ := Ex.run4.reach.dicts.cam 0 C hC
  exact ⟨_, C, P, O, L, Ex.run4.reach, hC, h1, h2, h3⟩

/-- **C52** The calls without optional arguments: points behind the camera are hidden and rays have no norm. -/
theorem C52_defaults_partial (spline : LensModel.Spline) {s : St} (hr : ReachX s) {c : ℕ} {C : CObj} (hC : s.cams c = some C)
    (hp : Plain s (.proj C.proj)) :
    ∃ cam, s.camNow spline c = some cam ∧ (∀ pt, s.imageFromSpace spline c pt = some (Camera.imageFromSpace cam pt true)) ∧
      ∀ pt, s.getRay spline c pt = some (Camera.getRay cam pt false) := by
  obtain ⟨cam, h1, h2, h3⟩ := C52_up_to_date_partial spline hr hC hp
  exact ⟨cam, h1, fun pt => h2 pt true, fun pt => h3 pt false⟩

example : ∃ (s : St) (C : CObj), ReachX s ∧ s.cams 0 = some C ∧ Plain s (.proj C.proj) := by
  obtain ⟨C, hC, hp, -, -⟩ := Ex.s4_cams
  refine ⟨Ex.s4, C, Ex.reachX4, hC, fun p P e hP => ?_⟩
  cases e; rw [hp, Ex.s4_projs] at hP; cases hP; rfl
