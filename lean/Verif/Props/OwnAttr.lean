import Verif.Props.Persist
import Verif.Props.Attributes
import Verif.Model.OwnAttr

/-! # C155: ordinary attributes and the parameters of a loaded camera -/

set_option linter.constructorNameAsVariable false

namespace OwnAttr

open Classical Sys Persist

theorem setattr_sys (s : St) (c : ℕ) (n : String) (x : ℝ) : (s.setattr c n x).sys = s.sys.step (.set (.cam c) n (some x) false) := by
  unfold St.setattr
  simp only [Sys.St.step]
  cases (s.sys.dict (.cam c)).lookup n <;> rfl

/-- Assignments to a list of names, as far as the parameters are concerned. -/
theorem assigns_sys (c : ℕ) : ∀ (vals : List (String × ℝ)) (s : St),
    (vals.foldl (fun s nx => s.setattr c nx.1 nx.2) s).sys = assignAll s.sys (.cam c) vals := by
  intro vals
  induction vals with
  | nil => intro s; rfl
  | cons nx vals ih =>
    intro s
    simp only [List.foldl_cons]
    rw [ih, setattr_sys]
    rfl

theorem setattr_own {s : St} {c : ℕ} {n : String} {x : ℝ} :
    (s.setattr c n x).own = if ((s.sys.dict (.cam c)).lookup n).isSome then s.own
      else Function.update s.own c (Function.update (s.own c) n (some x)) := by
  unfold St.setattr
  cases (s.sys.dict (.cam c)).lookup n <;> simp

theorem setattr_reach {s : St} (h : Reach s.sys) (c : ℕ) (n : String) (x : ℝ) :
    Reach (s.setattr c n x).sys ∧ (s.setattr c n x).sys.dict = s.sys.dict := by
  have hok : s.sys.ok (.set (.cam c) n (some x) false) := Or.inl (by simp)
  have hp : Pres s.sys (s.sys.step (.set (.cam c) n (some x) false)) := step_pres h.struct hok trivial
  rw [setattr_sys]
  exact ⟨.step h hok, funext hp.dict⟩

theorem assigns_dict (c : ℕ) : ∀ (vals : List (String × ℝ)) (s : St), Reach s.sys →
    (vals.foldl (fun s nx => s.setattr c nx.1 nx.2) s).sys.dict = s.sys.dict := by
  intro vals
  induction vals with
  | nil => intro s _; rfl
  | cons nx vals ih =>
    intro s hs
    obtain ⟨h1, h2⟩ := setattr_reach hs c nx.1 nx.2
    rw [List.foldl_cons, ih _ h1, h2]

/-- Assignments leave the ordinary attributes with the names of parameters, and those of other cameras. -/
theorem assigns_own (c : ℕ) : ∀ (vals : List (String × ℝ)) (s : St), Reach s.sys → ∀ c' n,
    (c' ≠ c ∨ ((s.sys.dict (.cam c)).lookup n).isSome ∨ (∀ nx ∈ vals, nx.1 ≠ n)) →
    (vals.foldl (fun s nx => s.setattr c nx.1 nx.2) s).own c' n = s.own c' n := by
  intro vals
  induction vals with
  | nil => intro s _ _ _ _; rfl
  | cons nx vals ih =>
    intro s hs c' n hn
    simp only [List.foldl_cons]
    obtain ⟨h1, h2⟩ := setattr_reach hs c nx.1 nx.2
    rw [ih _ h1 c' n (by rw [h2]; exact hn.imp_right (Or.imp_right fun h y hy => h y (by simp [hy]))), setattr_own]
    split_ifs with hl
    · rfl
    · rcases hn with h | h | h
      · simp [Function.update, h]
      · by_cases hne : n = nx.1
        · rw [hne] at h; exact absurd h hl
        · by_cases hc : c' = c <;> simp [Function.update, hne, hc]
      · have hne := (h nx (by simp)).symm
        by_cases hc : c' = c <;> simp [Function.update, hne, hc]

/-- The other names become ordinary attributes. -/
theorem assigns_new (c : ℕ) {n : String} {y : ℝ} : ∀ (vals : List (String × ℝ)) (s : St), Reach s.sys → (s.sys.dict (.cam c)).lookup n = none →
    (n, y) ∈ vals → (∀ nx ∈ vals, nx.1 = n → nx.2 = y) → (vals.foldl (fun s nx => s.setattr c nx.1 nx.2) s).own c n = some y := by
  intro vals
  induction vals with
  | nil => intro s _ _ h; simp at h
  | cons nx vals ih =>
    intro s hs hl hm hu
    simp only [List.foldl_cons]
    obtain ⟨h1, h2⟩ := setattr_reach hs c nx.1 nx.2
    by_cases hm' : (n, y) ∈ vals
    · exact ih _ h1 (by rw [h2]; exact hl) hm' fun z hz => hu z (by simp [hz])
    · obtain rfl : (n, y) = nx := by simpa [hm'] using hm
      rw [assigns_own c vals _ h1 c n (Or.inr (Or.inr fun z hz he => hm' ?_)), setattr_own, hl]
      · simp
      · have := hu z (by simp [hz]) he
        rw [← he, ← this]
        exact hz

/-- Loading a saved file. -/
theorem load_saved {t : Sys.St} {c0 : ℕ} {C : CObj} {P : PObj} {L : LObj} (hC : t.cams c0 = some C) (hP : t.projs C.proj = some P)
    (hL : t.lenses C.lens = some L) {disk disk' : Disk} {name : String} (h : Persist.save t c0 disk name = (disk', .ok ())) (s : St) (c p l o : ℕ) :
    ∃ s', s.load c p l o disk' name = .ok s' ∧ Persist.load s.sys c p l o disk' name = .ok s'.sys ∧
      s' = ((exports t (.cam c0) (some "focallength_px")).map fun kv => (kv.1, t.rd kv.2)).foldl (fun s nx => s.setattr c nx.1 nx.2)
        { s with sys := loadInit s.sys c p l o P.kind L.kind } := by
  refine ⟨_, ?_, ?_, rfl⟩
  · simp only [St.load, readJson, save_eq h, hC, hP, hL, Option.bind_some, Option.map_some, projOf_code, lensOf_code, bind, Except.bind, pure,
      Except.pure]
    rfl
  · rw [load_eq hC hP hL h, assigns_sys]

/-- What a successful `save` writes. -/
theorem save_values {s : St} {c : ℕ} {disk disk' : Disk} {name : String} (h : s.save c disk name = (disk', .ok ())) {n : String} {q : Pid}
    (hq : (n, q) ∈ s.sys.dict (.cam c)) (hn : n ≠ "focallength_px") :
    ∃ f, disk' name = some (.json f) ∧ (n, ((s.getattr c n).bind id).getD 0) ∈ f.values ∧ ∀ y, (n, y) ∈ f.values → y = ((s.getattr c n).bind id).getD 0 := by
  unfold St.save writeJson at h
  simp only at h
  split_ifs at h with h1
  · simp only [Prod.mk.injEq] at h
    rw [← h.1, Function.update_self]
    refine ⟨_, rfl, List.mem_map.2 ⟨(n, q), List.mem_filter.2 ⟨hq, by simpa using hn⟩, rfl⟩, fun y hy => ?_⟩
    obtain ⟨kv, -, hkv⟩ := List.mem_map.1 hy
    simp only [Prod.mk.injEq] at hkv
    rw [← hkv.2, hkv.1]
  · simp at h

end OwnAttr

open Classical Sys Persist

/-- **C155** After `load`, a camera on which no names of the saved parameters have been used as ordinary attributes reads, for every name but
`focallength_px`, what the saved camera read, and an assignment to one of these names is read back.  Missing: see `C155_violated`; other orientations,
see C65. -/
theorem C155_load_partial {t : Sys.St} (hr : Reach t) {c0 : ℕ} {kp : Projection.Kind} {kl : LKind} (hcls : Classes t c0 kp kl .thr) {disk disk' : Disk}
    {name : String} (hsave : Persist.save t c0 disk name = (disk', .ok ())) {s : OwnAttr.St} (hr1 : Reach s.sys) {p l o : ℕ} (hF : Fresh s.sys p l o) (c : ℕ)
    {n : String} (hn : n ≠ "focallength_px") (hown : s.own c n = none) :
    ∃ s', s.load c p l o disk' name = .ok s' ∧ s'.getattr c n = t.getattr (.cam c0) n ∧ s'.own c n = none ∧
      ∀ c' n', s'.own c' n' = s.own c' n' := by
  have hcls' := hcls
  obtain ⟨C, P, L, O, hC, hP, hL, hO, hkp, hkl, hk⟩ := hcls
  obtain ⟨s', h1, h2, h3⟩ := OwnAttr.load_saved hC hP hL hsave s c p l o
  obtain ⟨s2, g1, -, -, g2, -⟩ := C64_save_load_partial hr hcls' hsave hr1 hF c
  rw [h2, Except.ok.injEq] at g1
  obtain ⟨i1, -, -, i4, -⟩ := loadInit_spec hr1 hF (c := c) P.kind L.kind
  have hall : ∀ c' n', s'.own c' n' = s.own c' n' := by
    intro c' n'
    rw [h3]
    refine OwnAttr.assigns_own c _ { s with sys := loadInit s.sys c p l o P.kind L.kind } i1 c' n' ?_
    by_cases hs : ((loadInit s.sys c p l o P.kind L.kind).dict (.cam c)).lookup n' = none
    · refine Or.inr (Or.inr fun nx hnx he => ?_)
      obtain ⟨kv, hkv, rfl⟩ := List.mem_map.1 hnx
      have hkv' := (List.mem_filter.1 hkv).1
      rw [cam_dict hr hC hO hL, hk] at hkv'
      obtain ⟨r, r1, r2, -⟩ := Role.of_mem hkv'
      rw [i4, ← he] at hs
      simp only at hs
      rw [r2, r.lookup _ _ _ _ _ r1] at hs
      cases hs
    · exact Or.inr (Or.inl (Option.isSome_iff_ne_none.2 hs))
  have hn' : s'.own c n = none := by rw [hall, hown]
  refine ⟨s', h1, ?_, hn', hall⟩
  unfold OwnAttr.St.getattr
  rw [hn', g1]
  exact g2 n hn

/-- **C155** is violated: if a name was assigned on the camera object while it was not a parameter (e.g. `k1` before there was a lens that has it), the camera
reads that number after `load` of any file with such a parameter, and after every later assignment to it, although the images are computed with the number
of the file; the next `save` writes the stale number. -/
theorem C155_violated {t : Sys.St} (hr : Reach t) {c0 : ℕ} {kp : Projection.Kind} {kl : LKind} (hcls : Classes t c0 kp kl .thr) {disk disk' : Disk}
    {name : String} (hsave : Persist.save t c0 disk name = (disk', .ok ())) {s : OwnAttr.St} (hr1 : Reach s.sys) {p l o : ℕ} (hF : Fresh s.sys p l o) (c : ℕ)
    {n : String} (hn : n ≠ "focallength_px") {x y : ℝ} (hown : s.own c n = some x) (hy : t.getattr (.cam c0) n = some (some y)) :
    ∃ s', s.load c p l o disk' name = .ok s' ∧ s'.getattr c n = some (some x) ∧ (∀ spline, s'.sys.camNow spline c = t.camNow spline c0) ∧
      (∀ z, (s'.setattr c n z).getattr c n = some (some x) ∧ (s'.setattr c n z).sys = s'.sys.step (.set (.cam c) n (some z) false)) ∧
      ∀ disk1 name1 disk2, s'.save c disk1 name1 = (disk2, .ok ()) → ∃ f, disk2 name1 = some (.json f) ∧ (n, x) ∈ f.values ∧ ∀ z, (n, z) ∈ f.values → z = x := by
  have hcls' := hcls
  obtain ⟨C, P, L, O, hC, hP, hL, hO, hkp, hkl, hk⟩ := hcls
  obtain ⟨s', h1, h2, h3⟩ := OwnAttr.load_saved hC hP hL hsave s c p l o
  obtain ⟨s2, g1, g0, -, g2, g3, -⟩ := C64_save_load_partial hr hcls' hsave hr1 hF c
  rw [h2, Except.ok.injEq] at g1
  subst g1
  obtain ⟨i1, -, -, -⟩ := loadInit_spec hr1 hF (c := c) P.kind L.kind
  have hread : s'.sys.getattr (.cam c) n = some (some y) := by rw [g2 n hn, hy]
  obtain ⟨q, hq⟩ : ∃ q, (s'.sys.dict (.cam c)).lookup n = some q := by
    rw [getattr_eq (plain_cam _ _)] at hread
    obtain ⟨q, hq, -⟩ := Option.map_eq_some_iff.1 hread
    exact ⟨q, hq⟩
  have hdict : s'.sys.dict (.cam c) = (loadInit s.sys c p l o P.kind L.kind).dict (.cam c) := by
    rw [h3]
    exact congrFun (OwnAttr.assigns_dict c _ { s with sys := loadInit s.sys c p l o P.kind L.kind } i1) _
  have hown' : s'.own c n = some x := by
    rw [h3, OwnAttr.assigns_own c _ { s with sys := loadInit s.sys c p l o P.kind L.kind } i1 c n (Or.inr (Or.inl ?_))]
    · exact hown
    · rw [← hdict, hq]; rfl
  have hg : s'.getattr c n = some (some x) := by
    unfold OwnAttr.St.getattr
    rw [hown']
  refine ⟨s', h1, hg, g3, fun z => ⟨?_, OwnAttr.setattr_sys _ _ _ _⟩, fun disk1 name1 disk2 hs => ?_⟩
  · unfold OwnAttr.St.getattr
    rw [OwnAttr.setattr_own, hq]
    simp [hown']
  · have := OwnAttr.save_values hs (lookup_mem hq) hn
    rw [hg] at this
    exact this

/-- **C155** is violated for cameras with yaw, pitch and roll: after `load`, the camera reads the yaw and the pitch that were saved, though it has no such
parameters and looks into another direction (C65); assigning them does not change the program. -/
theorem C155_ypr_violated {t : Sys.St} (hr : Reach t) {c0 : ℕ} {kp : Projection.Kind} {kl : LKind} (hcls : Classes t c0 kp kl .ypr) {disk disk' : Disk}
    {name : String} (hsave : Persist.save t c0 disk name = (disk', .ok ())) {s : OwnAttr.St} (hr1 : Reach s.sys) {p l o : ℕ} (hF : Fresh s.sys p l o) (c : ℕ)
    {n : String} (hn : n = "yaw_deg" ∨ n = "pitch_deg") :
    ∃ s', s.load c p l o disk' name = .ok s' ∧ s'.getattr c n = t.getattr (.cam c0) n ∧ (∀ z, (s'.setattr c n z).sys = s'.sys) ∧
      ∀ disk1 name1 f, (s'.save c disk1 name1).1 name1 = some (.json f) → ∀ y, (n, y) ∉ f.values := by
  obtain ⟨C, P, L, O, hC, hP, hL, hO, hkp, hkl, hk⟩ := hcls
  obtain ⟨s', h1, h2, h3⟩ := OwnAttr.load_saved hC hP hL hsave s c p l o
  obtain ⟨i1, -, -, i4, -⟩ := loadInit_spec hr1 hF (c := c) P.kind L.kind
  have hdict : s'.sys.dict (.cam c) = (loadInit s.sys c p l o P.kind L.kind).dict (.cam c) := by
    rw [h3]
    exact congrFun (OwnAttr.assigns_dict c _ { s with sys := loadInit s.sys c p l o P.kind L.kind } i1) _
  have hnone : (s'.sys.dict (.cam c)).lookup n = none := by
    rw [hdict, i4]
    rcases hn with rfl | rfl <;> cases L.kind <;>
      simp [camDict, projDict, PField.all, PField.name, CField.all, CField.name, orientDict, OField.all, OField.name, lensDict, LField.all, LField.name, List.lookup]
  obtain ⟨f, hf⟩ : ∃ f : OField, n = f.name .ypr := by
    rcases hn with rfl | rfl
    · exact ⟨.ang, rfl⟩
    · exact ⟨.turn, rfl⟩
  have hlk := cam_lookup_o hr.dicts hC hO f
  rw [hk, ← hf] at hlk
  have hown : s'.own c n = some (t.rd (.o C.orient f)) := by
    rw [h3]
    refine OwnAttr.assigns_new c _ { s with sys := loadInit s.sys c p l o P.kind L.kind } i1 (by rw [← hdict]; exact hnone) ?_ ?_
    · exact List.mem_map.2 ⟨(n, .o C.orient f), List.mem_filter.2 ⟨lookup_mem hlk, by rcases hn with rfl | rfl <;> simp⟩, rfl⟩
    · intro nx hnx he
      obtain ⟨kv, hkv, rfl⟩ := List.mem_map.1 hnx
      have hkv' := (List.mem_filter.1 hkv).1
      rw [cam_dict hr hC hO hL] at hkv'
      obtain ⟨r, r1, r2, r3⟩ := Role.of_mem hkv'
      have := r.lookup (ko := O.kind) (kl := L.kind) c0 C.proj C.orient C.lens r1
      rw [← r2, show kv.1 = n from he, ← cam_dict hr hC hO hL, hlk, Option.some.injEq] at this
      simp only
      rw [r3, this]
  refine ⟨s', h1, ?_, fun z => ?_, fun disk1 name1 f' hf' y hy => ?_⟩
  · unfold OwnAttr.St.getattr
    rw [hown, getattr_eq (s := t) (plain_cam _ _), hlk, Option.map_some, read_rd hr]
  · unfold OwnAttr.St.setattr
    rw [hnone]
  · have hk' : ∀ kv ∈ s'.sys.dict (.cam c), kv.1 ≠ n := by
      intro kv hkv he
      have : ((s'.sys.dict (.cam c)).lookup n).isSome := by
        rw [← he]
        exact lookup_isSome.2 (List.mem_map.2 ⟨kv, hkv, rfl⟩)
      rw [hnone] at this
      cases this
    unfold OwnAttr.St.save writeJson at hf'
    simp only at hf'
    split_ifs at hf'
    · simp only [Function.update_self, Option.some.injEq, Content.json.injEq] at hf'
      subst hf'
      obtain ⟨kv, hkv, he⟩ := List.mem_map.1 hy
      exact hk' kv (List.mem_filter.1 hkv).1 (congrArg Prod.fst he)
    · simp at hf'

theorem OwnAttr.fresh_mkCam {s : Sys.St} {c p0 l0 o0 p l o : ℕ} (hF : Fresh s p l o)
    (hp : p ≠ p0) (hl : l ≠ l0) (ho : o ≠ o0) (kp : Projection.Kind) (ko : OKind) : Fresh (mkCam s c p0 l0 o0 kp .none ko) p l o := by
  set s1 := s.step (.newProj p0 kp initArgs false) with h1
  set s2 := s1.step (.newLens l0 .none fun _ => none) with h2
  set s3 := s2.step (.newOrient o0 ko fun _ => none) with h3
  obtain ⟨L2, e2, e2', -⟩ := newLens_kind s1 l0 .none fun _ => none
  change s2.lenses l0 = some L2 at e2
  have l3 : s3.lenses = s2.lenses := runMatrix_lenses (preOrient s2 o0 ko fun _ => none) o0
  have p3 : s3.projs = s2.projs := runMatrix_projs (preOrient s2 o0 ko fun _ => none) o0
  have p2 : s2.projs = s1.projs := runLens_projs (preLens s1 l0 .none fun _ => none) l0
  have o2 : s2.orients = s1.orients := runLens_orients (preLens s1 l0 .none fun _ => none) l0
  have hset : s3.setProjection l0 p0 = s3 := setProjection_none fun L hL => by rw [l3, e2] at hL; cases hL; exact e2'
  refine ⟨?_, ?_, ?_⟩
  · have a : (mkCam s c p0 l0 o0 kp .none ko).projs = (s3.setProjection l0 p0).projs := rfl
    rw [a, hset, p3, p2]
    simp only [h1, Sys.St.step, St.newProj, Function.update_apply, if_neg hp]
    exact hF.p
  · have a : (mkCam s c p0 l0 o0 kp .none ko).lenses = (s3.setProjection l0 p0).lenses := rfl
    have b : s2.lenses l = (preLens s1 l0 .none fun _ => none).lenses l := runLens_lenses_ne _ hl
    rw [a, hset, l3, b]
    simp only [preLens, Function.update_apply, if_neg hl]
    exact hF.l
  · have a : (mkCam s c p0 l0 o0 kp .none ko).orients = (s3.setProjection l0 p0).orients := rfl
    have b : s3.orients o = (preOrient s2 o0 ko fun _ => none).orients o := runMatrix_orients_ne _ ho
    rw [a, hset, b]
    simp only [preOrient, Function.update_apply, if_neg ho]
    rw [o2]; exact hF.o

/-- The hypotheses can be met: `k1` is assigned to a camera without lens distortion, then a camera with a lens is loaded. -/
example : ∃ (t : Sys.St) (disk' : Disk) (s0 : OwnAttr.St) (x y : ℝ), Reach t ∧ Classes t 0 .rectilinear .brown .thr ∧
    Persist.save t 0 (fun _ => none) "cam.json" = (disk', .ok ()) ∧ Reach (s0.setattr 0 "k1" x).sys ∧ Fresh (s0.setattr 0 "k1" x).sys 1 1 1 ∧
    (s0.setattr 0 "k1" x).own 0 "k1" = some x ∧ (s0.setattr 0 "k1" x).own 0 "k2" = none ∧ t.getattr (.cam 0) "k1" = some (some y) ∧ x ≠ y := by
  obtain ⟨h1, -, ⟨C, O, L, a1, a2, a3, a4, a5, a6, a7, a8, a9⟩, h4, -⟩ := mkCam_spec .start fresh0 (c := 0) .rectilinear .brown .thr
  obtain ⟨b1, -, -, b4, -⟩ := mkCam_spec .start fresh0 (c := 0) .rectilinear .none .thr
  have hf := OwnAttr.fresh_mkCam (s := St.empty) (c := 0) (p0 := 0) (l0 := 0) (o0 := 0) (p := 1) (l := 1) (o := 1) ⟨rfl, rfl, rfl⟩ (by norm_num) (by norm_num) (by norm_num) .rectilinear .thr
  have hno : ((mkCam St.empty 0 0 0 0 .rectilinear .none .thr).dict (.cam 0)).lookup "k1" = none := by
    rw [b4]
    simp [camDict, projDict, PField.all, PField.name, CField.all, CField.name, orientDict, OField.all, OField.name, lensDict, List.lookup]
  have hk1 := cam_lookup_l h1.dicts a1 (by rw [a4]; exact a8) (f := .k1) (by rw [a9]; simp)
  have hy : (mkCam St.empty 0 0 0 0 .rectilinear .brown .thr).getattr (.cam 0) "k1" = some (some ((mkCam St.empty 0 0 0 0 .rectilinear .brown .thr).rd (.l C.lens .k1))) := by
    rw [a9] at hk1
    rw [getattr_eq (plain_cam _ _), show "k1" = LField.name .brown .k1 from rfl, hk1, Option.map_some, read_rd h1]
  refine ⟨_, _, ⟨mkCam St.empty 0 0 0 0 .rectilinear .none .thr, fun _ _ => none⟩, (mkCam St.empty 0 0 0 0 .rectilinear .brown .thr).rd (.l C.lens .k1) + 1, _, h1, (mkCam_classes .start fresh0 _ _ _).1,
    save_ok (mkCam_reachN .start fresh0 _ _ _).noBox _ _ _, (OwnAttr.setattr_reach b1 _ _ _).1, ?_, ?_, ?_, hy, by simp⟩
  · rw [OwnAttr.setattr_sys]
    simp only [Sys.St.step, hno]
    exact hf
  · rw [OwnAttr.setattr_own]
    simp [hno]
  · rw [OwnAttr.setattr_own]
    simp [hno, Function.update]

/-- The hypotheses of the theorem on yaw, pitch and roll can be met. -/
example : ∃ (t : Sys.St) (disk' : Disk) (s : OwnAttr.St), Reach t ∧ Classes t 0 .rectilinear .none .ypr ∧
    Persist.save t 0 (fun _ => none) "cam.json" = (disk', .ok ()) ∧ Reach s.sys ∧ Fresh s.sys 1 1 1 :=
  ⟨mkCam St.empty 0 0 0 0 .rectilinear .none .ypr, _, ⟨St.empty, fun _ _ => none⟩, (mkCam_spec .start fresh0 _ _ _).1, (mkCam_classes .start fresh0 _ _ _).1,
    save_ok (mkCam_reachN .start fresh0 _ _ _).noBox _ _ _, .start, ⟨rfl, rfl, rfl⟩⟩

section
open Sys Persist
/-- **C155** What hinders saving: `save` raises a TypeError if and only if a parameter that the camera reads (no attribute of the same name hides it) is a 0-dimensional array;
then the file is left empty. -/
theorem C155_save_fails (s : OwnAttr.St) (c : ℕ) (disk : Disk) (name : String) :
    ((s.save c disk name).2 = .error .typeError ↔
      ∃ n q, (n, q) ∈ s.sys.dict (.cam c) ∧ n ≠ "focallength_px" ∧ s.own c n = none ∧ (s.sys.par q).value ≠ none ∧ (s.sys.par q).boxed = true) ∧
    ((s.save c disk name).2 ≠ .error .typeError → (s.save c disk name).2 = .ok ()) ∧
    ((s.save c disk name).2 = .error .typeError → (s.save c disk name).1 name = some (.text "")) := by
  have key : (∀ kv ∈ exports s.sys (.cam c) (some "focallength_px"), s.own c kv.1 ≠ none ∨ Serialisable (s.sys.par kv.2)) ↔
      ¬ ∃ n q, (n, q) ∈ s.sys.dict (.cam c) ∧ n ≠ "focallength_px" ∧ s.own c n = none ∧ (s.sys.par q).value ≠ none ∧ (s.sys.par q).boxed = true := by
    constructor
    · rintro h ⟨n, q, hm, hn, ho, hv, hb⟩
      rcases h (n, q) (by simp [exports, hm, hn]) with h | h | h
      · exact h ho
      · exact hv h
      · simp only at h
        rw [hb] at h
        cases h
    · intro h kv hkv
      by_contra hc
      rw [not_or, not_not] at hc
      simp only [exports, List.mem_filter] at hkv
      have hs : ¬ ((s.sys.par kv.2).value = none ∨ (s.sys.par kv.2).boxed = false) := hc.2
      rw [not_or, Bool.not_eq_false] at hs
      exact h ⟨kv.1, kv.2, hkv.1, by simpa using hkv.2, hc.1, hs.1, hs.2⟩
  unfold OwnAttr.St.save writeJson
  simp only
  by_cases hok : ∀ kv ∈ exports s.sys (.cam c) (some "focallength_px"), s.own c kv.1 ≠ none ∨ Serialisable (s.sys.par kv.2)
  · rw [if_pos hok]
    refine ⟨⟨fun h => by simp at h, fun h => absurd h (key.1 hok)⟩, fun _ => rfl, fun h => by simp at h⟩
  · rw [if_neg hok]
    refine ⟨⟨fun _ => not_not.1 fun h => hok (key.2 h), fun _ => rfl⟩, fun h => absurd rfl h, fun _ => by simp⟩
end
