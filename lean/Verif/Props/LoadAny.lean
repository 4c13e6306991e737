import Verif.Spec.LoadAny
import Verif.Props.Persist
import Verif.Props.LoadCamera
import Verif.Props.SystemCache
import Verif.Props.Table

/-! # Loading any file (C164)

Keys that name no parameter of the new camera become ordinary attributes of it; keys that would shadow a part of the camera
(`orientation`, `R_earth`, …) are outside of this model of `load`, see `Model/OwnAttr.lean`. -/


/-! # Loading any file (C164) -/

set_option linter.constructorNameAsVariable false

open Classical Sys Persist

namespace Persist

theorem lastIn_cons (a : String × ℝ) (t : List (String × ℝ)) (ns : List String) :
    lastIn (a :: t) ns = (lastIn t ns).or (if a.1 ∈ ns then some a.2 else none) := by
  unfold lastIn
  rw [List.reverse_cons, List.find?_append]
  cases List.find? (fun nx => decide (nx.1 ∈ ns)) t.reverse with
  | some x => simp
  | none =>
    by_cases h : a.1 ∈ ns <;> simp [List.find?, h]

/-- The first value of a parameter of a new camera. -/
noncomputable def firstValue : Pid → ℝ
  | .c _ _ => 0
  | .p _ .fx => 100
  | .p _ .fy => 100
  | .p _ .cx => 50
  | .p _ .cy => 25
  | .p _ .ih => 50
  | .p _ .iw => 100
  | .p _ .sh => 13
  | .p _ .sw => 17.3
  | .p _ .f => 100
  | .o _ .elev => 30
  | .o _ .ang => 85
  | .o _ _ => 0
  | .l _ _ => 0

theorem initialTable_eq (kl : LKind) (c p o l : ℕ) :
    initialTable kl = (camDict .thr kl c p o l).map fun kv => (kv.1, firstValue kv.2) := by
  cases kl <;>
    simp [initialTable, camDict, projDict, orientDict, lensDict, CField.all, PField.all, OField.all, LField.all, CField.name,
      PField.name, OField.name, LField.name, firstValue]

theorem lookup_mapSnd (d : Dict) (g : Pid → ℝ) (n : String) :
    (d.map fun kv => (kv.1, g kv.2)).lookup n = (d.lookup n).map g := by
  induction d with
  | nil => rfl
  | cons a t ih =>
    rw [List.map_cons, List.lookup_cons, List.lookup_cons, ih]
    cases n == a.1 <;> rfl

/-- What a new camera reads. -/
theorem loadInit_rd {s : St} (hr : Reach s) {c p l o : ℕ} (hF : Fresh s p l o) (kp : Projection.Kind) (kl : LKind) {n : String} {q : Pid}
    (hl : (camDict .thr kl c p o l).lookup n = some q) : (loadInit s c p l o kp kl).rd q = firstValue q := by
  obtain ⟨T, hT, -⟩ := C162_total hr
  obtain ⟨h1, -, ⟨C, O, L, e1, e2, e3, e4, e5, e6, e7, e8, e9⟩, hd, -⟩ := loadInit_spec hr hF (c := c) kp kl
  set s1 := s.step (.newProj p kp initArgs false) with k1
  set s2 := s1.step (.newLens l kl fun _ => none) with k2
  set s3 := s2.step (.newOrient o .thr fun _ => none) with k3
  have ok1 : s.ok (.newProj p kp initArgs false) := ⟨hF.p, fun f => by cases f <;> simp [initArgs, PField.default]⟩
  have t1 := RunT.step hT ok1
  have r1 : Reach s1 := .step hr ok1
  have ok2 : s1.ok (.newLens l kl fun _ => none) := hF.l
  have t2 := RunT.step t1 ok2
  have r2 : Reach s2 := .step r1 ok2
  have ok3 : s2.ok (.newOrient o .thr fun _ => none) := by
    show s2.orients o = none
    have : s2.orients = s1.orients := runLens_orients (preLens s1 l kl fun _ => none) l
    rw [this]; exact hF.o
  have t3 := RunT.step t2 ok3
  have r3 : Reach s3 := .step r2 ok3
  have ok4 : s3.ok (.newCam c p o l) := by
    refine ⟨?_, ?_, ?_⟩
    · have k : s1.projs p = some ⟨kp, none⟩ := by simp [k1, St.step, St.newProj]
      have := (step_keep r2.struct ok3).projs _ _ ((step_keep r1.struct ok2).projs _ _ k)
      rw [this]; simp
    · obtain ⟨O3, e, -⟩ := newOrient_kind s2 o .thr fun _ => none
      change s3.orients o = some O3 at e
      rw [e]; simp
    · obtain ⟨L2, e, -⟩ := newLens_kind s1 l kl fun _ => none
      have : s3.lenses = s2.lenses := runMatrix_lenses (preOrient s2 o .thr fun _ => none) o
      change s2.lenses l = some L2 at e
      rw [this, e]; simp
  have t4 := RunT.step t3 ok4
  have hv := C162_read t4 (v := .cam c) (fun p P e => by cases e) n
  have hs : (s3.step (.newCam c p o l)) = loadInit s c p l o kp kl := rfl
  rw [hs, getattr_eq (fun p P e => by cases e), hd, hl, Option.map_some, Option.map_some, read_rd h1] at hv
  obtain ⟨r, -, -, rfl⟩ := Role.of_mem (lookup_mem hl)
  have hv := Option.some.inj hv
  apply Option.some.inj
  rw [hv]
  rcases r with f | f | f | f
  · simp [Table.step, Table.create, Role.pid, firstValue, Cell.read, Cell.new]
  · cases f <;>
      simp [Table.step, Table.create, Role.pid, firstValue, Cell.read, Cell.new, Table.settle, initArgs, initialP]
  · cases f <;>
      simp [Table.step, Table.create, Role.pid, firstValue, Cell.read, Cell.new, Table.settle, Cell.turned, initialO, Out]
    norm_num
  · simp [Table.step, Table.create, Role.pid, firstValue, Cell.read, Cell.new, Table.settle]

end Persist

namespace Persist

theorem focal_lookup (kl : LKind) (c p o l : ℕ) : (camDict .thr kl c p o l).lookup "focallength_px" = some (.p p .f) :=
  Role.lookup .thr (kl := kl) c p o l (r := .p .f) trivial

theorem name_inj {kl : LKind} {r r' : Role} (h : r.In kl) (h' : r'.In kl) (e : r.name .thr kl = r'.name .thr kl) : r = r' := by
  have h1 := Role.lookup .thr (kl := kl) 0 0 0 0 h
  have h2 := Role.lookup .thr (kl := kl) 0 0 0 0 h'
  rw [e, h2] at h1
  exact (Role.pid_inj (Option.some.inj h1)).symm

theorem mem_sources_f {kl : LKind} {r : Role} (h : r.In kl) (hf : r ≠ .p .f) :
    "focallength_px" ∈ sources (r.name .thr kl) ↔ r = .p .fx ∨ r = .p .fy := by
  have e := mt (Role.name_f (ko := .thr) h).1 hf
  unfold sources
  split_ifs with hs
  · simp only [List.mem_cons, List.not_mem_nil, or_false, or_true, true_iff]
    rcases hs with hs | hs
    · exact Or.inl (name_inj (r' := .p .fx) h trivial hs)
    · exact Or.inr (name_inj (r' := .p .fy) h trivial hs)
  · simp only [List.mem_singleton]
    constructor
    · intro hh; exact absurd hh.symm e
    · rintro (rfl | rfl)
      · exact absurd (Or.inl rfl) hs
      · exact absurd (Or.inr rfl) hs

theorem not_mem_sources {n n' : String} (h : n ≠ n') (hf : n ≠ "focallength_px") : n ∉ sources n' := by
  unfold sources; split_ifs <;> simp [h, hf]

theorem norm_reduced {kl : LKind} {r : Role} (h : r.In kl) (c p o l : ℕ) (x : ℝ) :
    norm360 (r.pid c p o l) x = reduced (r.name .thr kl) x := by
  have key : r.name .thr kl = "heading_deg" ↔ r = .o .turn :=
    ⟨fun e => name_inj (r' := .o .turn) h trivial e, by rintro rfl; rfl⟩
  by_cases hr : r = .o .turn
  · subst hr
    by_cases hx : Out x <;> simp [norm360, reduced, Role.pid, Role.name, OField.name, hx]
  · rw [reduced, if_neg (by rw [key]; exact fun hh => hr hh.1)]
    rcases r with f | f | f | f
    · rfl
    · rfl
    · cases f <;> first | rfl | exact absurd rfl hr
    · rfl

/-- One assignment. -/
theorem assign_one {s : St} (hr : Reach s) {kl : LKind} {c p o l : ℕ} (hd : s.dict (.cam c) = camDict .thr kl c p o l)
    (hp : s.projs p ≠ none) {n' : String} {q : Pid} (hl : (camDict .thr kl c p o l).lookup n' = some q) (n : String) (x : ℝ) :
    (s.step (.set (.cam c) n (some x) false)).rd q = if n ∈ sources n' then reduced n' x else s.rd q := by
  obtain ⟨r, hin, hn', hq⟩ := Role.of_mem (lookup_mem hl)
  by_cases hn : n = n'
  · subst hn
    have h1 := (set_read hr (by rw [hd]; exact hl) x false).1
    rw [if_pos (by unfold sources; split_ifs <;> simp)]
    unfold St.rd Param.read
    rw [h1]
    show norm360 q x = _
    rw [hq, hn', norm_reduced hin]
  · cases hl' : (camDict .thr kl c p o l).lookup n with
    | none =>
      have : n ≠ "focallength_px" := by rintro rfl; rw [focal_lookup] at hl'; cases hl'
      rw [if_neg (not_mem_sources hn this)]
      simp only [St.step, hd, hl']
    | some q' =>
      obtain ⟨r', hin', hn'', hq'⟩ := Role.of_mem (lookup_mem hl')
      have hne : r ≠ r' := by rintro rfl; exact hn (hn''.trans hn'.symm)
      have hqne : q ≠ q' := by
        rw [hq, hq']; exact fun e => hne (Role.pid_inj e)
      have hl2 : (s.dict (.cam c)).lookup n = some q' := by rw [hd]; exact hl'
      by_cases hf : r' = .p .f
      · subst hf
        have en : n = "focallength_px" := hn''
        have eq' : q' = .p p .f := hq'
        by_cases hx : r = .p .fx ∨ r = .p .fy
        · rw [if_pos (by rw [en, hn']; exact (mem_sources_f hin hne).2 hx)]
          have hred : reduced n' x = x := by
            rw [hn']; rcases hx with rfl | rfl <;> simp [reduced, Role.name, PField.name]
          rw [hred]
          have hpar := set_par hr.struct hl2 (some x) false q
          unfold St.rd Param.read
          rw [hpar, hq]
          have hcb := hr.struct.pf p hp
          rcases hx with rfl | rfl <;> simp [Role.pid, after, eq', hcb, mod_par]
        · rw [if_neg (by rw [en, hn', mem_sources_f hin hne]; exact hx)]
          refine rd_eq_of_par (set_other hr hl2 _ _ hqne fun p' g hg e e' => hx ?_)
          rw [hq] at e'
          rcases r with f | f | f | f <;> simp only [Role.pid] at e' <;> cases e'
          rcases hg with rfl | rfl
          · exact Or.inl rfl
          · exact Or.inr rfl
      · have hnf : n ≠ "focallength_px" := by rw [hn'']; exact mt (Role.name_f hin').1 hf
        rw [if_neg (not_mem_sources hn hnf)]
        refine rd_eq_of_par (set_other hr hl2 _ _ hqne fun p' g hg e => ?_)
        rw [hq'] at e
        rcases r' with f | f | f | f <;> simp only [Role.pid] at e <;> cases e
        exact absurd rfl hf

/-- A series of assignments to a camera. -/
theorem assignAll_any (vals : List (String × ℝ)) {s : St} (hr : Reach s) {kl : LKind} {c p o l : ℕ}
    (hd : s.dict (.cam c) = camDict .thr kl c p o l) (hp : s.projs p ≠ none) :
    Reach (assignAll s (.cam c) vals) ∧ (ReachX s → ReachX (assignAll s (.cam c) vals)) ∧ Pres s (assignAll s (.cam c) vals) ∧
    ∀ n q, (camDict .thr kl c p o l).lookup n = some q → (assignAll s (.cam c) vals).rd q = match lastIn vals (sources n) with
      | some x => reduced n x
      | none => s.rd q := by
  induction vals generalizing s with
  | nil => exact ⟨hr, id, Pres.refl s, fun n q _ => rfl⟩
  | cons a t ih =>
    have hok : s.ok (.set (.cam c) a.1 (some a.2) false) := Or.inl (by simp)
    have hpr := step_pres hr.struct hok trivial
    obtain ⟨h1, h2, h3, h4⟩ := ih (s := s.step (.set (.cam c) a.1 (some a.2) false)) (.step hr hok) ((hpr.dict _).trans hd)
      (by rw [hpr.projs]; exact hp)
    refine ⟨h1, fun hx => h2 (.step hx hok trivial), hpr.trans h3, fun n q hl => ?_⟩
    have e : assignAll s (.cam c) (a :: t) = assignAll (s.step (.set (.cam c) a.1 (some a.2) false)) (.cam c) t := rfl
    rw [e, h4 n q hl, lastIn_cons]
    cases lastIn t (sources n) with
    | some x => rfl
    | none =>
      simp only [Option.none_or]
      rw [assign_one hr hd hp hl]
      split_ifs <;> rfl

end Persist

/-- **C164** Loading a file, whatever it contains and whatever the camera was before: the camera has the classes named by
the two codes and a `SpatialOrientation`; a parameter has the last value that the file gives to it (the key
`focallength_px` also sets both focal lengths; a heading of more than a turn is reduced), and the parameters that the file
does not mention have the values of a new camera.  Keys that name no parameter do not change any parameter. -/
theorem C164_load {s : St} (hr : Reach s) (c : ℕ) {p l o : ℕ} (hF : Fresh s p l o) {disk : Disk} {name : String} {f : File}
    (hf : readJson disk name = .ok f) {kp : Projection.Kind} (hp : projOf f.projection = .ok kp) {kl : LKind}
    (hk : lensOfCode f.lens = .ok kl) :
    ∃ s', load s c p l o disk name = .ok s' ∧ Reach s' ∧ (ReachX s → ReachX s') ∧ Classes s' c kp kl .thr ∧
      ∀ n, s'.getattr (.cam c) n = (loadedValue kl f.values n).map some := by
  obtain ⟨h1, h2, ⟨C, O, L, e1, e2, e3, e4, e5, e6, e7, e8, e9⟩, hd, -⟩ := loadInit_spec hr hF (c := c) kp kl
  obtain ⟨a1, a2, a3, a4⟩ := assignAll_any f.values h1 hd (by rw [e5]; simp)
  obtain ⟨C', O', L', b1, b2, b3, b4, b5, b6, b7, b8, b9⟩ := load_classes hr hF a3
  refine ⟨assignAll (loadInit s c p l o kp kl) (.cam c) f.values, ?_, a1, fun hx => a2 (h2 hx),
    ⟨C', ⟨kp, none⟩, L', O', b1, by rw [b2]; exact b5, by rw [b4]; exact b8, by rw [b3]; exact b6, rfl, b9, b7⟩, fun n => ?_⟩
  · simp only [load, hf, hp, hk, bind, Except.bind, pure, Except.pure]
    rfl
  · rw [getattr_eq (plain_cam _ _), a3.dict, hd, loadedValue, initialTable_eq kl c p o l, lookup_mapSnd]
    cases hl : (camDict .thr kl c p o l).lookup n with
    | none => rfl
    | some q =>
      rw [Option.map_some, Option.map_some, Option.map_some, Option.map_some, read_rd a1, a4 n q hl, loadInit_rd hr hF kp kl hl]
      cases lastIn f.values (sources n) <;> rfl

/-- **C164** The loaded camera converts points as the camera that the file describes. -/
theorem C164_view (spline : LensModel.Spline) {s : St} (hr : ReachX s) (c : ℕ) {p l o : ℕ} (hF : Fresh s p l o) {disk : Disk} {name : String}
    {f : File} (hf : readJson disk name = .ok f) {kp : Projection.Kind} (hp : projOf f.projection = .ok kp) {kl : LKind}
    (hk : lensOfCode f.lens = .ok kl) :
    ∃ s', load s c p l o disk name = .ok s' ∧
      (∀ pt hide, s'.imageFromSpace spline c pt hide = some (Camera.imageFromSpace (described spline kp kl f.values) pt hide)) ∧
      ∀ pt normed, s'.getRay spline c pt normed = some (Camera.getRay (described spline kp kl f.values) pt normed) := by
  obtain ⟨h1, h2, ⟨C, O, L, e1, e2, e3, e4, e5, e6, e7, e8, e9⟩, hd, -⟩ := loadInit_spec hr.reach hF (c := c) kp kl
  obtain ⟨a1, a2, a3, a4⟩ := assignAll_any f.values h1 hd (by rw [e5]; simp)
  obtain ⟨C', O', L', b1, b2, b3, b4, b5, b6, b7, b8, b9⟩ := load_classes hr.reach hF a3
  have hval : ∀ r : Role, r.In kl → (loadedValue kl f.values (r.name .thr kl)).getD 0 =
      (assignAll (loadInit s c p l o kp kl) (.cam c) f.values).rd (r.pid c p o l) := by
    intro r hin
    have hl := Role.lookup .thr (kl := kl) c p o l hin
    rw [loadedValue, initialTable_eq kl c p o l, lookup_mapSnd, hl, Option.map_some, Option.map_some, a4 _ _ hl, loadInit_rd hr.reach hF kp kl hl]
    rfl
  refine ⟨assignAll (loadInit s c p l o kp kl) (.cam c) f.values, ?_, ?_⟩
  · simp only [load, hf, hp, hk, bind, Except.bind, pure, Except.pure]
    rfl
  generalize assignAll (loadInit s c p l o kp kl) (.cam c) f.values = s' at *
  obtain ⟨cam, c1, c2, c3⟩ := C52_up_to_date_partial spline (a2 (h2 hr)) b1 (by
    rw [b2]; intro p' P' e hP'; cases e; rw [b5] at hP'; cases hP'; rfl)
  have : described spline kp kl f.values = cam := by
    apply Option.some.inj
    rw [← c1]
    have v1 := hval (.p .fx) trivial
    have v2 := hval (.p .fy) trivial
    have v3 := hval (.p .cx) trivial
    have v4 := hval (.p .cy) trivial
    have v5 := hval (.p .iw) trivial
    have v6 := hval (.p .ih) trivial
    have v7 := hval (.o .elev) trivial
    have v8 := hval (.o .ang) trivial
    have v9 := hval (.o .roll) trivial
    have v10 := hval (.o .turn) trivial
    have v11 := hval (.o .posX) trivial
    have v12 := hval (.o .posY) trivial
    simp only [Role.name, PField.name, OField.name, Role.pid] at v1 v2 v3 v4 v5 v6 v7 v8 v9 v10 v11 v12
    simp only [St.camNow, b1, b2, b3, b4, b5, b6, b7, b8, b9, orientOf, described, v1, v2, v3, v4, v5, v6, v7, v8, v9, v10, v11, v12]
    cases kl with
    | none => rfl
    | brown =>
      have w1 := hval (.l .k1) (by simp [Role.In])
      have w2 := hval (.l .k2) (by simp [Role.In])
      have w3 := hval (.l .k3) (by simp [Role.In])
      simp only [Role.name, LField.name, Role.pid] at w1 w2 w3
      simp only [w1, w2, w3]
    | abc =>
      have w1 := hval (.l .k1) (by simp [Role.In])
      have w2 := hval (.l .k2) (by simp [Role.In])
      have w3 := hval (.l .k3) (by simp [Role.In])
      simp only [Role.name, LField.name, Role.pid] at w1 w2 w3
      simp only [w1, w2, w3]
  rw [this]
  exact ⟨c2, c3⟩

/-- **C164** The only ways to fail: no readable file (ValueError here), or a code that is none of 0, 1, 2 (UnboundLocalError). -/
theorem C164_errors (s : St) (c p l o : ℕ) (disk : Disk) (name : String) :
    (∃ s', load s c p l o disk name = .ok s') ∨ ((∀ f, disk name ≠ some (.json f)) ∧ load s c p l o disk name = .error .valueError) ∨
    (∃ f, disk name = some (.json f) ∧ ((∃ k, 2 < k ∧ f.projection = some k) ∨ ∃ k, 2 < k ∧ f.lens = some k) ∧
      load s c p l o disk name = .error .unboundLocal) := by
  have hcode : ∀ k : Option ℕ, (∃ K, projOf k = .ok K) ∨ ((∃ m, 2 < m ∧ k = some m) ∧ projOf k = .error .unboundLocal) := by
    rintro (_ | _ | _ | _ | k)
    · exact Or.inl ⟨_, rfl⟩
    · exact Or.inl ⟨_, rfl⟩
    · exact Or.inl ⟨_, rfl⟩
    · exact Or.inl ⟨_, rfl⟩
    · exact Or.inr ⟨⟨_, by omega, rfl⟩, rfl⟩
  have hcode' : ∀ k : Option ℕ, (∃ K, lensOfCode k = .ok K) ∨ ((∃ m, 2 < m ∧ k = some m) ∧ lensOfCode k = .error .unboundLocal) := by
    rintro (_ | _ | _ | _ | k)
    · exact Or.inl ⟨_, rfl⟩
    · exact Or.inl ⟨_, rfl⟩
    · exact Or.inl ⟨_, rfl⟩
    · exact Or.inl ⟨_, rfl⟩
    · exact Or.inr ⟨⟨_, by omega, rfl⟩, rfl⟩
  by_cases hd : ∃ f, disk name = some (.json f)
  · obtain ⟨f, hf⟩ := hd
    have hj : readJson disk name = .ok f := by simp only [readJson, hf]
    rcases hcode f.projection with ⟨kp, h1⟩ | ⟨h1, h1'⟩
    · rcases hcode' f.lens with ⟨kl, h2⟩ | ⟨h2, h2'⟩
      · left
        simp only [load, hj, h1, h2, bind, Except.bind, pure, Except.pure]
        exact ⟨_, rfl⟩
      · refine Or.inr (Or.inr ⟨f, hf, Or.inr h2, ?_⟩)
        simp only [load, hj, h1, h2', bind, Except.bind]
    · refine Or.inr (Or.inr ⟨f, hf, Or.inl h1, ?_⟩)
      simp only [load, hj, h1', bind, Except.bind]
  · push Not at hd
    refine Or.inr (Or.inl ⟨hd, ?_⟩)
    have hj : readJson disk name = .error .valueError := by
      unfold readJson
      cases h : disk name with
      | none => rfl
      | some x =>
        cases x with
        | json f => exact absurd h (hd f)
        | text t => rfl
    simp only [load, hj, bind, Except.bind]

theorem Persist.lastIn_mem {vals : List (String × ℝ)} {ns : List String} {x : ℝ} (h : lastIn vals ns = some x) :
    ∃ k ∈ ns, (k, x) ∈ vals := by
  unfold lastIn at h
  obtain ⟨a, ha, rfl⟩ := Option.map_eq_some_iff.1 h
  refine ⟨a.1, by simpa using List.find?_some ha, ?_⟩
  have := List.mem_of_find?_eq_some ha
  simpa using this

theorem Persist.lastIn_none {vals : List (String × ℝ)} {ns : List String} (h : lastIn vals ns = none) {k : String} (hk : k ∈ ns) (x : ℝ) :
    (k, x) ∉ vals := by
  unfold lastIn at h
  rw [Option.map_eq_none_iff, List.find?_eq_none] at h
  intro hm
  exact h (k, x) (by simpa using hm) (by simpa using hk)

/-- The order of the keys does not matter if `focallength_px` is not among them. -/
theorem Persist.lastIn_perm {v v' : List (String × ℝ)} (hp : v.Perm v') (hn : (v.map Prod.fst).Nodup)
    (hf : "focallength_px" ∉ v.map Prod.fst) {n : String} : lastIn v (sources n) = lastIn v' (sources n) := by
  have hkey : ∀ k x, k ∈ sources n → (k, x) ∈ v → k = n := by
    intro k x hk hm
    by_contra hne
    refine absurd hk (not_mem_sources hne ?_)
    rintro rfl
    exact hf (List.mem_map_of_mem (f := Prod.fst) hm)
  have huniq : ∀ x y, (n, x) ∈ v → (n, y) ∈ v → x = y := by
    intro x y hx hy
    have := List.inj_on_of_nodup_map hn hx hy rfl
    exact congrArg Prod.snd this
  cases h1 : lastIn v (sources n) with
  | none =>
    cases h2 : lastIn v' (sources n) with
    | none => rfl
    | some y =>
      obtain ⟨k, hk, hm⟩ := lastIn_mem h2
      exact absurd (hp.mem_iff.2 hm) (lastIn_none h1 hk y)
  | some x =>
    obtain ⟨k, hk, hm⟩ := lastIn_mem h1
    have e := hkey k x hk hm
    subst e
    cases h2 : lastIn v' (sources k) with
    | none => exact absurd (hp.mem_iff.1 hm) (lastIn_none h2 hk x)
    | some y =>
      obtain ⟨k', hk', hm'⟩ := lastIn_mem h2
      have hm'' := hp.mem_iff.2 hm'
      have e := hkey k' y hk' hm''
      subst e
      rw [huniq x y hm hm'']

/-- **C164** (partial) Two files with the same entries in another order describe the same camera, if `focallength_px` is
not among the keys (`save` never writes it). -/
theorem C164_order_partial (kl : LKind) {v v' : List (String × ℝ)} (hp : v.Perm v') (hn : (v.map Prod.fst).Nodup)
    (hf : "focallength_px" ∉ v.map Prod.fst) {s s' : St} (hr : Reach s) (hr' : Reach s') (c : ℕ) {p l o p' l' o' : ℕ} (hF : Fresh s p l o)
    (hF' : Fresh s' p' l' o') {kp : Projection.Kind} {disk : Disk} {a b : String}
    (ha : disk a = some (.json ⟨v, some (projCode kp), some (lensCode kl)⟩)) (hb : disk b = some (.json ⟨v', some (projCode kp), some (lensCode kl)⟩)) :
    ∃ t t', load s c p l o disk a = .ok t ∧ load s' c p' l' o' disk b = .ok t' ∧ ∀ n, t.getattr (.cam c) n = t'.getattr (.cam c) n := by
  obtain ⟨t, h1, -, -, -, h2⟩ := C164_load hr c hF (disk := disk) (name := a) (by simp only [readJson, ha]; rfl) (projOf_code kp) (lensOf_code kl)
  obtain ⟨t', h1', -, -, -, h2'⟩ := C164_load hr' c hF' (disk := disk) (name := b) (by simp only [readJson, hb]; rfl) (projOf_code kp) (lensOf_code kl)
  refine ⟨t, t', h1, h1', fun n => ?_⟩
  rw [h2, h2', loadedValue, loadedValue]
  simp only [lastIn_perm hp hn hf]

/-- **C164** is violated if `focallength_px` is among the keys: the order of the keys of the file decides about the focal
lengths. -/
theorem C164_order_violated (kl : LKind) (x y : ℝ) (hxy : x ≠ y) {s : St} (hr : Reach s) (c : ℕ) {p l o : ℕ} (hF : Fresh s p l o)
    {kp : Projection.Kind} {disk : Disk} {a b : String}
    (ha : disk a = some (.json ⟨[("focallength_px", x), ("focallength_x_px", y)], some (projCode kp), some (lensCode kl)⟩))
    (hb : disk b = some (.json ⟨[("focallength_x_px", y), ("focallength_px", x)], some (projCode kp), some (lensCode kl)⟩)) :
    ∃ t t', load s c p l o disk a = .ok t ∧ load s c p l o disk b = .ok t' ∧ t.getattr (.cam c) "focallength_x_px" = some (some y) ∧
      t'.getattr (.cam c) "focallength_x_px" = some (some x) ∧ t.getattr (.cam c) "focallength_x_px" ≠ t'.getattr (.cam c) "focallength_x_px" := by
  obtain ⟨t, h1, -, -, -, h2⟩ := C164_load hr c hF (disk := disk) (name := a) (by simp only [readJson, ha]; rfl) (projOf_code kp) (lensOf_code kl)
  obtain ⟨t', h1', -, -, -, h2'⟩ := C164_load hr c hF (disk := disk) (name := b) (by simp only [readJson, hb]; rfl) (projOf_code kp) (lensOf_code kl)
  have hlook : ∃ d, (initialTable kl).lookup "focallength_x_px" = some d := by
    have h := Role.lookup .thr (kl := kl) c p o l (r := .p .fx) trivial
    rw [show Role.name .thr kl (.p .fx) = "focallength_x_px" from rfl] at h
    rw [initialTable_eq kl c p o l, lookup_mapSnd, h]
    exact ⟨_, rfl⟩
  obtain ⟨d, hd⟩ := hlook
  have e1 : t.getattr (.cam c) "focallength_x_px" = some (some y) := by
    rw [h2, loadedValue, hd]
    simp [lastIn, sources, reduced]
  have e2 : t'.getattr (.cam c) "focallength_x_px" = some (some x) := by
    rw [h2', loadedValue, hd]
    simp [lastIn, sources, reduced]
  refine ⟨t, t', h1, h1', e1, e2, ?_⟩
  rw [e1, e2]
  intro h
  exact hxy (Option.some.inj (Option.some.inj h)).symm

/-- **C164** `load_camera` gives the same camera: the one it makes first leaves no trace. -/
theorem C164_load_camera {s : St} (hr : Reach s) (c : ℕ) {p0 o0 l0 p l o : ℕ} (h0 : Fresh s p0 l0 o0) (hF : Fresh s p l o)
    (hp0 : p ≠ p0) (hl0 : l ≠ l0) (ho0 : o ≠ o0) {disk : Disk} {name : String} {f : File}
    (hf : readJson disk name = .ok f) {kp : Projection.Kind} (hp : projOf f.projection = .ok kp) {kl : LKind}
    (hk : lensOfCode f.lens = .ok kl) :
    ∃ s', loadCamera s c p0 o0 l0 p l o disk name = .ok s' ∧ Classes s' c kp kl .thr ∧
      ∀ n, s'.getattr (.cam c) n = (loadedValue kl f.values n).map some := by
  obtain ⟨r1, -, r3⟩ := first_camera hr (c := c) h0 hF hp0 hl0 ho0
  obtain ⟨s', h1, -, -, h2, h3⟩ := C164_load r1 c r3 hf hp hk
  exact ⟨s', h1, h2, h3⟩

/-- A file with one key, loaded in a new process. -/
example : ∃ s', load St.empty 0 0 0 0 (fun _ => some (.json ⟨[("elevation_m", 12), ("comment", 1)], none, some 2⟩)) "a" = .ok s' ∧
    s'.getattr (.cam 0) "elevation_m" = some (some 12) ∧ s'.getattr (.cam 0) "center_y_px" = some (some 25) ∧
    s'.getattr (.cam 0) "k2" = some (some 0) ∧ s'.getattr (.cam 0) "comment" = none := by
  obtain ⟨s', h1, -, -, -, h2⟩ := C164_load (s := St.empty) .start 0 fresh0
    (disk := fun _ => some (.json ⟨[("elevation_m", 12), ("comment", 1)], none, some 2⟩)) (name := "a") rfl rfl rfl
  refine ⟨s', h1, ?_, ?_, ?_, ?_⟩ <;> rw [h2] <;>
    simp [loadedValue, initialTable, List.lookup, lastIn, sources, reduced]

example : ReachX St.empty ∧ Fresh St.empty 0 0 0 ∧ ([("elevation_m", 1), ("roll_deg", 2)] : List (String × ℝ)).Perm [("roll_deg", 2), ("elevation_m", 1)] ∧
    "focallength_px" ∉ ([("elevation_m", 1), ("roll_deg", 2)] : List (String × ℝ)).map Prod.fst :=
  ⟨.start, fresh0, List.Perm.swap _ _ _, by simp⟩
