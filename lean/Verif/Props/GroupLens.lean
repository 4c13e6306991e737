import Verif.Props.Group

/-! # Lenses of the cameras of a group -/

set_option linter.constructorNameAsVariable false

open Classical Sys Group

namespace Group

theorem fits_triple {a : Args} (hf : Fits a) {t : ℕ × ℕ × ℕ × ℕ} (ht : t ∈ a.triples) : t.1 < a.size ∧ a.proj.entry 0 t.1 = some t.2.1 ∧
    a.orient.entry a.newO t.1 = some t.2.2.1 ∧ a.lens.entry a.newL t.1 = some t.2.2.2 := by
  obtain ⟨h0, h1, h2, h3⟩ := mem_triples ht
  rw [n_eq, hf.last] at h0
  obtain ⟨p, p1, p2⟩ := entry_cycle (m := 0) hf.proj h0
  obtain ⟨o, o1, o2⟩ := entry_cycle (m := a.newO) hf.orient h0
  obtain ⟨l, l1, l2⟩ := entry_cycle (m := a.newL) hf.lens h0
  refine ⟨h0, ?_, ?_, ?_⟩
  · rw [p2]; exact p1.symm.trans h1
  · rw [o2]; exact o1.symm.trans h2
  · rw [l2]; exact l1.symm.trans h3

theorem newCam_lenses {s : St} {c p o l : ℕ} {l' : ℕ} {L' : LObj} (h : (s.step (.newCam c p o l)).lenses l' = some L') (hk : L'.kind ≠ .none) :
    (l' = l ∧ L'.proj = some p ∧ ∃ L, s.lenses l = some L ∧ L.kind = L'.kind) ∨ (l' ≠ l ∧ s.lenses l' = some L') := by
  have h : (s.setProjection l p).lenses l' = some L' := h
  by_cases e : l' = l
  · subst e
    left
    cases hl : s.lenses l' with
    | none =>
      rw [setProjection_none fun L hL => by rw [hl] at hL; cases hL] at h
      rw [hl] at h; cases h
    | some L =>
      obtain ⟨L2, h1, h2, h3⟩ := setProjection_lens (p := p) hl
      rw [h] at h1; cases h1
      exact ⟨rfl, h3 (by rw [← h2]; exact hk), L, rfl, h2.symm⟩
  · right
    refine ⟨e, ?_⟩
    by_cases hx : ∃ L, s.lenses l = some L ∧ L.kind ≠ .none
    · obtain ⟨L, hl, hk⟩ := hx
      rw [setProjection_eq hl hk, runLens_lenses_ne _ e, preBind_lenses, Function.update_apply, if_neg e] at h
      exact h
    · rw [setProjection_none fun L hL => by by_contra hk; exact hx ⟨L, hL, hk⟩] at h; exact h

/-- Lenses belong to projections as planned. -/
def Planned (s : St) (a : Args) (u : St) : Prop := ∀ l L p, u.lenses l = some L → L.kind ≠ .none → L.proj = some p → Pair s a l p

/-- Distorting lenses are old. -/
def Old (s : St) (u : St) : Prop := ∀ l L, u.lenses l = some L → L.kind ≠ .none → ∃ L0, s.lenses l = some L0 ∧ L0.kind ≠ .none

theorem cameras_x {s : St} {a : Args} (ha : Apart s a) (cid : ℕ → ℕ) (ts : List (ℕ × ℕ × ℕ × ℕ))
    (hts : ∀ t ∈ ts, t.1 < a.size ∧ a.proj.entry 0 t.1 = some t.2.1 ∧ a.lens.entry a.newL t.1 = some t.2.2.2) {u : St} (hx : ReachX u)
    (hp : Planned s a u) (ho : Old s u)
    (h : ∀ t ∈ ts, u.projs t.2.1 ≠ none ∧ u.orients t.2.2.1 ≠ none ∧ u.lenses t.2.2.2 ≠ none) : ReachX (cameras u cid ts) := by
  induction ts generalizing u with
  | nil => exact hx
  | cons t ts ih =>
    have hok : u.ok (.newCam (cid t.1) t.2.1 t.2.2.1 t.2.2.2) := h t (by simp)
    have hk := step_keep hx.reach.struct hok
    obtain ⟨t1, t2, t3⟩ := hts t (by simp)
    have pair : ∀ L, u.lenses t.2.2.2 = some L → L.kind ≠ .none → Pair s a t.2.2.2 t.2.1 := by
      intro L hL hLk
      obtain ⟨L0, h1, h2⟩ := ho _ L hL hLk
      exact ⟨L0, h1, h2, Or.inr ⟨t.1, t1, t3, t2⟩⟩
    have hexcl : u.excl (.newCam (cid t.1) t.2.1 t.2.2.1 t.2.2.2) := by
      intro L hL hLk
      have hpair := pair L hL hLk
      refine ⟨?_, fun l' L' hne hl' hk' hpr => ?_⟩
      · cases hpr : L.proj with
        | none => exact Or.inl rfl
        | some p' =>
          right
          rw [(ha _ _ _ _ (hp _ L p' hL hLk hpr) hpair).1 rfl]
      · exact hne ((ha _ _ _ _ (hp _ L' _ hl' hk' hpr) hpair).2 rfl)
    refine ih (fun t' ht' => hts t' (by simp [ht'])) (.step hx hok hexcl) ?_ ?_ fun t' ht' => ?_
    · intro l L p hL hLk hpr
      rcases newCam_lenses hL hLk with ⟨rfl, e1, L1, e2, e3⟩ | ⟨-, e1⟩
      · rw [hpr] at e1; cases e1
        exact pair L1 e2 (by rw [e3]; exact hLk)
      · exact hp l L p e1 hLk hpr
    · intro l L hL hLk
      rcases newCam_lenses hL hLk with ⟨rfl, e1, L1, e2, e3⟩ | ⟨-, e1⟩
      · exact ho _ L1 e2 (by rw [e3]; exact hLk)
      · exact ho l L e1 hLk
    · obtain ⟨h1, h2, h3⟩ := h t' (by simp [ht'])
      exact ⟨hk.created (q := .p _ .f) h1, hk.created (q := .o _ .elev) h2, hk.created (q := .l _ .k1) h3⟩

theorem newLens_none_lenses {s : St} {l : ℕ} {args} {l' : ℕ} {L : LObj} (h : (s.step (.newLens l .none args)).lenses l' = some L) (hk : L.kind ≠ .none) :
    s.lenses l' = some L := by
  by_cases e : l' = l
  · subst e
    obtain ⟨L2, h1, h2⟩ := newLens_some s l' .none args
    rw [h] at h1; cases h1; exact absurd h2 hk
  · rw [newLens_lenses_ne _ _ _ _ e] at h; exact h

theorem defaults_x {s : St} (hx : ReachX s) {a : Args} (hu : Usable s a) : ReachX (defaults s a) ∧
    ∀ l L, (defaults s a).lenses l = some L → L.kind ≠ .none → s.lenses l = some L := by
  unfold defaults
  have h0 : ReachX (if a.orient = .none then s.step (.newOrient a.newO .thr fun _ => .none) else s) := by
    split_ifs
    · exact .step hx hu.newO trivial
    · exact hx
  have e0 : (if a.orient = .none then s.step (.newOrient a.newO .thr fun _ => .none) else s).lenses = s.lenses := by
    split_ifs
    · exact newOrient_lenses ..
    · rfl
  set s0 := if a.orient = .none then s.step (.newOrient a.newO .thr fun _ => .none) else s
  simp only
  split_ifs
  · refine ⟨.step h0 (by show s0.lenses a.newL = none; rw [e0]; exact hu.newL) trivial, fun l L h1 h2 => ?_⟩
    rw [← e0]; exact newLens_none_lenses h1 h2
  · exact ⟨h0, fun l L h1 _ => by rw [← e0]; exact h1⟩

theorem build_x {s : St} (hx : ReachX s) {a : Args} (hu : Usable s a) (hf : Fits a) (ha : Apart s a) {s' : St} {cs : List ℕ}
    (hb : build s a = some (s', cs)) : ReachX s' := by
  have hm := defaults_made hx.reach hu
  have r1 := hm.later.reach hx.reach
  have hok := gather_ok (s := defaults s a) (a := a) (by rw [hm.groups]; exact hu.newG)
  obtain ⟨x1, l1⟩ := defaults_x hx hu
  unfold build at hb
  rw [if_neg hu.proj] at hb
  simp only [Option.some.injEq, Prod.mk.injEq] at hb
  rw [← hb.1]
  refine cameras_x ha a.cid a.triples (fun t ht => ?_) (.step x1 hok trivial) ?_ ?_ fun t ht => ?_
  · obtain ⟨h1, h2, -, h4⟩ := fits_triple hf ht
    exact ⟨h1, h2, h4⟩
  · intro l L p hL hk hpr
    have : (defaults s a).lenses l = some L := hL
    exact ⟨L, l1 l L this hk, hk, Or.inl hpr⟩
  · intro l L hL hk
    exact ⟨L, l1 l L hL hk, hk⟩
  · obtain ⟨-, h1, h2, h3⟩ := mem_triples ht
    exact ⟨hm.ps _ (List.mem_of_getElem? h1), hm.os _ (List.mem_of_getElem? h2), hm.ls _ (List.mem_of_getElem? h3)⟩

theorem lensOf_brown (spline : LensModel.Spline) {s : St} {l p : ℕ} {L : LObj} (hL : s.lenses l = some L) (hk : L.kind = .brown)
    (hp : L.proj = some p) (hf : FreshL s l) :
    s.lensOf spline l = (LensModel.brown spline (s.intrOf p) (s.rd (.l l .k1)) (s.rd (.l l .k2)) (s.rd (.l l .k3))).lens := by
  have e := hf L hL (by rw [hk]; simp)
  obtain ⟨k, pr, sn⟩ := L
  simp only at hk hp e
  subst hk hp
  simp only [St.snapOf] at e
  simp only [St.lensOf, hL, LensModel.brown]
  rw [e]
  simp only [St.intrOf]

open Ex in
theorem s6_lens1_unbound {L : LObj} (h : s6.lenses 1 = some L) : L.proj = none := by
  have h' := (Pres.runLens (preLens s5 1 .brown fun _ => none) 1).lenses 1
  have e : ((preLens s5 1 .brown fun _ => none).runLens 1) = s6 := rfl
  rw [e, h] at h'
  simp only [preLens, Function.update_self, Option.map_some, Option.some.injEq, Prod.mk.injEq] at h'
  exact h'.2

open Ex in
theorem s6_lenses_other {l : ℕ} (h0 : l ≠ 0) (h1 : l ≠ 1) : s6.lenses l = none := by
  have e1 : s6.lenses l = s5.lenses l := newLens_lenses_ne s5 1 .brown (fun _ => none) h1
  have e2 : s5.lenses = (s3.setProjection 0 0).lenses := rfl
  obtain ⟨L, g1, g2, -⟩ := s3_lens
  rw [e1, e2, setProjection_eq g1 (by rw [g2]; simp), runLens_lenses_ne _ h0, preBind_lenses, Function.update_apply, if_neg h0]
  simp only [s3, St.step, newLens_eq, runLens_lenses_ne _ h0]
  simp only [preLens, Function.update_apply, if_neg h0]
  show s1.lenses l = none
  rw [s1_lenses]

end Group

/-- **C96** (partial: no distorting lens belongs to two projections, no projection to two distorting lenses, see `C96_violated`;
the projection was not built from a field of view) -/
theorem C96_cameras_independent_partial (spline : LensModel.Spline) {s : St} (hx : ReachX s) {a : Args} (hu : Usable s a) (hf : Fits a) (ha : Apart s a)
    (hp : ∀ p ∈ a.proj.ids 0, Plain s (.proj p)) :
    ∃ s' cs, build s a = some (s', cs) ∧ ReachX s' ∧ cs.length = a.size ∧ ∀ i < a.size, ∃ c p cam, cs[i]? = some c ∧ a.proj.entry 0 i = some p ∧
      s'.camNow spline c = some cam ∧ cam.intr = s'.intrOf p ∧
      ∀ pt hide, s'.imageFromSpace spline c pt hide = some (Camera.imageFromSpace cam pt hide) := by
  obtain ⟨s', cs, hb, hr', hlen, hnd, h⟩ := C73_one_camera_per_entry_partial hx.reach hu hf
  have hx' := build_x hx hu hf ha hb
  refine ⟨s', cs, hb, hx', hlen, fun i hi => ?_⟩
  obtain ⟨c, C, h1, h2, h3, -, -⟩ := h i hi
  obtain ⟨s1, s2, s'', hb', hm, hl1, hg, hl2, -⟩ := build_spec hx.reach hu
  rw [hb] at hb'; cases hb'
  have hkeep := ((hm.later.trans hl1).trans hl2).keep hx.reach
  have hCp : C.proj ∈ a.proj.ids 0 := by
    obtain ⟨v, v1, v2⟩ := entry_cycle (m := 0) hf.proj hi
    rw [h3] at v2; cases v2
    exact List.mem_of_getElem? v1
  obtain ⟨P, hP⟩ := Option.ne_none_iff_exists'.1 (hu.ps _ hCp)
  have hpl : Plain s' (.proj C.proj) := by
    intro p' P' e hP'
    cases e
    rw [hkeep.projs _ P hP] at hP'; cases hP'
    exact hp _ hCp _ P rfl hP
  obtain ⟨cam, g1, g2, -⟩ := C52_up_to_date_partial spline hx' h2 hpl
  refine ⟨c, C.proj, cam, h1, h3, g1, ?_, g2⟩
  have hP' := hkeep.projs _ P hP
  unfold St.camNow at g1
  rw [h2] at g1
  simp only [hP'] at g1
  split at g1
  · rename_i e1 e2 e3
    cases e1
    simp only [Option.some.injEq] at g1
    rw [← g1]
    simp only [St.intrOf, projWidth_plain hP' (hpl _ P rfl hP'), projHeight_plain hP' (hpl _ P rfl hP')]
  · cases g1

/-- Two projections with a Brown lens each. -/
example : ∃ (s : St) (a : Args), ReachX s ∧ Usable s a ∧ Fits a ∧ Apart s a ∧ (∀ p ∈ a.proj.ids 0, Plain s (.proj p)) ∧ a.size = 2 := by
  obtain ⟨L0, l1, l2, l3⟩ := s6_lenses0
  refine ⟨Ex.s6, ⟨.many [0, 1], .one 0, .many [0, 1], 7, 7, 0, id⟩, Ex.reachX6, usable6 (by simp) (by simp [Arg.ids]) (by simp [Arg.ids]) (by simp [Arg.ids]),
    ⟨by simp [Args.size, Arg.number], by simp [Arg.number], by simp [Args.size, Arg.number], by simp [Args.lastNumber, Args.size, Arg.number]⟩,
    ?_, ?_, by simp [Args.size, Arg.number]⟩
  · have H : ∀ l p, Pair Ex.s6 ⟨.many [0, 1], .one 0, .many [0, 1], 7, 7, 0, id⟩ l p → l = p := by
      rintro l p ⟨L, h1, h2, h3 | ⟨i, hi, h4, h5⟩⟩
      · have e1 : Ex.s6.lenses l = _ := h1
        by_cases e : l = 1
        · subst e; rw [s6_lens1_unbound h1] at h3; cases h3
        · by_cases e' : l = 0
          · subst e'; rw [l1] at h1; cases h1; rw [l3] at h3; cases h3; rfl
          · rw [s6_lenses_other e' e] at h1; cases h1
      · simp only [Arg.entry] at h4 h5
        rw [h4] at h5; exact Option.some.inj h5
    intro l p l' p' h h'
    rw [H l p h, H l' p' h']
  · intro p hp p' P e hP
    cases e
    have : p = 0 ∨ p = 1 := by simpa [Arg.ids] using hp
    rcases this with rfl | rfl
    · rw [Ex.keep46.projs _ _ Ex.s4_projs] at hP; cases hP; rfl
    · rw [Ex.s6_projs1] at hP; cases hP; rfl

/-- **C96 is violated**: if a group is built from several projections and one Brown lens, every camera distorts its image with the focal
lengths and the centre of the last projection. -/
theorem C96_violated (spline : LensModel.Spline) {s : St} (hr : Reach s) {a : Args} (hu : Usable s a) (hf : Fits a) {l : ℕ} (hl : a.lens = .one l)
    {L : LObj} (hL : s.lenses l = some L) (hk : L.kind = .brown) {n : ℕ} (hn : a.size = n + 1) {q : ℕ} (hq : a.proj.entry 0 n = some q) :
    ∃ s' cs, build s a = some (s', cs) ∧ ∀ i < a.size, ∃ c C P O, cs[i]? = some c ∧ s'.cams c = some C ∧ a.proj.entry 0 i = some C.proj ∧
      s'.projs C.proj = some P ∧ s'.orients C.orient = some O ∧
      ∀ pt hide, s'.imageFromSpace spline c pt hide =
        some ((LensModel.brown spline (s'.intrOf q) (s'.rd (.l l .k1)) (s'.rd (.l l .k2)) (s'.rd (.l l .k3))).lens.distortedFromImage
          (Projection.imageFromCamera P.kind (s'.intrOf C.proj) (Spatial.cameraFromSpace O.mat pt) hide)) := by
  obtain ⟨s', cs, hb, hr', hlen, hnd, h⟩ := C73_one_camera_per_entry_partial hr hu hf
  obtain ⟨s1, s2, s'', hb', hm, hl1, hg, hl2, e⟩ := build_spec hr hu
  have hs : s' = s'' := by rw [hb] at hb'; cases hb'; rfl
  subst hs
  have H : ∀ i, ∃ v : ℕ × ℕ × ℕ, i < a.n → a.ps[i % a.ps.length]? = some v.1 ∧ a.os[i % a.os.length]? = some v.2.1 ∧ a.ls[i % a.ls.length]? = some v.2.2 := by
    intro i
    by_cases hi : i < a.n
    · rw [n_eq, hf.last] at hi
      obtain ⟨p, p1, -⟩ := entry_cycle (m := 0) hf.proj hi
      obtain ⟨o, o1, -⟩ := entry_cycle (m := a.newO) hf.orient hi
      obtain ⟨l, l1, -⟩ := entry_cycle (m := a.newL) hf.lens hi
      exact ⟨(p, o, l), fun _ => ⟨p1, o1, l1⟩⟩
    · exact ⟨(0, 0, 0), fun h => absurd h hi⟩
  choose g hg' using H
  have ht := triples_eq (a := a) (g := g) hg'
  rw [n_eq, hf.last, hn, List.range_succ, List.map_append] at ht
  have hgn := fits_triple hf (t := (n, g n)) (by rw [ht]; simp)
  obtain ⟨-, t2, -, t4⟩ := hgn
  simp only at t2 t4
  rw [hq] at t2
  have hq' : (g n).1 = q := by simpa using t2.symm
  have hl' : (g n).2.2 = l := by rw [hl] at t4; simpa [Arg.entry] using t4.symm
  -- the state before the last camera
  set ts := (List.range n).map fun i => (i, g i) with hts
  set u := cameras s2 a.cid ts with hu'
  have es : s' = u.step (.newCam (a.cid n) q (g n).2.1 l) := by
    rw [e, ht]
    unfold cameras
    rw [List.foldl_append]
    simp only [List.map_cons, List.map_nil, List.foldl_cons, List.foldl_nil, hq', hl']
    rfl
  have hr2 := hl1.reach (hm.later.reach hr)
  have hk2 := (hm.later.trans hl1).keep hr
  have hlu : Later s2 u := cameras_later _ hr2 fun t htm => by
    have htm' : t ∈ a.triples := by rw [ht]; exact List.mem_append_left _ htm
    obtain ⟨-, h1, h2, h3⟩ := mem_triples htm'
    have hk' := hl1.keep (hm.later.reach hr)
    exact ⟨hk'.created (q := .p _ .f) (hm.ps _ (List.mem_of_getElem? h1)), hk'.created (q := .o _ .elev) (hm.os _ (List.mem_of_getElem? h2)),
      hk'.created (q := .l _ .k1) (hm.ls _ (List.mem_of_getElem? h3))⟩
  obtain ⟨L2, hL2, hk2', -⟩ := hk2.lenses l L hL
  obtain ⟨Lu, hLu, hku, -⟩ := (hlu.keep hr2).lenses l L2 hL2
  have hku : Lu.kind = .brown := by rw [hku, hk2', hk]
  have hk0 : Lu.kind ≠ .none := by rw [hku]; simp
  obtain ⟨L', h1, h2, h3⟩ := setProjection_lens (p := q) hLu
  have hfr : FreshL (u.setProjection l q) l := by
    rw [setProjection_eq hLu hk0]; exact freshL_runLens _ _
  have hfr' : FreshL s' l := by
    rw [es]
    exact hfr.congr rfl rfl (fun f => rfl) fun _ _ _ _ _ _ _ => rfl
  have hL' : s'.lenses l = some L' := by rw [es]; exact h1
  have hlens := lensOf_brown spline hL' (h2.trans hku) (h3 hk0) hfr'
  refine ⟨s', cs, hb, fun i hi => ?_⟩
  obtain ⟨c, C, c1, c2, c3, -, c5⟩ := h i hi
  obtain ⟨P, O, -, hP, hO, -⟩ := hr'.dicts.cam c C c2
  refine ⟨c, C, P, O, c1, c2, c3, hP, hO, fun pt hide => ?_⟩
  have hCl : C.lens = l := by rw [hl] at c5; simpa [Arg.entry] using c5.symm
  simp only [St.imageFromSpace, c2, hP, hO]
  rw [hCl, hlens]

/-- Two projections with different focal lengths and one Brown lens. -/
example : ∃ (s : St) (a : Args) (L : LObj), Reach s ∧ Usable s a ∧ Fits a ∧ a.lens = .one 0 ∧ s.lenses 0 = some L ∧ L.kind = .brown ∧ a.size = 1 + 1 ∧
    a.proj.entry 0 1 = some 1 ∧ s.rd (.p 0 .fx) ≠ s.rd (.p 1 .fx) := by
  obtain ⟨L0, l1, l2, l3⟩ := s6_lenses0
  refine ⟨Ex.s6, ⟨.many [0, 1], .many [0, 0], .one 0, 7, 7, 0, id⟩, L0, Ex.reachX6.reach, usable6 (by simp) (by simp [Arg.ids]) (by simp [Arg.ids]) (by simp [Arg.ids]),
    ⟨by simp [Args.size, Arg.number], by simp [Args.size, Arg.number], by simp [Arg.number], by simp [Args.lastNumber, Args.size, Arg.number]⟩, rfl, l1, l2,
    by simp [Args.size, Arg.number], by simp [Arg.entry], ?_⟩
  rw [Ex.s6_fx0, Ex.s6_fx1]; norm_num
