import Verif.Proofs.Group
import Verif.Spec.Group

/-! # Properties of groups of cameras -/

set_option linter.constructorNameAsVariable false

open Classical Sys Group

namespace Group

theorem ids_length (x : Arg) (m : ℕ) : (x.ids m).length = x.number := by cases x <;> rfl

theorem n_eq (a : Args) : a.n = a.lastNumber := by
  obtain ⟨p, o, l, _, _, _, _⟩ := a
  unfold Args.n Args.lastNumber
  cases l <;> cases o <;> cases p <;> rfl

theorem number_le_size (a : Args) : a.proj.number ≤ a.size ∧ a.orient.number ≤ a.size ∧ a.lens.number ≤ a.size := by
  unfold Args.size; omega

theorem entry_cycle {x : Arg} {m i n : ℕ} (hx : x.number = n ∨ x.number = 1) (hi : i < n) :
    ∃ v, (x.ids m)[i % (x.ids m).length]? = some v ∧ x.entry m i = some v := by
  cases x with
  | none => exact ⟨m, by simp [Arg.ids, Nat.mod_one], rfl⟩
  | one y => exact ⟨y, by simp [Arg.ids, Nat.mod_one], rfl⟩
  | many l =>
    simp only [Arg.number] at hx
    simp only [Arg.ids]
    rcases hx with hx | hx
    · have hl : i < l.length := by omega
      refine ⟨l[i], by rw [Nat.mod_eq_of_lt hl, List.getElem?_eq_getElem hl], ?_⟩
      match l, hl with
      | [y], hl =>
        have : i = 0 := by simpa using hl
        subst this; rfl
      | y :: z :: t, hl => simp only [Arg.entry, List.getElem?_eq_getElem hl]
    · obtain ⟨y, rfl⟩ := List.length_eq_one_iff.1 hx
      exact ⟨y, by simp [Nat.mod_one], rfl⟩

theorem triples_eq {a : Args} {g : ℕ → ℕ × ℕ × ℕ}
    (h : ∀ i < a.n, a.ps[i % a.ps.length]? = some (g i).1 ∧ a.os[i % a.os.length]? = some (g i).2.1 ∧ a.ls[i % a.ls.length]? = some (g i).2.2) :
    a.triples = (List.range a.n).map fun i => (i, g i) := by
  unfold Args.triples
  rw [← List.filterMap_eq_map]
  refine List.filterMap_congr fun i hi => ?_
  obtain ⟨h1, h2, h3⟩ := h i (List.mem_range.1 hi)
  rw [h1, h2, h3]; rfl

theorem cycle_some {l : List ℕ} (h : l ≠ []) (i : ℕ) : ∃ v, l[i % l.length]? = some v := by
  have : i % l.length < l.length := Nat.mod_lt _ (List.length_pos_iff.2 h)
  exact ⟨_, List.getElem?_eq_getElem this⟩

end Group

/-- **C73** (partial: lists of one other length than 1, the last list given has this length; see `C73_violated`) -/
theorem C73_one_camera_per_entry_partial {s : St} (hr : Reach s) {a : Args} (hu : Usable s a) (hf : Fits a) :
    ∃ s' cs, build s a = some (s', cs) ∧ Reach s' ∧ cs.length = a.size ∧ cs.Nodup ∧ ∀ i < a.size, ∃ c C, cs[i]? = some c ∧ s'.cams c = some C ∧
      a.proj.entry 0 i = some C.proj ∧ a.orient.entry a.newO i = some C.orient ∧ a.lens.entry a.newL i = some C.lens := by
  obtain ⟨s1, s2, s', hb, hm, hl1, hg, hl2, e⟩ := build_spec hr hu
  have hn : a.n = a.size := (n_eq a).trans hf.last
  have H : ∀ i, ∃ v : ℕ × ℕ × ℕ, i < a.n → (a.ps[i % a.ps.length]? = some v.1 ∧ a.os[i % a.os.length]? = some v.2.1 ∧ a.ls[i % a.ls.length]? = some v.2.2) ∧
      a.proj.entry 0 i = some v.1 ∧ a.orient.entry a.newO i = some v.2.1 ∧ a.lens.entry a.newL i = some v.2.2 := by
    intro i
    by_cases hi : i < a.n
    · rw [hn] at hi
      obtain ⟨p, p1, p2⟩ := entry_cycle (m := 0) hf.proj hi
      obtain ⟨o, o1, o2⟩ := entry_cycle (m := a.newO) hf.orient hi
      obtain ⟨l, l1, l2⟩ := entry_cycle (m := a.newL) hf.lens hi
      exact ⟨(p, o, l), fun _ => ⟨⟨p1, o1, l1⟩, p2, o2, l2⟩⟩
    · exact ⟨(0, 0, 0), fun h => absurd h hi⟩
  choose g hg' using H
  have ht := triples_eq (a := a) (g := g) fun i hi => (hg' i hi).1
  refine ⟨s', _, hb, hl2.reach (hl1.reach (hm.later.reach hr)), ?_, ?_, fun i hi => ?_⟩
  · rw [ht]; simp [hn]
  · rw [ht, List.map_map]
    exact (List.nodup_range).map (fun i j h => hu.cid h)
  · have hi' : i < a.n := by rw [hn]; exact hi
    have hmem : (i, g i) ∈ a.triples := by rw [ht]; exact List.mem_map.2 ⟨i, List.mem_range.2 hi', rfl⟩
    have hnd : (a.triples.map (·.1)).Nodup := by
      rw [ht, List.map_map]; exact List.nodup_range.map fun i j h => h
    obtain ⟨d, hd⟩ := cameras_cams hu.cid a.triples s2 hnd hmem
    refine ⟨a.cid i, _, ?_, by rw [e]; exact hd, (hg' i hi').2⟩
    rw [ht]; simp [hi']

/-- Two cameras with one projection and a list of orientations. -/
example : ∃ (s : St) (a : Args), Reach s ∧ Usable s a ∧ Fits a ∧ a.size = 2 :=
  ⟨Ex.s6, ⟨.one 0, .many [0, 0], .none, 7, 7, 0, id⟩, Ex.reachX6.reach, usable6 (by simp) (by simp [Arg.ids]) (by simp [Arg.ids]) (by simp [Arg.ids]),
    ⟨by simp [Arg.number], by simp [Args.size, Arg.number], by simp [Arg.number], by simp [Args.lastNumber, Args.size, Arg.number]⟩,
    by simp [Args.size, Arg.number]⟩

/-- **C73 is violated**: the number of cameras is the length of the list given last, whatever the others are. -/
theorem C73_violated {s : St} (hr : Reach s) {a : Args} (hu : Usable s a)
    (hp : a.proj.number ≠ 0) (ho : a.orient.number ≠ 0) (hl : a.lens.number ≠ 0) (hlast : a.lastNumber ≠ a.size) :
    ∃ s' cs, build s a = some (s', cs) ∧ cs.length = a.lastNumber ∧ cs.length < a.size := by
  obtain ⟨s1, s2, s', hb, -⟩ := build_spec hr hu
  have ne : ∀ (x : Arg) m, x.number ≠ 0 → x.ids m ≠ [] := fun x m h e => h (by rw [← ids_length x m, e]; rfl)
  have H : ∀ i, ∃ v : ℕ × ℕ × ℕ, a.ps[i % a.ps.length]? = some v.1 ∧ a.os[i % a.os.length]? = some v.2.1 ∧ a.ls[i % a.ls.length]? = some v.2.2 := by
    intro i
    obtain ⟨p, hp⟩ := cycle_some (ne a.proj 0 hp) i
    obtain ⟨o, ho⟩ := cycle_some (ne a.orient a.newO ho) i
    obtain ⟨l, hl⟩ := cycle_some (ne a.lens a.newL hl) i
    exact ⟨(p, o, l), hp, ho, hl⟩
  choose g hg using H
  have ht := triples_eq (a := a) (g := g) fun i _ => hg i
  have hlen : (a.triples.map fun t => a.cid t.1).length = a.lastNumber := by rw [ht]; simp [n_eq]
  refine ⟨s', _, hb, hlen, ?_⟩
  rw [hlen]
  refine lt_of_le_of_ne ?_ hlast
  obtain ⟨h1, h2, h3⟩ := number_le_size a
  unfold Args.lastNumber
  split
  · rename_i l h; rw [h] at h3; exact h3
  · rename_i l h _; rw [h] at h2; exact h2
  · exact h1

/-- Two projections and a list with one lens. -/
example : ∃ (s : St) (a : Args), Reach s ∧ Usable s a ∧ a.proj.number ≠ 0 ∧ a.orient.number ≠ 0 ∧ a.lens.number ≠ 0 ∧ a.lastNumber ≠ a.size :=
  ⟨Ex.s6, ⟨.many [0, 1], .one 0, .many [0], 7, 7, 0, id⟩, Ex.reachX6.reach, usable6 (by simp) (by simp [Arg.ids]) (by simp [Arg.ids]) (by simp [Arg.ids]),
    by simp [Arg.number], by simp [Arg.number], by simp [Arg.number], by simp [Args.lastNumber, Args.size, Arg.number]⟩

/-! ### names -/

namespace Group

theorem look_p {s s1 : St} {a : Args} (hm : Made s s1 a) (hf : Free s a) {i p : ℕ} (hp : a.ps[i]? = some p) (f : PField) :
    (gather s1 a).lookup (title a.proj.number i f.name) = some (.p p f) := by
  rw [gather_lookup]
  have hlen : a.proj.number = (a.ps.map View.proj).length := by rw [List.length_map]; exact (ids_length _ _).symm
  have hmem : (f.name, Pid.p p f) ∈ s1.dict (.proj p) := by
    obtain ⟨P, hP⟩ := Option.ne_none_iff_exists'.1 (hm.ps p (List.mem_of_getElem? hp))
    simp only [St.dict, hP]; exact lookup_mem (projDict_lookup p f)
  refine lookup_unique (List.mem_reverse.2 ?_) fun q' h' => ?_
  · unfold allPairs
    simp only [List.mem_append]
    left; left
    rw [mem_pairs]
    exact ⟨i, .proj p, f.name, by simp [hp], hmem, by rw [hlen]⟩
  · have h' := List.mem_reverse.1 h'
    unfold allPairs at h'
    simp only [List.mem_append, mem_pairs, List.getElem?_map, Option.map_eq_some_iff] at h'
    rcases h' with (⟨j, v, n, ⟨p', hp', rfl⟩, h, e⟩ | ⟨j, v, n, ⟨o', ho', rfl⟩, h, e⟩) | ⟨j, v, n, ⟨l, hl, rfl⟩, h, e⟩
    · obtain ⟨-, f', rfl, rfl⟩ := mem_proj h
      obtain ⟨e1, -, e3⟩ := title_inj (small_p f) (small_p f') e
      rw [p_inj e1]
      by_cases h1 : a.proj.number = 1
      · have : a.ps.length = 1 := by rw [hlen] at h1; simpa using h1
        obtain ⟨y, hy⟩ := List.length_eq_one_iff.1 this
        have a1 := List.mem_of_getElem? hp
        have a2 := List.mem_of_getElem? hp'
        rw [hy] at a1 a2
        rw [List.mem_singleton.1 a1, List.mem_singleton.1 a2]
      · rw [e3 h1, hp'] at hp; cases hp; rfl
    · obtain ⟨O, -, f', rfl, rfl⟩ := mem_orient h
      exact absurd (title_inj (small_p f) (small_o _ f') e).1.symm (o_ne_p _ _ _)
    · obtain ⟨L, hL, hk, h⟩ := mem_lens h
      rcases h with ⟨f', rfl, rfl⟩ | ⟨p', f', hf', hpr, rfl, rfl⟩
      · exact absurd (title_inj (small_p f) (small_l _ f') e).1 (p_ne_l _ _ _ hk)
      · obtain ⟨e1, e2, e3⟩ := title_inj (small_p f) (small_p f') e
        rw [p_inj e1]
        have hL' := hm.lens l (List.mem_of_getElem? hl) L hL hk
        rw [List.length_map] at e2
        have e2' : a.proj.number = 1 ↔ a.lens.number = 1 := by
          rw [e2, ← ids_length a.lens a.newL]; rfl
        have hij : i = j := by
          by_cases h1 : a.proj.number = 1
          · have : a.ps.length = 1 := by rw [hlen] at h1; simpa using h1
            have h2 : a.ls.length = 1 := e2.1 h1
            have b1 := (List.getElem?_eq_some_iff.1 hp).1
            have b2 := (List.getElem?_eq_some_iff.1 hl).1
            omega
          · exact e3 h1
        subst hij
        have := hf i l L p p' hl hL' hk hpr e2' hp
        rw [this]

theorem look_o {s1 : St} {a : Args} {i o : ℕ} {O : OObj} (hp : a.os[i]? = some o) (hO : s1.orients o = some O) (f : OField) :
    (gather s1 a).lookup (title a.orient.number i (f.name O.kind)) = some (.o o f) := by
  rw [gather_lookup]
  have hlen : a.orient.number = (a.os.map View.orient).length := by rw [List.length_map]; exact (ids_length _ _).symm
  have hmem : (f.name O.kind, Pid.o o f) ∈ s1.dict (.orient o) := by
    simp only [St.dict, hO]; exact lookup_mem (orientDict_lookup _ o f)
  refine lookup_unique (List.mem_reverse.2 ?_) fun q' h' => ?_
  · unfold allPairs
    simp only [List.mem_append]
    left; right
    rw [mem_pairs]
    exact ⟨i, .orient o, f.name O.kind, by simp [hp], hmem, by rw [hlen]⟩
  · have h' := List.mem_reverse.1 h'
    unfold allPairs at h'
    simp only [List.mem_append, mem_pairs, List.getElem?_map, Option.map_eq_some_iff] at h'
    rcases h' with (⟨j, v, n, ⟨p', hp', rfl⟩, h, e⟩ | ⟨j, v, n, ⟨o', ho', rfl⟩, h, e⟩) | ⟨j, v, n, ⟨l, hl, rfl⟩, h, e⟩
    · obtain ⟨-, f', rfl, rfl⟩ := mem_proj h
      exact absurd (title_inj (small_o _ f) (small_p f') e).1 (o_ne_p _ _ _)
    · obtain ⟨O', hO', f', rfl, rfl⟩ := mem_orient h
      obtain ⟨e1, -, e3⟩ := title_inj (small_o _ f) (small_o _ f') e
      have hoo : o = o' := by
        by_cases h1 : a.orient.number = 1
        · have : a.os.length = 1 := by rw [hlen] at h1; simpa using h1
          obtain ⟨y, hy⟩ := List.length_eq_one_iff.1 this
          have a1 := List.mem_of_getElem? hp
          have a2 := List.mem_of_getElem? ho'
          rw [hy] at a1 a2
          rw [List.mem_singleton.1 a1, List.mem_singleton.1 a2]
        · rw [e3 h1, ho'] at hp; cases hp; rfl
      subst hoo
      rw [hO] at hO'; cases hO'
      rw [o_inj e1]
    · obtain ⟨L, hL, hk, h⟩ := mem_lens h
      rcases h with ⟨f', rfl, rfl⟩ | ⟨p', f', hf', hpr, rfl, rfl⟩
      · exact absurd (title_inj (small_o _ f) (small_l _ f') e).1 (o_ne_l _ _ _ _ hk)
      · exact absurd (title_inj (small_o _ f) (small_p f') e).1 (o_ne_p _ _ _)

/-- The names of a lens win. -/
theorem look_l {s1 : St} {a : Args} {i l : ℕ} (hl : a.ls[i]? = some l) {n : String} {q : Pid}
    (h : (n, q) ∈ s1.dict (.lens l)) : (gather s1 a).lookup (title a.lens.number i n) = some q := by
  have hlen : a.lens.number = (a.ls.map View.lens).length := by rw [List.length_map]; exact (ids_length _ _).symm
  have hs : ∀ {l n q}, (n, q) ∈ s1.dict (.lens l) → Small n := by
    intro l n q h
    obtain ⟨L, hL, hk, h⟩ := mem_lens h
    rcases h with ⟨f', rfl, rfl⟩ | ⟨p', f', hf', hpr, rfl, rfl⟩
    · exact small_l _ _
    · exact small_p _
  have hC : (pairs s1 (a.ls.map View.lens)).reverse.lookup (title a.lens.number i n) = some q := by
    refine lookup_unique (List.mem_reverse.2 ?_) fun q' h' => ?_
    · rw [mem_pairs]; exact ⟨i, .lens l, n, by simp [hl], h, by rw [hlen]⟩
    · have h' := List.mem_reverse.1 h'
      simp only [mem_pairs, List.getElem?_map, Option.map_eq_some_iff] at h'
      obtain ⟨j, v, n', ⟨l', hl', rfl⟩, h2, e⟩ := h'
      obtain ⟨e1, -, e3⟩ := title_inj (hs h) (hs h2) e
      subst e1
      have hoo : l = l' := by
        by_cases h1 : a.lens.number = 1
        · have : a.ls.length = 1 := by rw [hlen] at h1; simpa using h1
          obtain ⟨y, hy⟩ := List.length_eq_one_iff.1 this
          have a1 := List.mem_of_getElem? hl
          have a2 := List.mem_of_getElem? hl'
          rw [hy] at a1 a2
          rw [List.mem_singleton.1 a1, List.mem_singleton.1 a2]
        · rw [e3 h1, hl'] at hl; cases hl; rfl
      subst hoo
      have b1 := part_lookup (Or.inr (Or.inr ⟨l, rfl⟩)) h
      rw [part_lookup (Or.inr (Or.inr ⟨l, rfl⟩)) h2] at b1
      cases b1; rfl
  rw [gather_lookup]
  unfold allPairs
  rw [List.reverse_append, List.lookup_append, hC]; rfl

theorem shows_of {t : St} {g : ℕ} {m n : String} {w : View} {q : Pid} (h1 : (t.dict (.group g)).lookup m = some q)
    (h2 : (t.dict w).lookup n = some q) (h3 : t.getattr w n = ((t.dict w).lookup n).map fun q => (t.par q).read) : Shows t (.group g) m w n := by
  refine ⟨?_, ⟨q, h1⟩, fun x b => ?_, fun μ σ => ?_, fun x => ?_⟩
  · rw [h3, getattr_eq (fun _ _ h => by cases h), h1, h2]
  · simp only [St.step, h1, h2]
  · simp only [St.step, h1, h2]
  · simp only [St.step, h1, h2]

theorem own_mem {s : St} {l : ℕ} {L : LObj} (hL : s.lenses l = some L) (hk : L.kind ≠ .none) (f : LField) : (f.name L.kind, Pid.l l f) ∈ s.dict (.lens l) := by
  simp only [St.dict, hL]; exact lookup_mem (lensDict_lookup hk l _ f)

theorem group_dict {t : St} {g : ℕ} {d : Dict} (h : t.groups g = some d) : t.dict (.group g) = d := by simp only [St.dict, h]; rfl

end Group

/-- **C74** (partial: a projection's names are hidden by those of a lens that already belonged to another projection, see
`C74_violated`; the size of the image of a projection built from a field of view is hidden by an attribute of the projection) -/
theorem C74_group_names_partial {s : St} (hr : Reach s) {a : Args} (hu : Usable s a) :
    ∃ s' cs, build s a = some (s', cs) ∧ ∀ t, Later s' t →
      (Free s a → ∀ (i p : ℕ), (a.proj.ids 0)[i]? = some p → ∀ f : PField, (f = .iw ∨ f = .ih → Plain s (.proj p)) →
        Shows t (.group a.g) (title a.proj.number i f.name) (.proj p) f.name) ∧
      (∀ (i o : ℕ) O, (a.orient.ids a.newO)[i]? = some o → t.orients o = some O → ∀ f : OField,
        Shows t (.group a.g) (title a.orient.number i (f.name O.kind)) (.orient o) (f.name O.kind)) ∧
      (∀ (i l : ℕ) L, (a.lens.ids a.newL)[i]? = some l → t.lenses l = some L → L.kind ≠ .none → ∀ f : LField,
        Shows t (.group a.g) (title a.lens.number i (f.name L.kind)) (.lens l) (f.name L.kind)) := by
  obtain ⟨s1, s2, s', hb, hm, hl1, hg, hl2, -⟩ := build_spec hr hu
  have r1 := hm.later.reach hr
  refine ⟨s', _, hb, fun t ht => ?_⟩
  have hlt : Later s1 t := (hl1.trans hl2).trans ht
  have hkt := hlt.keep r1
  have rt := hlt.reach r1
  have hgt := group_dict ((hl2.trans ht).groups (hl1.reach r1) hg)
  refine ⟨fun hf i p hp f hpl => ?_, fun i o O ho hO f => ?_, fun i l L hl hL hk f => ?_⟩
  · obtain ⟨P, hP⟩ := Option.ne_none_iff_exists'.1 (hu.ps p (List.mem_of_getElem? hp))
    have hPt := hkt.projs p P ((hm.later.keep hr).projs p P hP)
    have hd : (t.dict (.proj p)).lookup f.name = some (.p p f) := by simp only [St.dict, hPt]; exact projDict_lookup p f
    refine shows_of (by rw [hgt]; exact look_p hm hf hp f) hd ?_
    by_cases hh : f = .iw ∨ f = .ih
    · refine getattr_eq (fun p' P' e hP' => ?_) _
      cases e
      rw [hPt] at hP'; cases hP'
      exact hpl hh p P rfl hP
    · rw [not_or] at hh
      exact getattr_other (fun e => hh.1 (p_inj e)) (fun e => hh.2 (p_inj e))
  · obtain ⟨O1, hO1⟩ := Option.ne_none_iff_exists'.1 (hm.os o (List.mem_of_getElem? ho))
    obtain ⟨O2, hO2, e2⟩ := hkt.orients o O1 hO1
    rw [hO] at hO2; cases hO2
    have hd : (t.dict (.orient o)).lookup (f.name O.kind) = some (.o o f) := by simp only [St.dict, hO]; exact orientDict_lookup _ o f
    exact shows_of (by rw [hgt, e2]; exact look_o ho hO1 f) hd (getattr_eq (plain_orient _ _) _)
  · obtain ⟨L1, hL1⟩ := Option.ne_none_iff_exists'.1 (hm.ls l (List.mem_of_getElem? hl))
    obtain ⟨L2, hL2, e2, -⟩ := hkt.lenses l L1 hL1
    rw [hL] at hL2; cases hL2
    have hd : (t.dict (.lens l)).lookup (f.name L.kind) = some (.l l f) := part_lookup (Or.inr (Or.inr ⟨l, rfl⟩)) (own_mem hL hk f)
    refine shows_of (by rw [hgt, e2]; exact look_l hl (own_mem hL1 (by rw [← e2]; exact hk) f)) hd (getattr_eq (plain_lens _ _) _)

/-- Two projections, the lenses belong to them or to none. -/
example : ∃ (s : St) (a : Args), Reach s ∧ Usable s a ∧ Free s a ∧ (a.proj.ids 0)[1]? = some 1 ∧ (∀ p ∈ a.proj.ids 0, Plain s (.proj p)) := by
  refine ⟨Ex.s6, ⟨.many [0, 1], .one 0, .many [0, 1], 7, 7, 0, id⟩, Ex.reachX6.reach,
    usable6 (by simp) (by simp [Arg.ids]) (by simp [Arg.ids]) (by simp [Arg.ids]), ?_, rfl, ?_⟩
  · intro i l L p p' hl hL hk hpr _ hp
    simp only [Arg.ids] at hl hp
    match i with
    | 0 =>
      cases hl; cases hp
      obtain ⟨L', h1, -, h3⟩ := s6_lenses0
      rw [h1] at hL; cases hL; rw [h3] at hpr; cases hpr; rfl
    | 1 =>
      cases hl; cases hp
      have h := (Pres.runLens (preLens Ex.s5 1 .brown fun _ => none) 1).lenses 1
      have e : ((preLens Ex.s5 1 .brown fun _ => none).runLens 1) = Ex.s6 := rfl
      rw [e, hL] at h
      simp only [preLens, Function.update_self, Option.map_some, Option.some.injEq, Prod.mk.injEq] at h
      rw [h.2] at hpr; cases hpr
    | n + 2 => simp at hl
  · intro p hp p' P e hP
    cases e
    simp only [Arg.ids, List.mem_cons, List.not_mem_nil, or_false] at hp
    rcases hp with rfl | rfl
    · rw [Ex.keep46.projs _ _ Ex.s4_projs] at hP; cases hP; rfl
    · rw [Ex.s6_projs1] at hP; cases hP; rfl

/-- **C74 is violated**: if the `i`-th lens was used with another projection before, the name of a parameter of the `i`-th
projection belongs to that other projection; an assignment changes that one and not the `i`-th. -/
theorem C74_violated {s : St} (hr : Reach s) {a : Args} (hu : Usable s a) {i l p p' : ℕ} {L : LObj}
    (hl : (a.lens.ids a.newL)[i]? = some l) (hL : s.lenses l = some L) (hk : L.kind ≠ .none) (hpr : L.proj = some p')
    (hn : a.proj.number = 1 ↔ a.lens.number = 1) (hp : (a.proj.ids 0)[i]? = some p) (hne : p ≠ p') {f : PField} (hf : f ∈ [PField.fx, .fy, .cx, .cy]) :
    ∃ s' cs, build s a = some (s', cs) ∧ ∀ t, Later s' t →
      Shows t (.group a.g) (title a.proj.number i f.name) (.proj p') f.name ∧
      ∀ x b, (t.step (.set (.group a.g) (title a.proj.number i f.name) (some x) b)).getattr (.proj p') f.name = some (some x) ∧
        (t.step (.set (.group a.g) (title a.proj.number i f.name) (some x) b)).getattr (.proj p) f.name = t.getattr (.proj p) f.name := by
  obtain ⟨s1, s2, s', hb, hm, hl1, hg, hl2, -⟩ := build_spec hr hu
  have r1 := hm.later.reach hr
  refine ⟨s', _, hb, fun t ht => ?_⟩
  have hlt : Later s1 t := (hl1.trans hl2).trans ht
  have hkt := hlt.keep r1
  have rt := hlt.reach r1
  have hgt := group_dict ((hl2.trans ht).groups (hl1.reach r1) hg)
  have hfl : f ∈ PField.lens := by
    simp only [List.mem_cons, List.not_mem_nil, or_false] at hf
    rcases hf with rfl | rfl | rfl | rfl <;> simp [PField.lens]
  have hL1 := hm.same l (List.mem_of_getElem? hl) L hL
  have hmem : (f.name, Pid.p p' f) ∈ s1.dict (.lens l) := by
    simp only [St.dict, hL1, hpr]; exact lookup_mem (lensDict_lookup_p hk l p' hfl)
  have htitle : title a.proj.number i f.name = title a.lens.number i f.name := by
    unfold title; simp only [hn]
  have hlook : (t.dict (.group a.g)).lookup (title a.proj.number i f.name) = some (.p p' f) := by
    rw [hgt, htitle]; exact look_l hl hmem
  have hp'c : s1.projs p' ≠ none := r1.dicts.lens l L p' hL1 hpr
  have proj_look : ∀ {u : St} {p : ℕ}, u.projs p ≠ none → (u.dict (.proj p)).lookup f.name = some (.p p f) := by
    intro u p h
    obtain ⟨P, hP⟩ := Option.ne_none_iff_exists'.1 h
    simp only [St.dict, hP]; exact projDict_lookup p f
  have hnw : f.name ≠ PField.name .iw ∧ f.name ≠ PField.name .ih := by
    simp only [List.mem_cons, List.not_mem_nil, or_false] at hf
    rcases hf with rfl | rfl | rfl | rfl <;> simp [PField.name]
  have hp't : t.projs p' ≠ none := hkt.created (q := .p p' .f) hp'c
  have hpt : t.projs p ≠ none := (hm.later.trans hlt).keep hr |>.created (q := .p p .f) (hu.ps p (List.mem_of_getElem? hp))
  refine ⟨shows_of hlook (proj_look hp't) (getattr_other hnw.1 hnw.2), fun x b => ?_⟩
  set u := t.step (.set (.group a.g) (title a.proj.number i f.name) (some x) b)
  have hku : Keep t u := step_keep rt.struct (Or.inl (by simp))
  constructor
  · rw [getattr_other hnw.1 hnw.2, proj_look (hku.created (q := .p p' .f) hp't)]
    have := (set_read rt hlook x b).1
    rw [norm360_not not_turn_p] at this
    exact congrArg some (read_val this)
  · rw [getattr_other hnw.1 hnw.2, getattr_other hnw.1 hnw.2, proj_look (hku.created (q := .p p .f) hpt), proj_look hpt]
    have := set_other rt hlook (some x) b (q' := .p p f) (by intro e; cases e; exact hne rfl) (by
      intro p2 g hg e1 e2
      cases e1
      simp at hf)
    simp only [Option.map_some, this, u]

/-- The lens of a camera used again with another projection. -/
example : ∃ (s : St) (a : Args) (L : LObj), Reach s ∧ Usable s a ∧ (a.lens.ids a.newL)[1]? = some 0 ∧ s.lenses 0 = some L ∧ L.kind ≠ .none ∧
    L.proj = some 0 ∧ (a.proj.number = 1 ↔ a.lens.number = 1) ∧ (a.proj.ids 0)[1]? = some 1 := by
  obtain ⟨L, h1, h2, h3⟩ := s6_lenses0
  exact ⟨Ex.s6, ⟨.many [0, 1], .one 0, .many [1, 0], 7, 7, 0, id⟩, L, Ex.reachX6.reach,
    usable6 (by simp) (by simp [Arg.ids]) (by simp [Arg.ids]) (by simp [Arg.ids]), rfl, h1, by rw [h2]; simp, h3, by simp [Arg.number], rfl⟩
