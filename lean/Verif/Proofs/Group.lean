import Verif.Model.Group
import Verif.Spec.Group
import Verif.Props.SystemFit
import Verif.Props.SystemCache
import Std.Data.String.ToNat

/-! # Lemmas about groups of cameras -/

set_option linter.constructorNameAsVariable false

open Classical Sys

namespace Group

/-! ### names -/

theorem cname_toList (i : ℕ) (n : String) : (cname i n).toList = 'C' :: ((Nat.toDigits 10 i) ++ '_' :: n.toList) := by
  unfold cname
  simp [String.toList_append, Nat.toList_repr]

theorem cname_inj {i j : ℕ} {n m : String} (h : cname i n = cname j m) : i = j ∧ n = m := by
  have h1 := congrArg String.toList h
  rw [cname_toList, cname_toList] at h1
  simp only [List.cons.injEq, true_and] at h1
  have key : ∀ (a b c d : List Char), '_' ∉ a → '_' ∉ b → a ++ '_' :: c = b ++ '_' :: d → a = b ∧ c = d := by
    intro a
    induction a with
    | nil =>
      intro b c d _ hb e
      cases b with
      | nil => simpa using e
      | cons x t =>
        simp only [List.nil_append, List.cons_append, List.cons.injEq] at e
        exact absurd (by rw [e.1]; simp) hb
    | cons x t ih =>
      intro b c d ha hb e
      cases b with
      | nil =>
        simp only [List.nil_append, List.cons_append, List.cons.injEq] at e
        exact absurd (by rw [e.1]; simp) ha
      | cons y u =>
        simp only [List.cons_append, List.cons.injEq] at e
        obtain ⟨h1, h2⟩ := ih u c d (fun h => ha (List.mem_cons_of_mem _ h)) (fun h => hb (List.mem_cons_of_mem _ h)) e.2
        exact ⟨by rw [e.1, h1], h2⟩
  obtain ⟨h2, h3⟩ := key _ _ _ _ Nat.underscore_not_in_toDigits Nat.underscore_not_in_toDigits h1
  refine ⟨?_, String.toList_inj.1 h3⟩
  have := congrArg (fun l => Nat.ofDigitChars 10 l 0) h2
  simpa only [Nat.ofDigitChars_ten_toDigits] using this

/-- Names of parameters do not begin with `C`. -/
def Small (n : String) : Prop := n.toList.head? ≠ some 'C'

theorem small_o (k : OKind) (f : OField) : Small (f.name k) := by cases k <;> cases f <;> simp [Small, OField.name]
theorem small_p (f : PField) : Small f.name := by cases f <;> simp [Small, PField.name]
theorem small_l (k : LKind) (f : LField) : Small (f.name k) := by cases k <;> cases f <;> simp [Small, LField.name]

theorem title_inj {m m' i j : ℕ} {n n' : String} (hn : Small n) (hn' : Small n') (h : title m i n = title m' j n') :
    n = n' ∧ (m = 1 ↔ m' = 1) ∧ (m ≠ 1 → i = j) := by
  have hc : ∀ i n, "C" ++ toString i ++ "_" ++ n = cname i n := fun _ _ => rfl
  unfold title at h
  split_ifs at h with h1 h2 h2
  · exact ⟨h, by simp [h1, h2], fun h => absurd h1 h⟩
  · rw [hc] at h
    exact absurd (by rw [h, cname_toList]; rfl) hn
  · rw [hc] at h
    exact absurd (by rw [← h, cname_toList]; rfl) hn'
  · rw [hc, hc] at h
    obtain ⟨e1, e2⟩ := cname_inj h
    exact ⟨e2, by simp [h1, h2], fun _ => e1⟩

theorem o_ne_p (k : OKind) (f : OField) (g : PField) : f.name k ≠ g.name := by
  cases k <;> cases f <;> cases g <;> simp [OField.name, PField.name]
theorem o_ne_l (k : OKind) (f : OField) (k' : LKind) (g : LField) : k' ≠ .none → f.name k ≠ g.name k' := by
  intro h; cases k' <;> first | exact absurd rfl h | (cases k <;> cases f <;> cases g <;> simp [OField.name, LField.name])
theorem p_ne_l (f : PField) (k' : LKind) (g : LField) : k' ≠ .none → f.name ≠ g.name k' := by
  intro h; cases k' <;> first | exact absurd rfl h | (cases f <;> cases g <;> simp [PField.name, LField.name])
theorem o_inj {k : OKind} {f g : OField} (h : f.name k = g.name k) : f = g := by
  cases k <;> cases f <;> cases g <;> first | rfl | simp [OField.name] at h
theorem p_inj {f g : PField} (h : f.name = g.name) : f = g := by
  cases f <;> cases g <;> first | rfl | simp [PField.name] at h
theorem l_inj {k : LKind} (hk : k ≠ .none) {f g : LField} (h : f.name k = g.name k) : f = g := by
  cases k <;> first | exact absurd rfl hk | (cases f <;> cases g <;> first | rfl | simp [LField.name] at h)

/-! ### dictionaries -/

theorem dictSet_lookup (d : Dict) (k : String) (v : Pid) (n : String) :
    (dictSet d k v).lookup n = if n = k then some v else d.lookup n := by
  induction d with
  | nil => simp only [dictSet, List.lookup]; split <;> simp_all
  | cons a t ih =>
    obtain ⟨k', v'⟩ := a
    by_cases h : k' = k
    · subst h
      simp only [dictSet, if_true, List.lookup]
      by_cases hn : n = k'
      · simp [hn]
      · simp [hn, beq_eq_false_iff_ne.2 hn]
    · simp only [dictSet, if_neg h, List.lookup]
      by_cases hn : n = k'
      · subst hn; simp [h]
      · simp [beq_eq_false_iff_ne.2 hn, ih]

theorem dictUpdate_lookup (e d : Dict) (n : String) : (dictUpdate d e).lookup n = (e.reverse.lookup n).or (d.lookup n) := by
  unfold dictUpdate
  induction e generalizing d with
  | nil => simp
  | cons a t ih =>
    rw [List.foldl_cons, ih, dictSet_lookup, List.reverse_cons, List.lookup_append]
    obtain ⟨k, v⟩ := a
    cases t.reverse.lookup n with
    | some x => simp
    | none =>
      by_cases h : n = k
      · subst h; simp [List.lookup]
      · simp [List.lookup, h, beq_eq_false_iff_ne.2 h]

theorem lookup_unique {l : Dict} {k : String} {q : Pid} (h : (k, q) ∈ l) (hu : ∀ q', (k, q') ∈ l → q' = q) :
    l.lookup k = some q := by
  cases e : l.lookup k with
  | some q' => rw [hu q' (lookup_mem e)]
  | none =>
    rw [List.lookup_eq_none_iff] at e
    have := e _ h
    simp at this

theorem mem_pairs {s : St} {vs : List View} {k : String} {q : Pid} :
    (k, q) ∈ pairs s vs ↔ ∃ i v n, vs[i]? = some v ∧ (n, q) ∈ s.dict v ∧ k = title vs.length i n := by
  unfold pairs title
  split_ifs with h
  · obtain ⟨v, rfl⟩ := List.length_eq_one_iff.1 h
    constructor
    · intro hm
      exact ⟨0, v, k, rfl, by simpa using hm, rfl⟩
    · rintro ⟨i, v', n, h1, h2, rfl⟩
      have : v' = v := by simpa using List.mem_of_getElem? h1
      subst this
      simpa using h2
  · rw [List.mem_flatMap]
    constructor
    · rintro ⟨⟨v, i⟩, hv, hm⟩
      obtain ⟨⟨n, q'⟩, hk, e⟩ := List.mem_map.1 hm
      cases e
      rw [List.mk_mem_zipIdx_iff_getElem?] at hv
      exact ⟨i, v, n, hv, hk, rfl⟩
    · rintro ⟨i, v, n, h1, h2, rfl⟩
      exact ⟨(v, i), List.mk_mem_zipIdx_iff_getElem?.2 h1, List.mem_map.2 ⟨(n, q), h2, rfl⟩⟩

/-- All assignments to `params`. -/
def allPairs (s : St) (a : Args) : Dict :=
  pairs s (a.ps.map .proj) ++ pairs s (a.os.map .orient) ++ pairs s (a.ls.map .lens)

theorem gather_lookup (s : St) (a : Args) (n : String) : (gather s a).lookup n = (allPairs s a).reverse.lookup n := by
  unfold gather allPairs
  rw [dictUpdate_lookup, dictUpdate_lookup, dictUpdate_lookup]
  simp only [List.reverse_append, List.lookup_append, List.lookup_nil, Option.or_none]

theorem dictSet_mem {d : Dict} {k : String} {v : Pid} {kv : String × Pid} (h : kv ∈ dictSet d k v) : kv = (k, v) ∨ kv ∈ d := by
  induction d with
  | nil => left; simpa [dictSet] using h
  | cons a t ih =>
    obtain ⟨k', v'⟩ := a
    unfold dictSet at h
    split_ifs at h with e
    · rcases List.mem_cons.1 h with h | h
      · exact Or.inl h
      · exact Or.inr (List.mem_cons_of_mem _ h)
    · rcases List.mem_cons.1 h with h | h
      · right; rw [h]; simp
      · rcases ih h with h | h
        · exact Or.inl h
        · exact Or.inr (List.mem_cons_of_mem _ h)

theorem dictUpdate_mem {e d : Dict} {kv : String × Pid} (h : kv ∈ dictUpdate d e) : kv ∈ e ∨ kv ∈ d := by
  unfold dictUpdate at h
  induction e generalizing d with
  | nil => exact Or.inr h
  | cons a t ih =>
    rw [List.foldl_cons] at h
    rcases ih h with h | h
    · exact Or.inl (List.mem_cons_of_mem _ h)
    · rcases dictSet_mem h with h | h
      · left; rw [h]; simp
      · exact Or.inr h

theorem gather_mem {s : St} {a : Args} {kv : String × Pid} (h : kv ∈ gather s a) : kv ∈ allPairs s a := by
  unfold allPairs
  rcases dictUpdate_mem h with h | h
  · simp [h]
  · rcases dictUpdate_mem h with h | h
    · simp [h]
    · rcases dictUpdate_mem h with h | h
      · simp [h]
      · simp at h

/-- What the dictionaries of the parts contain. -/
theorem mem_proj {s : St} {p : ℕ} {n : String} {q : Pid} (h : (n, q) ∈ s.dict (.proj p)) :
    s.projs p ≠ none ∧ ∃ f : PField, n = f.name ∧ q = .p p f := by
  simp only [St.dict] at h
  cases e : s.projs p with
  | none => rw [e] at h; simp at h
  | some P =>
    rw [e] at h
    obtain ⟨f, e⟩ := mem_projDict h
    cases e; exact ⟨by simp, f, rfl, rfl⟩

theorem mem_orient {s : St} {o : ℕ} {n : String} {q : Pid} (h : (n, q) ∈ s.dict (.orient o)) :
    ∃ O, s.orients o = some O ∧ ∃ f : OField, n = f.name O.kind ∧ q = .o o f := by
  simp only [St.dict] at h
  cases e : s.orients o with
  | none => rw [e] at h; simp at h
  | some O =>
    rw [e] at h
    obtain ⟨f, e⟩ := mem_orientDict h
    cases e; exact ⟨O, rfl, f, rfl, rfl⟩

theorem mem_lens {s : St} {l : ℕ} {n : String} {q : Pid} (h : (n, q) ∈ s.dict (.lens l)) :
    ∃ L, s.lenses l = some L ∧ L.kind ≠ .none ∧ ((∃ f : LField, n = f.name L.kind ∧ q = .l l f) ∨
      ∃ p, ∃ f ∈ PField.lens, L.proj = some p ∧ n = f.name ∧ q = .p p f) := by
  simp only [St.dict] at h
  cases e : s.lenses l with
  | none => rw [e] at h; simp at h
  | some L =>
    rw [e] at h
    simp only at h
    have hk : L.kind ≠ .none := by intro hk; rw [hk] at h; simp [lensDict] at h
    refine ⟨L, rfl, hk, ?_⟩
    have hd : lensDict L.kind l L.proj = LField.all.map (fun f => (f.name L.kind, .l l f)) ++
        (match L.proj with
          | some p => PField.lens.map fun f => (f.name, .p p f)
          | none => []) := by
      cases hh : L.kind <;> first | exact absurd hh hk | rfl
    rw [hd, List.mem_append] at h
    rcases h with h | h
    · obtain ⟨f, -, e⟩ := List.mem_map.1 h
      cases e; exact Or.inl ⟨f, rfl, rfl⟩
    · cases hp : L.proj with
      | none => rw [hp] at h; simp at h
      | some p =>
        rw [hp] at h
        obtain ⟨f, hf, e⟩ := List.mem_map.1 h
        cases e; exact Or.inr ⟨p, f, hf, rfl, rfl, rfl⟩

/-- The dictionary of a part has every name once. -/
theorem part_lookup {s : St} {v : View} (hv : (∃ p, v = .proj p) ∨ (∃ o, v = .orient o) ∨ ∃ l, v = .lens l) {n : String} {q : Pid}
    (h : (n, q) ∈ s.dict v) : (s.dict v).lookup n = some q := by
  refine lookup_unique h fun q' h' => ?_
  rcases hv with ⟨p, rfl⟩ | ⟨o, rfl⟩ | ⟨l, rfl⟩
  · obtain ⟨-, f, rfl, rfl⟩ := mem_proj h
    obtain ⟨-, f', e, rfl⟩ := mem_proj h'
    rw [p_inj e]
  · obtain ⟨O, hO, f, rfl, rfl⟩ := mem_orient h
    obtain ⟨O', hO', f', e, rfl⟩ := mem_orient h'
    rw [hO] at hO'; cases hO'
    rw [o_inj e]
  · obtain ⟨L, hL, hk, h⟩ := mem_lens h
    obtain ⟨L', hL', hk', h'⟩ := mem_lens h'
    rw [hL] at hL'; cases hL'
    rcases h with ⟨f, rfl, rfl⟩ | ⟨p, f, hf, hp, rfl, rfl⟩ <;> rcases h' with ⟨f', e, rfl⟩ | ⟨p', f', hf', hp', e, rfl⟩
    · rw [l_inj hk e]
    · exact absurd e.symm (p_ne_l _ _ _ hk)
    · exact absurd e (p_ne_l _ _ _ hk)
    · rw [hp] at hp'; cases hp'; rw [p_inj e]

/-! ### building a group -/

theorem step_groups {s : St} (hr : Reach s) {op : Op} (hok : s.ok op) {g : ℕ} {d : Dict} (h : s.groups g = some d) :
    (s.step op).groups g = some d := by
  by_cases hp : op.isParam
  · rw [(step_pres hr.struct hok hp).groups]; exact h
  · cases op with
    | newOrient o k args =>
      rw [show (s.step (.newOrient o k args)).groups = s.groups from (Pres.runMatrix (preOrient s o k args) o).groups]; exact h
    | newProj p k args attr => exact h
    | newLens l k args =>
      rw [show (s.step (.newLens l k args)).groups = s.groups from (Pres.runLens (preLens s l k args) l).groups]; exact h
    | newCam c p o l =>
      rw [show (s.step (.newCam c p o l)).groups = s.groups from setProjection_groups s l p]; exact h
    | newGroup g' d' =>
      simp only [St.step, Function.update_apply]
      split_ifs with e
      · have := hok.1; rw [← e, h] at this; cases this
      · exact h
    | setTrace v t => exact h
    | _ => exact absurd trivial hp

theorem Later.reach {s t : St} (h : Later s t) (hr : Reach s) : Reach t := by
  induction h with
  | refl => exact hr
  | step h hok ih => exact .step ih hok

theorem Later.keep {s t : St} (h : Later s t) (hr : Reach s) : Keep s t := by
  induction h with
  | refl => exact Keep.refl s
  | step h hok ih => exact ih.trans (step_keep (h.reach hr).struct hok)

theorem Later.groups {s t : St} (h : Later s t) (hr : Reach s) {g : ℕ} {d : Dict} (hg : s.groups g = some d) : t.groups g = some d := by
  induction h with
  | refl => exact hg
  | step h hok ih => exact step_groups (h.reach hr) hok ih

theorem Later.trans {r s t : St} (h : Later r s) (k : Later s t) : Later r t := by
  induction k with
  | refl => exact h
  | step k hok ih => exact .step ih hok

theorem ids_some {x : Arg} (h : x ≠ .none) (m n : ℕ) : x.ids m = x.ids n := by
  cases x <;> first | exact absurd rfl h | rfl

/-- After the missing objects were created. -/
structure Made (s s1 : St) (a : Args) : Prop where
  later : Later s s1
  ps : ∀ p ∈ a.ps, s1.projs p ≠ none
  os : ∀ o ∈ a.os, s1.orients o ≠ none
  ls : ∀ l ∈ a.ls, s1.lenses l ≠ none
  lens : ∀ l ∈ a.ls, ∀ L, s1.lenses l = some L → L.kind ≠ .none → s.lenses l = some L
  same : ∀ l ∈ a.ls, ∀ L, s.lenses l = some L → s1.lenses l = some L
  groups : s1.groups = s.groups

theorem newOrient_lenses (s : St) (o k args) : (s.step (.newOrient o k args)).lenses = s.lenses :=
  runMatrix_lenses (preOrient s o k args) o

theorem newLens_lenses_ne (s : St) (l k args) {l' : ℕ} (h : l' ≠ l) : (s.step (.newLens l k args)).lenses l' = s.lenses l' := by
  show ((preLens s l k args).runLens l).lenses l' = _
  rw [runLens_lenses_ne _ h]; simp [preLens, h]

theorem newOrient_some (s : St) (o k args) : (s.step (.newOrient o k args)).orients o ≠ none := by
  have h := (Pres.runMatrix (preOrient s o k args) o).orients o
  intro e
  have e' : ((preOrient s o k args).runMatrix o).orients o = none := e
  rw [e'] at h; simp [preOrient] at h

theorem newLens_some (s : St) (l k args) : ∃ L, (s.step (.newLens l k args)).lenses l = some L ∧ L.kind = k := by
  have h := (Pres.runLens (preLens s l k args) l).lenses l
  cases e : (s.step (.newLens l k args)).lenses l with
  | none =>
    have e' : ((preLens s l k args).runLens l).lenses l = none := e
    rw [e'] at h; simp [preLens] at h
  | some L =>
    have e' : ((preLens s l k args).runLens l).lenses l = some L := e
    rw [e'] at h
    simp only [preLens, Function.update_self, Option.map_some, Option.some.injEq, Prod.mk.injEq] at h
    exact ⟨L, rfl, h.1⟩

theorem defaults_made {s : St} (hr : Reach s) {a : Args} (hu : Usable s a) : Made s (defaults s a) a := by
  set s0 := if a.orient = .none then s.step (.newOrient a.newO .thr fun _ => .none) else s with hs0
  have l0 : Later s s0 := by
    rw [hs0]; split_ifs
    · exact .step .refl hu.newO
    · exact .refl
  have e0 : s0.lenses = s.lenses := by
    rw [hs0]; split_ifs
    · exact newOrient_lenses ..
    · rfl
  have g0 : s0.groups = s.groups := by
    rw [hs0]; split_ifs
    · exact (Pres.runMatrix (preOrient s a.newO .thr fun _ => .none) a.newO).groups
    · rfl
  have o0 : ∀ o ∈ a.os, s0.orients o ≠ none := by
    intro o ho
    unfold Args.os at ho
    by_cases h : a.orient = .none
    · rw [h] at ho
      have : o = a.newO := by simpa [Arg.ids] using ho
      rw [this, hs0, if_pos h]; exact newOrient_some _ _ _ _
    · rw [hs0, if_neg h]
      exact hu.os h o (by rw [ids_some h 0 a.newO]; exact ho)
  have hd : defaults s a = if a.lens = .none then s0.step (.newLens a.newL .none fun _ => .none) else s0 := rfl
  have l1 : Later s (defaults s a) := by
    rw [hd]; split_ifs
    · exact .step l0 (by show s0.lenses a.newL = none; rw [e0]; exact hu.newL)
    · exact l0
  have k1 : Keep s0 (defaults s a) := by
    rw [hd]; split_ifs
    · exact step_keep (l0.reach hr).struct (by show s0.lenses a.newL = none; rw [e0]; exact hu.newL)
    · exact Keep.refl _
  have g1 : (defaults s a).groups = s.groups := by
    rw [hd]; split_ifs
    · rw [show (s0.step (.newLens a.newL .none fun _ => .none)).groups = s0.groups from (Pres.runLens (preLens s0 a.newL .none fun _ => .none) a.newL).groups, g0]
    · exact g0
  have hlens : ∀ l ∈ a.ls, (a.lens = .none ∧ l = a.newL ∧ ∃ L, (defaults s a).lenses l = some L ∧ L.kind = .none) ∨
      (a.lens ≠ .none ∧ (defaults s a).lenses l = s.lenses l) := by
    intro l hl
    unfold Args.ls at hl
    by_cases h : a.lens = .none
    · rw [h] at hl
      have : l = a.newL := by simpa [Arg.ids] using hl
      left
      refine ⟨h, this, ?_⟩
      rw [this, hd, if_pos h]; exact newLens_some ..
    · right
      rw [hd, if_neg h, e0]; exact ⟨h, rfl⟩
  refine ⟨l1, fun p hp => ?_, fun o ho => ?_, fun l hl => ?_, fun l hl L h1 h2 => ?_, fun l hl L h1 => ?_, g1⟩
  · have := hu.ps p hp
    exact (l1.keep hr).created (q := .p p .f) this
  · exact k1.created (q := .o o .elev) (o0 o ho)
  · rcases hlens l hl with ⟨-, -, L, h, -⟩ | ⟨h1, h2⟩
    · rw [h]; simp
    · rw [h2]; exact hu.ls h1 l (by rw [ids_some h1 0 a.newL]; exact hl)
  · rcases hlens l hl with ⟨-, -, L', h, h'⟩ | ⟨h1', h2'⟩
    · rw [h] at h1; cases h1; exact absurd h' h2
    · rw [← h2']; exact h1
  · rcases hlens l hl with ⟨-, e, -⟩ | ⟨-, h2⟩
    · rw [e, hu.newL] at h1; cases h1
    · rw [h2]; exact h1

theorem gather_ok {s : St} {a : Args} (hg : s.groups a.g = none) : s.ok (.newGroup a.g (gather s a)) := by
  refine ⟨hg, ?_⟩
  rintro ⟨k, q⟩ h
  have h := gather_mem h
  unfold allPairs at h
  simp only [List.mem_append, mem_pairs, List.getElem?_map, Option.map_eq_some_iff] at h
  rcases h with (⟨i, v, n, ⟨p, -, rfl⟩, h, -⟩ | ⟨i, v, n, ⟨p, -, rfl⟩, h, -⟩) | ⟨i, v, n, ⟨p, -, rfl⟩, h, -⟩
  · exact ⟨_, n, by simp, part_lookup (Or.inl ⟨p, rfl⟩) h⟩
  · exact ⟨_, n, by simp, part_lookup (Or.inr (Or.inl ⟨p, rfl⟩)) h⟩
  · exact ⟨_, n, by simp, part_lookup (Or.inr (Or.inr ⟨p, rfl⟩)) h⟩

theorem cameras_later {cid : ℕ → ℕ} (ts : List (ℕ × ℕ × ℕ × ℕ)) {s : St} (hr : Reach s)
    (h : ∀ t ∈ ts, s.projs t.2.1 ≠ none ∧ s.orients t.2.2.1 ≠ none ∧ s.lenses t.2.2.2 ≠ none) : Later s (cameras s cid ts) := by
  induction ts generalizing s with
  | nil => exact .refl
  | cons t ts ih =>
    have hok : s.ok (.newCam (cid t.1) t.2.1 t.2.2.1 t.2.2.2) := h t (by simp)
    have hk := step_keep hr.struct hok
    refine Later.trans (.step .refl hok) (ih (.step hr hok) fun t' ht' => ?_)
    obtain ⟨h1, h2, h3⟩ := h t' (by simp [ht'])
    exact ⟨hk.created (q := .p _ .f) h1, hk.created (q := .o _ .elev) h2, hk.created (q := .l _ .k1) h3⟩

theorem newCam_cams (s : St) (c p o l c' : ℕ) : ∃ d, (s.step (.newCam c p o l)).cams c' = if c' = c then some ⟨p, o, l, d⟩ else s.cams c' := by
  simp only [St.step, newCam_eq, camTail, Function.update_apply]
  split_ifs with e
  · exact ⟨_, rfl⟩
  · rw [setProjection_cams]; exact ⟨[], rfl⟩

theorem cameras_frame {cid : ℕ → ℕ} (ts : List (ℕ × ℕ × ℕ × ℕ)) (s : St) {c : ℕ} (h : ∀ t ∈ ts, cid t.1 ≠ c) :
    (cameras s cid ts).cams c = s.cams c := by
  induction ts generalizing s with
  | nil => rfl
  | cons t ts ih =>
    have : (cameras s cid (t :: ts)) = cameras (s.step (.newCam (cid t.1) t.2.1 t.2.2.1 t.2.2.2)) cid ts := rfl
    rw [this, ih _ fun t' h' => h t' (by simp [h'])]
    obtain ⟨d, e⟩ := newCam_cams s (cid t.1) t.2.1 t.2.2.1 t.2.2.2 c
    rw [e, if_neg fun e => h t (by simp) e.symm]

theorem cameras_cams {cid : ℕ → ℕ} (hc : Function.Injective cid) (ts : List (ℕ × ℕ × ℕ × ℕ)) (s : St) (hn : (ts.map (·.1)).Nodup)
    {t : ℕ × ℕ × ℕ × ℕ} (h : t ∈ ts) : ∃ d, (cameras s cid ts).cams (cid t.1) = some ⟨t.2.1, t.2.2.1, t.2.2.2, d⟩ := by
  induction ts generalizing s with
  | nil => simp at h
  | cons t' ts ih =>
    have e : (cameras s cid (t' :: ts)) = cameras (s.step (.newCam (cid t'.1) t'.2.1 t'.2.2.1 t'.2.2.2)) cid ts := rfl
    rw [e]
    rw [List.map_cons, List.nodup_cons] at hn
    rcases List.mem_cons.1 h with rfl | h
    · rw [cameras_frame]
      · obtain ⟨d, e⟩ := newCam_cams s (cid t.1) t.2.1 t.2.2.1 t.2.2.2 (cid t.1)
        exact ⟨d, by rw [e, if_pos rfl]⟩
      · intro t' ht' e
        exact hn.1 (List.mem_map.2 ⟨t', ht', hc e⟩)
    · exact ih _ hn.2 h

theorem mem_triples {a : Args} {t : ℕ × ℕ × ℕ × ℕ} (h : t ∈ a.triples) : t.1 < a.n ∧ a.ps[t.1 % a.ps.length]? = some t.2.1 ∧
    a.os[t.1 % a.os.length]? = some t.2.2.1 ∧ a.ls[t.1 % a.ls.length]? = some t.2.2.2 := by
  unfold Args.triples at h
  obtain ⟨i, hi, e⟩ := List.mem_filterMap.1 h
  split at e
  · cases e; exact ⟨List.mem_range.1 hi, ‹_›, ‹_›, ‹_›⟩
  · cases e

/-- Building a group. -/
theorem build_spec {s : St} (hr : Reach s) {a : Args} (hu : Usable s a) : ∃ s1 s2 s', build s a = some (s', a.triples.map fun t => a.cid t.1) ∧
    Made s s1 a ∧ Later s1 s2 ∧ s2.groups a.g = some (gather s1 a) ∧ Later s2 s' ∧ s' = cameras s2 a.cid a.triples := by
  have hm := defaults_made hr hu
  have r1 := hm.later.reach hr
  have hok := gather_ok (s := defaults s a) (a := a) (by rw [hm.groups]; exact hu.newG)
  refine ⟨defaults s a, (defaults s a).step (.newGroup a.g (gather (defaults s a) a)), _, ?_, hm, .step .refl hok, ?_, ?_, rfl⟩
  · unfold build; rw [if_neg hu.proj]
  · simp [St.step]
  · refine cameras_later _ (.step r1 hok) fun t ht => ?_
    obtain ⟨-, h1, h2, h3⟩ := mem_triples ht
    exact ⟨hm.ps _ (List.mem_of_getElem? h1), hm.os _ (List.mem_of_getElem? h2), hm.ls _ (List.mem_of_getElem? h3)⟩

/-! ### an example -/

open Ex

theorem s6_orients7 : s6.orients 7 = none := by
  have e1 : s6.orients = s5.orients := runLens_orients (preLens s5 1 .brown fun _ => none) 1
  have e2 : s5.orients = (s3.setProjection 0 0).orients := rfl
  obtain ⟨L, h1, h2, -⟩ := s3_lens
  rw [e1, e2, setProjection_eq h1 (by rw [h2]; simp), runLens_orients, preBind_orients]
  have e3 : s3.orients = s1.orients := by simp only [s3, St.step, newLens_eq, runLens_orients]; rfl
  rw [e3]
  show ((preOrient St.empty 0 .thr fun _ => none).runMatrix 0).orients 7 = none
  rw [runMatrix_orients_ne _ (by simp)]
  simp [preOrient, St.empty]

theorem s6_lenses7 : s6.lenses 7 = none := by
  have e1 : s6.lenses 7 = s5.lenses 7 := newLens_lenses_ne s5 1 .brown (fun _ => none) (by simp)
  have e2 : s5.lenses = (s3.setProjection 0 0).lenses := rfl
  obtain ⟨L, h1, h2, -⟩ := s3_lens
  rw [e1, e2, setProjection_eq h1 (by rw [h2]; simp), runLens_lenses_ne _ (by simp), preBind_lenses, Function.update_apply, if_neg (by simp)]
  have e3 : s3.lenses 7 = s2.lenses 7 := newLens_lenses_ne s2 0 .brown (fun _ => none) (by simp)
  rw [e3, show s2.lenses = s1.lenses from rfl, s1_lenses]

theorem s6_groups : s6.groups = fun _ => none := by
  have e1 : s6.groups = s5.groups := (Pres.runLens (preLens s5 1 .brown fun _ => none) 1).groups
  have e2 : s5.groups = (s3.setProjection 0 0).groups := rfl
  have e3 : s3.groups = s2.groups := (Pres.runLens (preLens s2 0 .brown fun _ => none) 0).groups
  have e4 : s1.groups = St.empty.groups := (Pres.runMatrix (preOrient St.empty 0 .thr fun _ => none) 0).groups
  rw [e1, e2, setProjection_groups, e3, show s2.groups = s1.groups from rfl, e4]; rfl

theorem s6_projs0 : s6.projs 0 ≠ none := by rw [keep46.projs _ _ s4_projs]; simp
theorem s6_projs1' : s6.projs 1 ≠ none := by rw [s6_projs1]; simp
theorem s6_orients0 : s6.orients 0 ≠ none := by
  obtain ⟨O, h, -⟩ := s4_orients
  obtain ⟨O', h', -⟩ := keep46.orients _ _ h
  rw [h']; simp
theorem s6_lenses0 : ∃ L, s6.lenses 0 = some L ∧ L.kind = .brown ∧ L.proj = some 0 := by
  have e1 : s6.lenses 0 = s5.lenses 0 := newLens_lenses_ne s5 1 .brown (fun _ => none) (by simp)
  rw [e1]; exact s4_lens
theorem s6_lenses0' : s6.lenses 0 ≠ none := by obtain ⟨L, h, -⟩ := s6_lenses0; rw [h]; simp
theorem s6_lenses1' : s6.lenses 1 ≠ none := by obtain ⟨L, h, -⟩ := s6_lens1; rw [h]; simp

/-- Two projections, two lenses, one orientation. -/
theorem usable6 {x y z : Arg} (hx : x ≠ .none) (hx' : ∀ p ∈ x.ids 0, p = 0 ∨ p = 1) (hy : ∀ o ∈ y.ids 0, o = 0)
    (hz : ∀ l ∈ z.ids 0, l = 0 ∨ l = 1) : Usable s6 ⟨x, y, z, 7, 7, 0, id⟩ where
  proj := hx
  ps p hp := by rcases hx' p hp with rfl | rfl; exacts [s6_projs0, s6_projs1']
  os _ o ho := by rw [hy o ho]; exact s6_orients0
  ls _ l hl := by rcases hz l hl with rfl | rfl; exacts [s6_lenses0', s6_lenses1']
  newO := s6_orients7
  newL := s6_lenses7
  newG := by rw [s6_groups]
  cid _ _ h := h

end Group
