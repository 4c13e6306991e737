import Verif.Proofs.GpsFormat

/-! # Properties of reading coordinates from text (C47, C48, C104) -/

open Py GpsText

/-! ### C47 -/

theorem GpsText.sw_iff {t : Text} (h : t = ['N'] ∨ t = ['S'] ∨ t = ['W'] ∨ t = ['E']) :
    t <:+: ['S', 'W'] ↔ t = ['S'] ∨ t = ['W'] := by
  rcases h with rfl | rfl | rfl | rfl <;> decide

/-- **C47** The value of degrees, minutes, seconds and sign. -/
theorem C47_process_degree (g : Groups) (x : ℝ) (hl : Letter g) (h : Value g x) : processDegree g = .ok x := by
  obtain ⟨deg, min, sec, sign⟩ := g
  obtain ⟨neg, d, m, s, h1, h2, h3, h4, h5⟩ := h
  simp only at h1 h2 h3 h4 h5
  have nN : ¬ ['N'] <:+: ['S', 'W'] := by decide
  have nE : ¬ ['E'] <:+: ['S', 'W'] := by decide
  have yS : ['S'] <:+: ['S', 'W'] := by decide
  have yW : ['W'] <:+: ['S', 'W'] := by decide
  have hl' : sign = none ∨ sign = some ['N'] ∨ sign = some ['S'] ∨ sign = some ['W'] ∨ sign = some ['E'] := hl
  clear hl
  have pos : ∀ t, float deg = .ok d → deg = t → (∃ c t', t = c :: t' ∧ c ≠ '-') → neg = false → 0 ≤ d →
      processDegree ⟨deg, min, sec, sign⟩ = .ok x := by
    rintro t hf rfl ⟨c, t', rfl, hc⟩ hn hd
    simp only [processDegree, hf, floatOr0_reads h2, floatOr0_reads h3, bind, Except.bind, pure, Except.pure,
      if_neg hc, abs_of_nonneg hd, zero_add]
    rcases hl' with rfl | rfl | rfl | rfl | rfl
    · rw [h5 ⟨hn, by simp⟩]; rfl
    · simp only [if_neg nN]; rw [h5 ⟨hn, by simp⟩]; rfl
    · simp only [if_pos yS]; rw [h4 (by simp), mul_neg_one]; rfl
    · simp only [if_pos yW]; rw [h4 (by simp), mul_neg_one]; rfl
    · simp only [if_neg nE]; rw [h5 ⟨hn, by simp⟩]; rfl
  cases h1 with
  | plain _ _ h =>
    obtain ⟨c, t', rfl, hc, -⟩ := reads_head h
    exact pos _ (float_reads h) rfl ⟨c, t', rfl, hc⟩ rfl (reads_nonneg h)
  | plus t _ h => exact pos _ (float_plus h) rfl ⟨'+', t, rfl, by decide⟩ rfl (reads_nonneg h)
  | minus t _ h =>
    simp only [processDegree, float_minus h, floatOr0_reads h2, floatOr0_reads h3, bind, Except.bind, pure, Except.pure,
      if_true, abs_neg, abs_of_nonneg (reads_nonneg h), zero_add, if_pos yS]
    rw [h4 (Or.inl rfl), mul_neg_one]; rfl

theorem GpsText.reads_of_decimals {t : Text} (h : Decimals t) {x : ℝ} (hf : float t = .ok x) : Reads t x := by
  rcases float_ok hf with h' | ⟨t', rfl, -⟩ | ⟨t', y, rfl, -⟩
  · exact h'
  · exact absurd (h.2 '+' List.mem_cons_self) (by decide)
  · exact absurd (h.2 '-' List.mem_cons_self) (by decide)

/-- **C47** Texts that do not stand for a number raise: for the groups of every notation, whatever is returned is the
value of the groups. -/
theorem C47_only_values (f : Fmt) (t : Text) (g : Groups) (hc : Coord f t g.deg g.min g.sec) (hl : Letter g) (x : ℝ)
    (h : processDegree g = .ok x) : Value g x := by
  obtain ⟨deg, min, sec, sign⟩ := g
  simp only at hc
  have hmin : ∀ u, min = some u → Decimals u := by
    intro u hu
    cases hc with
    | dms b min m b' sec m' b'' h1 h2 h3 => cases hu; exact digits_decimals (by assumption)
    | dm b min m b' h1 h2 h3 => cases hu; assumption
    | d b h1 h2 => cases hu
  have hsec : ∀ u, sec = some u → Decimals u := by
    intro u hu
    cases hc with
    | dms b min m b' sec m' b'' h1 h2 h3 => cases hu; assumption
    | dm b min m b' h1 h2 h3 => cases hu
    | d b h1 h2 => cases hu
  have opt : ∀ (o : Option Text), (∀ u, o = some u → Decimals u) → ∀ y, floatOr0 o = .ok y → OptReads o y := by
    intro o ho y hy
    cases o with
    | none => simp only [floatOr0, Except.ok.injEq] at hy; subst hy; exact .none
    | some u => exact .some u y (reads_of_decimals (ho u rfl) hy)
  cases hd : float deg with
  | error e => simp [processDegree, hd, bind, Except.bind] at h
  | ok d =>
    cases hm : floatOr0 min with
    | error e =>
      simp only [processDegree, hd, hm, bind, Except.bind] at h
      split at h
      · simp at h
      · simp at h
    | ok m =>
      cases hs : floatOr0 sec with
      | error e =>
        simp only [processDegree, hd, hm, hs, bind, Except.bind] at h
        split at h
        · simp at h
        · simp at h
      | ok s =>
        have hm' := opt min hmin m hm
        have hs' := opt sec hsec s hs
        obtain ⟨neg, d', hdeg⟩ : ∃ neg d', DegText deg neg d' := by
          rcases float_ok hd with h' | ⟨t', rfl, h'⟩ | ⟨t', y, rfl, h', -⟩
          · exact ⟨false, d, .plain _ _ h'⟩
          · exact ⟨false, d, .plus _ _ h'⟩
          · exact ⟨true, y, .minus _ _ h'⟩
        by_cases hc : neg = true ∨ sign = some ['S'] ∨ sign = some ['W']
        · have hv : Value ⟨deg, min, sec, sign⟩ (-dmsValue d' m s) := ⟨neg, d', m, s, hdeg, hm', hs', fun _ => rfl, fun hn => by
            exfalso
            rcases hc with hc | hc | hc
            · rw [hc] at hn; simp at hn
            · simp only at hn; rw [hc] at hn; simp at hn
            · simp only at hn; rw [hc] at hn; simp at hn⟩
          have := C47_process_degree _ _ hl hv
          rw [h] at this
          simp only [Except.ok.injEq] at this
          rw [this]; exact hv
        · have hv : Value ⟨deg, min, sec, sign⟩ (dmsValue d' m s) := ⟨neg, d', m, s, hdeg, hm', hs', fun hn => absurd hn hc,
            fun _ => rfl⟩
          have := C47_process_degree _ _ hl hv
          rw [h] at this
          simp only [Except.ok.injEq] at this
          rw [this]; exact hv

example : ∃ g x, Letter g ∧ Value g x ∧ x < 0 := by
  refine ⟨⟨['7'], some ['3'], none, some ['W']⟩, -dmsValue 7 3 0, ?_, ?_, ?_⟩
  · simp [Letter]
  · refine ⟨false, 7, 3, 0, .plain _ _ ?_, .some _ _ ?_, .none, fun _ => rfl, fun h => ?_⟩
    · have := Reads.int ['7'] ⟨by simp, by decide⟩
      simpa [Nat.ofDigitChars] using this
    · have := Reads.int ['3'] ⟨by simp, by decide⟩
      simpa [Nat.ofDigitChars] using this
    · simp at h
  · norm_num [dmsValue]

example : ∃ f t g, Coord f t g.deg g.min g.sec ∧ Letter g ∧ ∃ x, processDegree g = .ok x :=
  ⟨.d, _, ⟨['7'], none, none, none⟩, .d _ [] ⟨by simp, by decide⟩ (by simp [Blank]), Or.inl rfl, 7, by
    refine C47_process_degree _ _ (Or.inl rfl) ⟨false, 7, 0, 0, .plain _ _ ?_, .none, .none, fun h => ?_, fun _ => ?_⟩
    · have := Reads.int ['7'] ⟨by simp, by decide⟩
      simpa [Nat.ofDigitChars] using this
    · simp at h
    · simp [dmsValue]⟩

/-! ### C48 -/

theorem GpsText.findSome_rank {β : Type} (m : Fmt → Option β) :
    (∃ f r, [Fmt.dms, .dm, .d].findSome? m = some r ∧ m f = some r ∧ ∀ f', f'.rank < f.rank → m f' = none) ∨
    ([Fmt.dms, .dm, .d].findSome? m = none ∧ ∀ f, m f = none) := by
  cases h1 : m .dms with
  | some r => exact Or.inl ⟨.dms, r, by simp [h1], h1, fun f' hf => by simp [Fmt.rank] at hf⟩
  | none =>
    cases h2 : m .dm with
    | some r =>
      refine Or.inl ⟨.dm, r, by simp [h1, h2], h2, fun f' hf => ?_⟩
      cases f' <;> simp [Fmt.rank] at hf
      exact h1
    | none =>
      cases h3 : m .d with
      | some r =>
        refine Or.inl ⟨.d, r, by simp [h1, h2, h3], h3, fun f' hf => ?_⟩
        cases f' <;> simp [Fmt.rank] at hf
        · exact h1
        · exact h2
      | none =>
        refine Or.inr ⟨by simp [h1, h2, h3], fun f => ?_⟩
        cases f <;> assumption

/-- **C48** A text that contains two coordinates in one notation is read in this notation, the notations being
tried in the order degrees-minutes-seconds, degrees-minutes, degrees; latitude and longitude are read in the same
notation; a height is appended. -/
theorem C48_pair (s : Text) (height : Option ℝ) (h : ∃ f g, IsPair f s g) :
    ∃ f g, IsPair f s g ∧ (∀ f', f'.rank < f.rank → ∀ g', ¬ IsPair f' s g') ∧
      (∀ a b, Value g.1 a → Value g.2 b → gpsFromString (.text s) height = .ok (point a b height)) ∧
      (∀ o, gpsFromString (.text s) height = .ok o → ∃ a b, Value g.1 a ∧ Value g.2 b ∧ o = point a b height) := by
  have e : gpsFromString (.text s) height = fromText s height := by rw [gpsFromString]
  rw [e]
  rcases findSome_rank (fun f => matchPair f s) with ⟨f, g, h1, h2, h3⟩ | ⟨-, h1⟩
  · have hp := matchPair_some h2
    have hp' := hp
    obtain ⟨b, t, b', comma, b'', t', b''', rest, -, hc, hs, -, -, -, hc', hs', -, -⟩ := hp'
    have l1 : Letter g.1 := by
      rcases hs with h | h | h
      · exact Or.inl h
      · exact Or.inr (Or.inl h)
      · exact Or.inr (Or.inr (Or.inl h))
    have l2 : Letter g.2 := by
      rcases hs' with h | h | h
      · exact Or.inl h
      · exact Or.inr (Or.inr (Or.inr (Or.inl h)))
      · exact Or.inr (Or.inr (Or.inr (Or.inr h)))
    have key : ∀ a b, processDegree g.1 = .ok a → processDegree g.2 = .ok b →
        fromText s height = .ok (point a b height) := by
      intro a b ha hb
      unfold fromText
      rw [h1]
      simp only [pairValues, ha, hb, bind, Except.bind, pure, Except.pure]
      cases height <;> rfl
    refine ⟨f, g, hp, fun f' hf g' => matchPair_none (h3 f' hf) g', fun a b ha hb =>
      key a b (C47_process_degree _ _ l1 ha) (C47_process_degree _ _ l2 hb), fun o ho => ?_⟩
    cases ha : processDegree g.1 with
    | error e => unfold fromText at ho; rw [h1] at ho; simp [pairValues, ha, bind, Except.bind] at ho
    | ok a =>
      cases hb : processDegree g.2 with
      | error e => unfold fromText at ho; rw [h1] at ho; simp [pairValues, ha, hb, bind, Except.bind] at ho
      | ok b =>
        refine ⟨a, b, C47_only_values f t g.1 hc l1 a ha, C47_only_values f t' g.2 hc' l2 b hb, ?_⟩
        rw [key a b ha hb] at ho
        simpa using ho.symm
  · obtain ⟨f, g, h⟩ := h
    exact absurd h (matchPair_none (h1 f) g)

/-- **C48** A text without two coordinates is read as a single coordinate, in the same order; the result is a number
(a height is ignored then). -/
theorem C48_single (s : Text) (height : Option ℝ) (h0 : ∀ f g, ¬ IsPair f s g) (h : ∃ f g, IsSingle f s g) :
    ∃ f g, IsSingle f s g ∧ (∀ f', f'.rank < f.rank → ∀ g', ¬ IsSingle f' s g') ∧
      (∀ a, Value g a → gpsFromString (.text s) height = .ok (.num a)) ∧
      (∀ o, gpsFromString (.text s) height = .ok o → ∃ a, Value g a ∧ o = .num a) := by
  have e : gpsFromString (.text s) height = fromText s height := by rw [gpsFromString]
  rw [e]
  have hn : [Fmt.dms, .dm, .d].findSome? (fun f => matchPair f s) = none := by
    rcases findSome_rank (fun f => matchPair f s) with ⟨f, g, -, h2, -⟩ | ⟨h1, -⟩
    · exact absurd (matchPair_some h2) (h0 f g)
    · exact h1
  rcases findSome_rank (fun f => matchSingle f s) with ⟨f, g, h1, h2, h3⟩ | ⟨-, h1⟩
  · have hp := matchSingle_some h2
    have hp' := hp
    obtain ⟨b, t, b', rest, -, hc, hs, -, -⟩ := hp'
    refine ⟨f, g, hp, fun f' hf g' => matchSingle_none (h3 f' hf) g', fun a ha => ?_, fun o ho => ?_⟩
    · unfold fromText
      rw [hn, h1]
      simp only [C47_process_degree _ _ hs ha]
      rfl
    · unfold fromText at ho
      rw [hn, h1] at ho
      simp only at ho
      cases ha : processDegree g with
      | error e => rw [ha] at ho; simp [Except.map] at ho
      | ok a =>
        rw [ha] at ho
        exact ⟨a, C47_only_values f t g hc hs a ha, by simpa [Except.map] using ho.symm⟩
  · obtain ⟨f, g, h⟩ := h
    exact absurd h (matchSingle_none (h1 f) g)

/-- **C48** Every other text gives None. -/
theorem C48_none (s : Text) (height : Option ℝ) (h0 : ∀ f g, ¬ IsPair f s g) (h : ∀ f g, ¬ IsSingle f s g) :
    gpsFromString (.text s) height = .ok .none := by
  have e : gpsFromString (.text s) height = fromText s height := by rw [gpsFromString]
  rw [e]
  unfold fromText
  rcases findSome_rank (fun f => matchPair f s) with ⟨f, g, -, h2, -⟩ | ⟨h1, -⟩
  · exact absurd (matchPair_some h2) (h0 f g)
  · rw [h1]
    rcases findSome_rank (fun f => matchSingle f s) with ⟨f, g, -, h2, -⟩ | ⟨h1, -⟩
    · exact absurd (matchSingle_some h2) (h f g)
    · rw [h1]

/-- **C48** Lists are processed element-wise at every depth, a text with a number is a point with a height, and
numbers are kept.  A height given with a list of coordinates is appended to it; with a list of points it raises a
ValueError. -/
theorem C48_lists (height : Option ℝ) :
    (∀ x, gpsFromString (.num x) height = .ok (.num x)) ∧
    (∀ s x, gpsFromString (.list [.text s, .num x]) height = gpsFromString (.text s) (some x)) ∧
    (∀ l, (∀ s x, l ≠ [.text s, .num x]) → ∀ out, gpsFromString (.list l) none = .ok (.arr out) ↔
      List.Forall₂ (fun i o => gpsFromString i none = .ok o) l out) ∧
    (∀ l, (∀ s x, l ≠ [.text s, .num x]) → ∀ h out, gpsFromString (.list l) (some h) = .ok (.arr out) ↔
      ∃ out', out = out' ++ [.num h] ∧ (∀ a, .arr a ∉ out') ∧ List.Forall₂ (fun i o => gpsFromString i none = .ok o) l out') ∧
    (∀ l, (∀ s x, l ≠ [.text s, .num x]) → ∀ h out a, .arr a ∈ out → List.Forall₂ (fun i o => gpsFromString i none = .ok o) l out →
      gpsFromString (.list l) (some h) = .error .value) := by
  have list : ∀ l out, fromList l = .ok out ↔ List.Forall₂ (fun i o => gpsFromString i none = .ok o) l out := by
    intro l
    induction l with
    | nil =>
      intro out
      rw [fromList]
      constructor
      · intro h; simp only [Except.ok.injEq] at h; subst h; exact .nil
      · intro h; cases h; rfl
    | cons i l ih =>
      intro out
      rw [fromList]
      simp only [bind, Except.bind, pure, Except.pure]
      constructor
      · intro h
        cases h1 : gpsFromString i none with
        | error e => rw [h1] at h; simp at h
        | ok a =>
          rw [h1] at h
          cases h2 : fromList l with
          | error e => rw [h2] at h; simp at h
          | ok b =>
            rw [h2] at h
            simp only [Except.ok.injEq] at h
            subst h
            exact .cons h1 ((ih b).1 h2)
      · intro h
        cases h with
        | cons h1 h2 => rw [h1]; simp only [(ih _).2 h2]
  have step : ∀ l, (∀ s x, l ≠ [.text s, .num x]) → ∀ height, gpsFromString (.list l) height = (do
      let data ← fromList l
      match height with
      | none => return .arr data
      | some h => hstack data h) := by
    intro l hl height
    rw [gpsFromString.eq_4]
    · cases height <;> rfl
    · intro s x e
      exact hl s x (by simpa using e)
  refine ⟨fun x => by rw [gpsFromString], fun s x => by rw [gpsFromString, gpsFromString], fun l hl out => ?_,
    fun l hl h out => ⟨fun ho => ?_, ?_⟩, fun l hl h out a ha hf => ?_⟩
  · rw [step l hl, ← list l out]
    cases fromList l <;> simp [bind, Except.bind, pure, Except.pure]
  · rw [step l hl] at ho
    cases h1 : fromList l with
    | error e => rw [h1] at ho; simp [bind, Except.bind] at ho
    | ok data =>
      rw [h1] at ho
      simp only [bind, Except.bind, hstack] at ho
      split_ifs at ho with hall
      simp only [Except.ok.injEq, Out.arr.injEq] at ho
      exact ⟨data, ho.symm, fun a ha => by simpa using List.all_eq_true.1 hall _ ha, (list l data).1 h1⟩
  · rintro ⟨out', rfl, h2, h3⟩
    rw [step l hl, (list l out').2 h3]
    simp only [bind, Except.bind, hstack]
    rw [if_pos]
    refine List.all_eq_true.2 fun o ho => ?_
    cases o with
    | arr a => exact absurd ho (h2 a)
    | _ => rfl
  · rw [step l hl, (list l out).2 hf]
    simp only [bind, Except.bind, hstack]
    rw [if_neg]
    intro hall
    simpa using List.all_eq_true.1 hall _ ha

/-- Texts with two coordinates, with one coordinate and without a coordinate. -/
theorem GpsText.exists_pair : ∃ s f g, IsPair f s g :=
  ⟨['7', '°', '8', '°'], .d, (⟨['7'], none, none, none⟩, ⟨['8'], none, none, none⟩), [], ['7', '°'], [], [], [],
    ['8', '°'], [], [], by simp [Blank], .d ['7'] [] ⟨by simp, by decide⟩ (by simp [Blank]), by simp, by simp [Blank],
    by simp, by simp [Blank], .d ['8'] [] ⟨by simp, by decide⟩ (by simp [Blank]), by simp, by simp [Blank], rfl⟩

theorem GpsText.exists_single : ∃ s, (∀ f g, ¬ IsPair f s g) ∧ ∃ f g, IsSingle f s g := by
  refine ⟨['7', '°'], fun f g h => ?_, .d, ⟨['7'], none, none, none⟩, [], ['7', '°'], [], [], by simp [Blank],
    .d ['7'] [] ⟨by simp, by decide⟩ (by simp [Blank]), by simp, by simp [Blank], rfl⟩
  obtain ⟨u, v, w, e, -, -, -⟩ := pair_split h
  have := congrArg (List.count '°') e
  simp at this
  omega

theorem GpsText.exists_none : ∃ s, (∀ f g, ¬ IsPair f s g) ∧ ∀ f g, ¬ IsSingle f s g := by
  refine ⟨[], fun f g h => ?_, fun f g h => ?_⟩
  · obtain ⟨u, v, w, e, -, -, -⟩ := pair_split h
    simp at e
  · obtain ⟨b, t, b', rest, -, hc, -, -, e⟩ := h
    obtain ⟨tail, rfl, -, -, -⟩ := coord_split hc
    simp at e

example : ∃ s, ∃ f g, IsPair f s g := GpsText.exists_pair

example : ∃ s, (∀ f g, ¬ IsPair f s g) ∧ ∃ f g, IsSingle f s g := GpsText.exists_single

example : ∃ s, (∀ f g, ¬ IsPair f s g) ∧ ∀ f g, ¬ IsSingle f s g := GpsText.exists_none

example : ∃ l : List Input, ∀ s x, l ≠ [.text s, .num x] := ⟨[], by simp⟩

/-! ### C104 -/

/-- **C104 is violated** by the notation of the docstring, which writes the minutes with the apostrophe ’: for
all degrees and minutes and everything behind them (seconds, letter, longitude) the result is the single positive
number degrees + minutes / 60; no pattern accepts this minute mark. -/
theorem C104_violated (deg min rest : Text) (hd : Digits deg) (hm : Digits min) (height : Option ℝ) :
    gpsFromString (.text (deg ++ '°' :: ' ' :: (min ++ '’' :: rest))) height =
      .ok (.num (Nat.ofDigitChars 10 deg 0 + (Nat.ofDigitChars 10 min 0 : ℝ) / 60)) := by
  have hpair : ∀ f g, ¬ IsPair f (deg ++ '°' :: ' ' :: (min ++ '’' :: rest)) g := by
    intro f g h
    obtain ⟨u, v, w, e, hu, hv, -⟩ := pair_split h
    obtain ⟨-, -, e⟩ := span_unique Inner e (inner_digits hd) hu (by simp [Inner]) (by simp [Inner])
    have e : (' ' :: min) ++ '’' :: rest = v ++ '°' :: w := e
    obtain ⟨-, h, -⟩ := span_unique Inner e
      (by
        intro z hz
        rcases List.mem_cons.1 hz with rfl | hz
        · exact inner_space (by decide)
        · exact inner_digits hm z hz) hv (by simp [Inner]) (by simp [Inner])
    exact absurd h (by decide)
  have hdms : ∀ g, ¬ IsSingle .dms (deg ++ '°' :: ' ' :: (min ++ '’' :: rest)) g := by
    rintro g ⟨b, t, b', rest', c1, hc, -, -, e⟩
    generalize hg1 : g.deg = deg' at hc
    generalize hg2 : g.min = min' at hc
    generalize hg3 : g.sec = sec' at hc
    cases hc with
    | dms _ b1 min1 m b2 sec m' b3 h1 h2 h3 h4 h5 h6 h7 h8 =>
      have e : deg ++ '°' :: ' ' :: (min ++ '’' :: rest) = (b ++ deg') ++ '°' :: (b1 ++ (min1 ++ (m ++ (b2 ++ (sec ++
        (m' ++ (b3 ++ (letterText g.sign ++ (b' ++ rest'))))))))) := by rw [e]; simp
      obtain ⟨-, -, e⟩ := span_unique Inner e (inner_digits hd) (inner_append (inner_blank c1) (inner_signed h1))
        (by simp [Inner]) (by simp [Inner])
      obtain ⟨mc, hmc, m1⟩ : ∃ mc, m = [mc] ∧ (mc = '\'' ∨ mc = '′' ∨ mc = '´') := by
        rcases h4 with rfl | rfl | rfl
        · exact ⟨_, rfl, by simp⟩
        · exact ⟨_, rfl, by simp⟩
        · exact ⟨_, rfl, by simp⟩
      subst hmc
      have e : (' ' :: min) ++ '’' :: rest = (b1 ++ min1) ++ mc :: (b2 ++ (sec ++ (m' ++ (b3 ++ (letterText g.sign ++
        (b' ++ rest')))))) := by simpa using e
      obtain ⟨-, h, -⟩ := span_unique (fun c => isSpace c ∨ isDigit c) e
        (by
          intro z hz
          rcases List.mem_cons.1 hz with rfl | hz
          · exact Or.inl (by decide)
          · exact Or.inr (isDigit_iff.2 (hm.2 z hz)))
        (by
          intro z hz
          rcases List.mem_append.1 hz with hz | hz
          · exact Or.inl (h2.space z hz)
          · exact Or.inr (isDigit_iff.2 (h3.2 z hz)))
        (by decide) (by rcases m1 with rfl | rfl | rfl <;> decide)
      rcases m1 with rfl | rfl | rfl <;> exact absurd h (by decide)
  have hdm : matchSingle .dm (deg ++ '°' :: ' ' :: (min ++ '’' :: rest)) = some ⟨deg, some min, none, none⟩ := by
    unfold matchSingle
    refine greedy_first [] _ (by simp) (stops_append hd.1 (digits_not_space hd)) (Nat.zero_le _) ?_
    refine part_dm_first deg [' '] min [] ('’' :: rest) false ⟨hd.1, fun c hc => Or.inl (hd.2 c hc)⟩ (by simp [Blank]; decide)
      (digits_decimals hm) (by simp [Blank]) (fun _ => stops_cons (by decide)) (stops_cons (by decide)) ?_
    rw [optional_skip (by
      intro t ht
      simp only [List.mem_cons, List.not_mem_nil, or_false] at ht
      rcases ht with rfl | rfl | rfl | rfl <;> simp)]
    exact greedy_first [] _ (by simp) (stops_cons (by decide)) (Nat.zero_le _) rfl
  have e : ∀ s, gpsFromString (.text s) height = fromText s height := fun s => by rw [gpsFromString]
  rw [e]
  unfold fromText
  have p0 : ∀ f, matchPair f (deg ++ '°' :: ' ' :: (min ++ '’' :: rest)) = none := by
    intro f
    cases h : matchPair f (deg ++ '°' :: ' ' :: (min ++ '’' :: rest)) with
    | none => rfl
    | some g => exact absurd (matchPair_some h) (hpair f g)
  have s0 : matchSingle .dms (deg ++ '°' :: ' ' :: (min ++ '’' :: rest)) = none := by
    cases h : matchSingle .dms (deg ++ '°' :: ' ' :: (min ++ '’' :: rest)) with
    | none => rfl
    | some g => exact absurd (matchSingle_some h) (hdms g)
  simp only [List.findSome?_cons, List.findSome?_nil, p0, s0, hdm]
  rw [C47_process_degree ⟨deg, some min, none, none⟩ _ (Or.inl rfl) ⟨false, _, _, _, .plain _ _ (.int _ hd),
    .some _ _ (.int _ hm), .none, fun h => by simp at h, fun _ => rfl⟩]
  simp [Except.map, dmsValue]

example : ∃ deg min : Text, Digits deg ∧ Digits min := ⟨['7'], ['3'], ⟨by simp, by decide⟩, ⟨by simp, by decide⟩⟩
