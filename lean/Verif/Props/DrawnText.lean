import Verif.Props.GpsFormat

/-! # What the property test of the texts of gps coordinates asserts (C180)

`test_gpsStringBackForth` of tests/test_gps.py:53-81 for all numbers it can draw, and beyond them for all widths
and numbers of decimals of its three formats. -/

open Py GpsText

namespace GpsText

theorem no_pair {s : Text} (h : s.count '°' ≤ 1) (f : Fmt) : matchPair f s = none := by
  refine Option.eq_none_iff_forall_not_mem.2 fun g hg => ?_
  obtain ⟨u, v, w, e, -, -, -⟩ := pair_split (matchPair_some hg)
  have := congrArg (List.count '°') e
  simp at this
  omega

theorem count_inner {t : Text} (h : ∀ c ∈ t, Inner c) : t.count '°' = 0 :=
  List.count_eq_zero.2 fun hc => (h _ hc).1 rfl

theorem read_single {f : Fmt} {s : Text} {g : Groups} {a : ℝ} (hc : s.count '°' ≤ 1) (h : matchSingle f s = some g)
    (h0 : ∀ f', f'.rank < f.rank → matchSingle f' s = none) (v : Value g a) (height : Option ℝ) :
    gpsFromString (.text s) height = .ok (.num a) := by
  rw [gpsFromString]
  have e1 : [Fmt.dms, .dm, .d].findSome? (fun f => matchPair f s) = none := by simp [no_pair hc]
  have e2 : [Fmt.dms, .dm, .d].findSome? (fun f => matchSingle f s) = some g := by
    cases f with
    | dms => simp [h]
    | dm => simp [h, h0 .dms (by simp [Fmt.rank])]
    | d => simp [h, h0 .dms (by simp [Fmt.rank]), h0 .dm (by simp [Fmt.rank])]
  obtain ⟨-, -, -, -, -, -, hs, -, -⟩ := matchSingle_some h
  unfold fromText
  rw [e1, e2]
  simp only [C47_process_degree _ _ hs v]
  rfl

theorem letter_any {L : Char × Char} (hL : L = ('N', 'S') ∨ L = ('E', 'W')) (x : ℝ) :
    letterOf L x = 'N' ∨ letterOf L x = 'S' ∨ letterOf L x = 'W' ∨ letterOf L x = 'E' := by
  rcases hL with rfl | rfl
  · rcases letter_lat x with h | h <;> simp [h]
  · rcases letter_lon x with h | h <;> simp [h]

theorem after_single {L : Char × Char} (hL : L = ('N', 'S') ∨ L = ('E', 'W')) (x : ℝ) (g : Option Text → Groups) :
    optional [['N'], ['S'], ['W'], ['E']] (fun sign => greedy isSpace 0 fun _ _ => some (g sign)) [letterOf L x] =
      some (g (some [letterOf L x])) := by
  refine optional_letter ?_ ?_ ?_
  · rcases letter_any hL x with h | h | h | h <;> simp [h]
  · rcases letter_any hL x with h | h | h | h <;> simp [h]
  · exact greedy_first [] [] (by simp) (stops_nil _) (Nat.zero_le _) rfl

theorem stops_single {L : Char × Char} (hL : L = ('N', 'S') ∨ L = ('E', 'W')) (x : ℝ) (t : Text) :
    Stops isSpace (letterOf L x :: t) := by
  refine stops_cons ?_
  rcases letter_any hL x with h | h | h | h <;> rw [h] <;> decide

theorem inner_letter {L : Char × Char} (hL : L = ('N', 'S') ∨ L = ('E', 'W')) (x : ℝ) : Inner (letterOf L x) := by
  rcases letter_any hL x with h | h | h | h <;> rw [h] <;> constructor <;> decide

/-- A written coordinate alone is read back. -/
def OneReadsBack (t : List Tok) (L : Char × Char) (x err : ℝ) : Prop :=
  ∃ a, (∀ height, gpsFromString (.text (formatOne t L x)) height = .ok (.num a)) ∧ |a - x| ≤ err

theorem single_dms {L : Char × Char} (hL : L = ('N', 'S') ∨ L = ('E', 'W')) (w1 w2 w3 : Width) (p : ℕ) (x : ℝ) :
    OneReadsBack (dmsFormat w1 w2 w3 p) L x (1 / 2 / 10 ^ p / 3600) := by
  obtain ⟨b1, b2, b3, D, M, S, vD, vM, vS, e, h1, h2, h3, ⟨gD, rD⟩, ⟨gM, rM⟩, ⟨gS, rS⟩, hb⟩ := one_dms w1 w2 w3 p L x
  obtain ⟨a, la, va, ha⟩ := value_letter hL
    ⟨D, some M, some S, some [letterOf L x]⟩ rfl (.plain _ _ rD) (.some _ _ rM) (.some _ _ rS) rfl hb
  refine ⟨a, fun height => ?_, ha⟩
  rw [e]
  refine read_single (f := .dms) ?_ ?_ (fun f' hf => by simp [Fmt.rank] at hf) va height
  · have c0 := inner_letter hL x
    simp [count_inner (inner_blank h1), count_inner (inner_blank h2), count_inner (inner_blank h3), count_inner (inner_digits gD),
      count_inner (inner_digits gM), count_inner (inner_decimals gS), c0.1]
  · unfold matchSingle
    refine greedy_first b1 _ h1.space (stops_append gD.1 (digits_not_space gD)) (Nat.zero_le _) ?_
    refine part_dms_first _ _ _ _ _ [' '] _ (signed_digits gD) (blank_cons h2) gM (blank_cons h3)
      gS (by simp [Blank]; decide) (stops_single hL x _) ?_
    exact after_single hL x fun s => ⟨D, some M, some S, s⟩

theorem single_dm {L : Char × Char} (hL : L = ('N', 'S') ∨ L = ('E', 'W')) (w1 w2 : Width) (p : ℕ) (mark : Bool) (x : ℝ) :
    OneReadsBack (dmFormat w1 w2 p mark) L x (1 / 2 / 10 ^ p / 60) := by
  obtain ⟨b1, b2, D, M, vD, vM, e, h1, h2, ⟨gD, rD⟩, ⟨gM, rM⟩, hb⟩ := one_dm w1 w2 p mark L x
  obtain ⟨a, la, va, ha⟩ := value_letter hL
    ⟨D, some M, none, some [letterOf L x]⟩ rfl (.plain _ _ rD) (.some _ _ rM) .none rfl hb
  refine ⟨a, fun height => ?_, ha⟩
  rw [e]
  refine read_single (f := .dm) ?_ ?_ (fun f' hf => ?_) va height
  · have c0 := inner_letter hL x
    cases mark <;>
    simp [count_inner (inner_blank h1), count_inner (inner_blank h2), count_inner (inner_digits gD),
      count_inner (inner_decimals gM), c0.1]
  · unfold matchSingle
    refine greedy_first b1 _ h1.space (stops_append gD.1 (digits_not_space gD)) (Nat.zero_le _) ?_
    refine part_dm_first _ _ _ [' '] _ mark (signed_digits gD) (blank_cons h2) gM
      (by simp [Blank]; decide) (fun _ => stops_cons (by decide)) (stops_single hL x _) ?_
    exact after_single hL x fun s => ⟨D, some M, none, s⟩
  · have : f' = .dms := by cases f' <;> simp [Fmt.rank] at hf ⊢
    subst this
    refine Option.eq_none_iff_forall_not_mem.2 fun g hg => ?_
    obtain ⟨d1, t, b', rest, d2, hc, -, -, ee⟩ := matchSingle_some hg
    generalize hg1 : g.deg = deg' at hc
    generalize hg2 : g.min = min' at hc
    generalize hg3 : g.sec = sec' at hc
    cases hc with
    | dms _ f1 min1 m f2 sec m' f3 i1 i2 i3 i4 i5 i6 i7 i8 =>
      generalize hR : letterText g.sign ++ (b' ++ rest) = R at ee
      have ee : (b1 ++ D) ++ '°' :: ((' ' :: b2) ++ (M ++ ((if mark then ['\''] else []) ++ ([' '] ++ [letterOf L x])))) =
          (d1 ++ deg') ++ '°' :: (f1 ++ (min1 ++ (m ++ (f2 ++ (sec ++ (m' ++ (f3 ++ R))))))) := by simpa using ee
      obtain ⟨-, -, ee⟩ := span_unique Inner ee (inner_append (inner_blank h1) (inner_digits gD))
        (inner_append (inner_blank d2) (inner_signed i1)) (by simp [Inner]) (by simp [Inner])
      have cls : ∀ a b : Text, Blank a → Decimals b → ∀ z ∈ a ++ b, isSpace z ∨ isDecChar z := by
        intro a b ha hb z hz
        rcases List.mem_append.1 hz with hz | hz
        · exact Or.inl (ha.space z hz)
        · exact Or.inr (isDecChar_iff.2 (hb.2 z hz))
      obtain ⟨mc, hmc, m1⟩ : ∃ mc, m = [mc] ∧ (mc = '\'' ∨ mc = '′' ∨ mc = '´') := by
        rcases i4 with rfl | rfl | rfl
        · exact ⟨_, rfl, by simp⟩
        · exact ⟨_, rfl, by simp⟩
        · exact ⟨_, rfl, by simp⟩
      subst hmc
      cases mark with
      | true =>
        have ee : (' ' :: b2 ++ M) ++ '\'' :: (' ' :: [letterOf L x]) =
          (f1 ++ min1) ++ mc :: (f2 ++ (sec ++ (m' ++ (f3 ++ R)))) := by simpa using ee
        obtain ⟨-, -, ee⟩ := span_unique (fun z => isSpace z ∨ isDecChar z) ee (cls _ _ (blank_cons h2) gM)
          (cls _ _ i2 (digits_decimals i3)) (by decide) (by rcases m1 with rfl | rfl | rfl <;> decide)
        cases sec with
        | nil => exact i6.1 rfl
        | cons sc sec =>
          have ee : [' '] ++ letterOf L x :: [] = f2 ++ sc :: (sec ++ (m' ++ (f3 ++ R))) := by simpa using ee
          have hsc := i6.2 sc List.mem_cons_self
          obtain ⟨-, ee, -⟩ := span_unique (fun z => isSpace z = true) ee (by simp; decide) i5.space
            (by rcases letter_any hL x with h | h | h | h <;> rw [h] <;> decide)
            (by
              rw [decimal_not_space i6 sc List.mem_cons_self]
              simp)
          rw [← ee] at hsc
          revert hsc
          rcases letter_any hL x with h | h | h | h <;> rw [h] <;> decide
      | false =>
        have ee : (' ' :: b2 ++ M ++ [' ']) ++ letterOf L x :: [] =
          (f1 ++ min1) ++ mc :: (f2 ++ (sec ++ (m' ++ (f3 ++ R)))) := by simpa using ee
        obtain ⟨-, ee, -⟩ := span_unique (fun z => isSpace z ∨ isDecChar z) ee (by
            intro z hz
            rcases List.mem_append.1 hz with hz | hz
            · exact cls _ _ (blank_cons h2) gM z hz
            · simp only [List.mem_singleton] at hz
              subst hz
              exact Or.inl (by decide))
          (cls _ _ i2 (digits_decimals i3)) (by rcases letter_any hL x with h | h | h | h <;> rw [h] <;> decide)
          (by rcases m1 with rfl | rfl | rfl <;> decide)
        rw [← ee] at m1
        revert m1
        rcases letter_any hL x with h | h | h | h <;> rw [h] <;> decide

theorem single_deg (L : Char × Char) (w : Width) (p : ℕ) (x : ℝ) : OneReadsBack (degFormat w p) L x (1 / 2 / 10 ^ p) := by
  obtain ⟨b, D, vD, e, h1, ⟨gD, rD⟩, hD⟩ := one_deg w p L x
  have hs := signed_decimal (x < 0) gD
  obtain ⟨a, va, ha⟩ : ∃ a, Value ⟨(if x < 0 then ['-'] else []) ++ D, none, none, none⟩ a ∧ |a - x| ≤ 1 / 2 / 10 ^ p := by
    by_cases hx : x < 0
    · refine ⟨-vD, ⟨true, vD, 0, 0, ?_, .none, .none, fun _ => by simp [dmsValue], fun h => ?_⟩, ?_⟩
      · rw [if_pos hx]
        exact .minus _ _ rD
      · simp at h
      · rw [abs_of_neg hx] at hD
        rw [← abs_neg, show -(-vD - x) = vD - -x by ring]
        exact hD
    · refine ⟨vD, ⟨false, vD, 0, 0, ?_, .none, .none, fun h => ?_, fun _ => by simp [dmsValue]⟩, ?_⟩
      · rw [if_neg hx]
        exact .plain _ _ rD
      · simp at h
      · rw [abs_of_nonneg (not_lt.1 hx)] at hD
        exact hD
  refine ⟨a, fun height => ?_, ha⟩
  have e' : formatOne (degFormat w p) L x = b ++ (((if x < 0 then ['-'] else []) ++ D) ++ '°' :: ([] ++ [])) := by
    rw [e]; simp
  rw [e']
  refine read_single (f := .d) ?_ ?_ (fun f' hf => ?_) va height
  · have c := count_inner (inner_signedDecimals hs)
    rw [List.count_append, List.count_append, c, count_inner (inner_blank h1)]
    simp
  · unfold matchSingle
    refine greedy_first b _ h1.space (stops_append hs.1 (signedDecimals_not_space hs)) (Nat.zero_le _) ?_
    refine part_d_first _ [] _ hs (by simp [Blank]) (stops_nil _) ?_
    rw [optional_skip (by intro t ht; simp only [List.mem_cons, List.not_mem_nil, or_false] at ht
                          rcases ht with rfl | rfl | rfl | rfl <;> simp)]
    exact greedy_first [] [] (by simp) (stops_nil _) (Nat.zero_le _) rfl
  · have hne : f' ≠ .d := by rintro rfl; simp [Fmt.rank] at hf
    refine Option.eq_none_iff_forall_not_mem.2 fun g hg => ?_
    obtain ⟨d1, t, b', rest, d2, hc, -, -, ee⟩ := matchSingle_some hg
    obtain ⟨tail, rfl, i1, i2, i3⟩ := coord_split hc
    have ee : (b ++ ((if x < 0 then ['-'] else []) ++ D)) ++ '°' :: [] =
      (d1 ++ g.deg) ++ '°' :: (tail ++ (letterText g.sign ++ (b' ++ rest))) := by simpa using ee
    obtain ⟨-, -, ee⟩ := span_unique Inner ee (inner_append (inner_blank h1) (inner_signedDecimals hs))
      (inner_append (inner_blank d2) i1) (by simp [Inner]) (by simp [Inner])
    have := List.append_eq_nil_iff.1 ee.symm
    exact i3 hne this.1

/-- A height is appended to what a text of two coordinates gives without it. -/
theorem with_height {s : Text} {a b : ℝ} (h : gpsFromString (.text s) none = .ok (.arr [.num a, .num b])) (height : ℝ) :
    gpsFromString (.text s) (some height) = .ok (.arr [.num a, .num b, .num height]) := by
  rw [gpsFromString] at h ⊢
  unfold fromText at h ⊢
  cases hp : [Fmt.dms, .dm, .d].findSome? (fun f => matchPair f s) with
  | some g =>
    rw [hp] at h
    simp only at h ⊢
    unfold pairValues at h ⊢
    cases h1 : processDegree g.1 with
    | error e => rw [h1] at h; cases h
    | ok x =>
      cases h2 : processDegree g.2 with
      | error e => rw [h1, h2] at h; cases h
      | ok y =>
        rw [h1, h2] at h
        simp only [bind, Except.bind, pure, Except.pure, Except.ok.injEq, Out.arr.injEq, List.cons.injEq, Out.num.injEq,
          and_true] at h ⊢
        simp [h.1, h.2]
  | none =>
    rw [hp] at h
    simp only at h
    split at h
    · next g hg =>
      cases h1 : processDegree g with
      | error e => rw [h1] at h; cases h
      | ok x => rw [h1] at h; cases h
    · cases h

/-- The assertions of tests/test_gps.py:55-69: in a list, in two texts, with a height and in two texts with a height. -/
def AllRead (t : List Tok) (lat lon err : ℝ) : Prop :=
  ∃ la lo, formatGPS t lat lon = .ok (la, lo) ∧
    (∃ a b, gpsFromString (.list [.text (la ++ ' ' :: lo)]) none = .ok (.arr [.arr [.num a, .num b]]) ∧
      (∀ height, gpsFromString (.text (la ++ ' ' :: lo)) (some height) = .ok (.arr [.num a, .num b, .num height])) ∧
      |a - lat| ≤ err ∧ |b - lon| ≤ err) ∧
    ∃ a b, gpsFromString (.list [.text la, .text lo]) none = .ok (.arr [.num a, .num b]) ∧
      (∀ height, gpsFromString (.list [.text la, .text lo]) (some height) = .ok (.arr [.num a, .num b, .num height])) ∧
      |a - lat| ≤ err ∧ |b - lon| ≤ err

theorem all_read {t : List Tok} {lat lon err : ℝ} (h : ReadsBack t lat lon err)
    (hf : ∀ la lo, formatGPS t lat lon = .ok (la, lo) → la = formatOne t ('N', 'S') lat ∧ lo = formatOne t ('E', 'W') lon)
    (h1 : OneReadsBack t ('N', 'S') lat err) (h2 : OneReadsBack t ('E', 'W') lon err) : AllRead t lat lon err := by
  obtain ⟨la, lo, a, b, e, r, ha, hb⟩ := h
  obtain ⟨a', r1, ha'⟩ := h1
  obtain ⟨b', r2, hb'⟩ := h2
  obtain ⟨rfl, rfl⟩ := hf la lo e
  have n0 : ∀ s x, [Input.text (formatOne t ('N', 'S') lat), .text (formatOne t ('E', 'W') lon)] ≠ [.text s, .num x] := by
    intro s x h; simp at h
  have n1 : ∀ s x, [Input.text (formatOne t ('N', 'S') lat ++ ' ' :: formatOne t ('E', 'W') lon)] ≠ [.text s, .num x] := by
    intro s x h; simp at h
  refine ⟨_, _, e, ⟨a, b, ?_, with_height r, ha, hb⟩, a', b', ?_, fun height => ?_, ha', hb'⟩
  · exact ((C48_lists none).2.2.1 _ n1 _).2 (.cons r .nil)
  · exact ((C48_lists none).2.2.1 _ n0 _).2 (.cons (r1 none) (.cons (r2 none) .nil))
  · exact ((C48_lists none).2.2.2.1 _ n0 _ _).2 ⟨[.num a', .num b'], rfl, by simp, .cons (r1 none) (.cons (r2 none) .nil)⟩

end GpsText

/-- **C180** `test_gpsStringBackForth` of tests/test_gps.py:53-76 holds for all latitudes and longitudes, with at most
half a thousandth of a degree (the test allows 0.015°): what the three formats write is read back from a list of one
text, from the two texts, and with every height appended to either.  The two wrong formats raise a ValueError for all
numbers. -/
theorem C180_texts (lat lon : ℝ) :
    (∀ t, parseFormat "%2d° %2d' %6.3f\" %s".toList = some t → AllRead t lat lon (1 / 2 / 1000 / 3600)) ∧
    (∀ t, parseFormat "%2d° %2.3f' %s".toList = some t → AllRead t lat lon (1 / 2 / 1000 / 60)) ∧
    (∀ t, parseFormat "%2.3f°".toList = some t → AllRead t lat lon (1 / 2 / 1000)) ∧
    (∀ t, parseFormat [] = some t → formatGPS t lat lon = .error .value) ∧
    (∀ t, parseFormat "%2d %2d %2d %2d %2d".toList = some t → formatGPS t lat lon = .error .value) := by
  obtain ⟨d1, d2, -, d4⟩ := C45_documented lat lon
  refine ⟨fun t h => ?_, fun t h => ?_, fun t h => ?_, fun t h => ?_, fun t h => ?_⟩
  · have r := d1 t h
    rw [parse_default] at h
    cases h
    refine all_read r (fun la lo e => ?_) ?_ ?_
    · cases e; exact ⟨rfl, rfl⟩
    · have := single_dms (L := ('N', 'S')) (Or.inl rfl) ⟨false, 2⟩ ⟨false, 2⟩ ⟨false, 6⟩ 3 lat
      norm_num at this ⊢
      exact this
    · have := single_dms (L := ('E', 'W')) (Or.inr rfl) ⟨false, 2⟩ ⟨false, 2⟩ ⟨false, 6⟩ 3 lon
      norm_num at this ⊢
      exact this
  · have r := d2 t h
    rw [parse_minutes] at h
    cases h
    refine all_read r (fun la lo e => ?_) ?_ ?_
    · cases e; exact ⟨rfl, rfl⟩
    · have := single_dm (L := ('N', 'S')) (Or.inl rfl) ⟨false, 2⟩ ⟨false, 2⟩ 3 true lat
      norm_num at this ⊢
      exact this
    · have := single_dm (L := ('E', 'W')) (Or.inr rfl) ⟨false, 2⟩ ⟨false, 2⟩ 3 true lon
      norm_num at this ⊢
      exact this
  · have r := d4 t h
    rw [parse_degrees] at h
    cases h
    refine all_read r (fun la lo e => ?_) ?_ ?_
    · cases e; exact ⟨rfl, rfl⟩
    · have := single_deg ('N', 'S') ⟨false, 2⟩ 3 lat
      norm_num at this ⊢
      exact this
    · have := single_deg ('E', 'W') ⟨false, 2⟩ 3 lon
      norm_num at this ⊢
      exact this
  · rw [parse_nil] at h
    cases h
    rfl
  · have p : parseFormat "%2d %2d %2d %2d %2d".toList = some [.d ⟨false, 2⟩, .lit ' ', .d ⟨false, 2⟩, .lit ' ', .d ⟨false, 2⟩, .lit ' ',
        .d ⟨false, 2⟩, .lit ' ', .d ⟨false, 2⟩] :=
      parse_place (spec := ['2']) (by decide) (by decide) (by rfl) <| parse_lit (by decide) <|
      parse_place (spec := ['2']) (by decide) (by decide) (by rfl) <| parse_lit (by decide) <|
      parse_place (spec := ['2']) (by decide) (by decide) (by rfl) <| parse_lit (by decide) <|
      parse_place (spec := ['2']) (by decide) (by decide) (by rfl) <| parse_lit (by decide) <|
      parse_place (spec := ['2']) (by decide) (by decide) (by rfl) parse_nil
    rw [p] at h
    cases h
    rfl

/-- **C180** The three formats of the test are read as formats. -/
theorem C180_texts_formats : (∃ t, parseFormat "%2d° %2d' %6.3f\" %s".toList = some t) ∧
    (∃ t, parseFormat "%2d° %2.3f' %s".toList = some t) ∧ ∃ t, parseFormat "%2.3f°".toList = some t :=
  ⟨⟨_, parse_default⟩, ⟨_, parse_minutes⟩, ⟨_, parse_degrees⟩⟩

example : ∃ t, parseFormat [] = some t := ⟨_, parse_nil⟩
