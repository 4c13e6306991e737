import Verif.Spec.GpsFormat
import Verif.Proofs.GpsDigits
import Verif.Props.GpsText

/-! # Properties of writing coordinates (C45, C46) -/

open Py GpsText

namespace GpsText

theorem signed_digits {t : Text} (h : Digits t) : Signed t := ⟨h.1, fun c hc => Or.inl (h.2 c hc)⟩

/-- The letter of a coordinate. -/
noncomputable def letterOf (L : Char × Char) (x : ℝ) : Char := if x < 0 then L.2 else L.1

theorem formatOne_letter {t : List Tok} {L : Char × Char} {x d : ℝ} {v : List ℝ} (h : Tok.s ∈ t)
    (e : splitAngle (numbers t)[1]? (numbers t)[2]? |x| = d :: v) : formatOne t L x = fill (letterOf L x) t (d :: v) := by
  unfold formatOne
  simp only [e, h, not_true_eq_false, false_and, if_false, letterOf]

theorem formatOne_sign {t : List Tok} {L : Char × Char} {x d : ℝ} {v : List ℝ} (h : Tok.s ∉ t)
    (e : splitAngle (numbers t)[1]? (numbers t)[2]? |x| = d :: v) :
    formatOne t L x = fill (letterOf L x) t ((if x < 0 then -d else d) :: v) := by
  unfold formatOne
  simp only [e, h, not_false_eq_true, true_and, letterOf]

theorem one_dms (w1 w2 w3 : Width) (p : ℕ) (L : Char × Char) (x : ℝ) : ∃ (b1 b2 b3 tD tM tS : Text) (D M S : ℝ),
    formatOne (dmsFormat w1 w2 w3 p) L x = b1 ++ (tD ++ '°' :: ((' ' :: b2) ++ (tM ++ '\'' :: ((' ' :: b3) ++
      (tS ++ '"' :: ([' '] ++ [letterOf L x])))))) ∧
    Blank b1 ∧ Blank b2 ∧ Blank b3 ∧ (Digits tD ∧ Reads tD D) ∧ (Digits tM ∧ Reads tM M) ∧ (Decimals tS ∧ Reads tS S) ∧
    |dmsValue D M S - abs x| ≤ 1 / 2 / 10 ^ p / 3600 := by
  obtain ⟨d, m, s, e, hd, hm, hs, hb⟩ := split_dms w2 w3 p (abs_nonneg x)
  obtain ⟨b1, z1, h1, y1, e1⟩ := pad_split w1 false (digits ⌊d⌋₊)
  obtain ⟨b2, z2, h2, y2, e2⟩ := pad_split w2 false (digits ⌊m⌋₊)
  obtain ⟨b3, z3, h3, y3, e3⟩ := pad_split w3 false (decimal p (roundEven (s * 10 ^ p)))
  refine ⟨b1, b2, b3, z1 ++ digits ⌊d⌋₊, z2 ++ digits ⌊m⌋₊, z3 ++ decimal p (roundEven (s * 10 ^ p)), _, _, _, ?_, h1, h2, h3,
    ⟨y1.digits (digits_digits _), y1.reads (reads_digits _)⟩, ⟨y2.digits (digits_digits _), y2.reads (reads_digits _)⟩,
    ⟨y3.decimals (decimal_decimals _ _), y3.reads (decimal_reads _ _)⟩, hb⟩
  rw [formatOne_letter (t := dmsFormat w1 w2 w3 p) (v := [m, s]) (by simp [dmsFormat]) e]
  simp only [dmsFormat, fill, formatNum, formatD_nonneg _ hd, formatD_nonneg _ hm, formatF_nonneg _ _ hs, e1, e2, e3]
  simp

theorem one_dm (w1 w2 : Width) (p : ℕ) (mark : Bool) (L : Char × Char) (x : ℝ) : ∃ (b1 b2 tD tM : Text) (D M : ℝ),
    formatOne (dmFormat w1 w2 p mark) L x = b1 ++ (tD ++ '°' :: ((' ' :: b2) ++ (tM ++
      ((if mark then ['\''] else []) ++ ([' '] ++ [letterOf L x]))))) ∧
    Blank b1 ∧ Blank b2 ∧ (Digits tD ∧ Reads tD D) ∧ (Decimals tM ∧ Reads tM M) ∧ |dmsValue D M 0 - abs x| ≤ 1 / 2 / 10 ^ p / 60 := by
  obtain ⟨d, m, s, e, hd, hm, hb⟩ := split_dm w2 p (abs_nonneg x)
  obtain ⟨b1, z1, h1, y1, e1⟩ := pad_split w1 false (digits ⌊d⌋₊)
  obtain ⟨b2, z2, h2, y2, e2⟩ := pad_split w2 false (decimal p (roundEven (m * 10 ^ p)))
  refine ⟨b1, b2, z1 ++ digits ⌊d⌋₊, z2 ++ decimal p (roundEven (m * 10 ^ p)), _, _, ?_, h1, h2,
    ⟨y1.digits (digits_digits _), y1.reads (reads_digits _)⟩, ⟨y2.decimals (decimal_decimals _ _), y2.reads (decimal_reads _ _)⟩, hb⟩
  have hn : numbers (dmFormat w1 w2 p mark) = [.d w1, .f w2 p] := by cases mark <;> rfl
  rw [formatOne_letter (by cases mark <;> simp [dmFormat]) (by rw [hn]; exact e)]
  cases mark <;>
  · simp only [dmFormat, fill, formatNum, formatD_nonneg _ hd, formatF_nonneg _ _ hm, e1, e2, List.cons_append,
      List.nil_append, if_true, Bool.false_eq_true, if_false, List.append_nil]
    simp

theorem one_deg (w : Width) (p : ℕ) (L : Char × Char) (x : ℝ) : ∃ (b t : Text) (D : ℝ),
    formatOne (degFormat w p) L x = b ++ ((if x < 0 then ['-'] else []) ++ t) ++ ['°'] ∧ Blank b ∧ (Decimals t ∧ Reads t D) ∧
    |D - abs x| ≤ 1 / 2 / 10 ^ p := by
  have hn : numbers (degFormat w p) = [.f w p] := rfl
  have hb := round_close (abs_nonneg x) p
  by_cases hx : x < 0
  · obtain ⟨b, z, h1, y, e1⟩ := pad_split w true (decimal p (roundEven (|x| * 10 ^ p)))
    refine ⟨b, z ++ decimal p (roundEven (|x| * 10 ^ p)), _, ?_, h1, ⟨y.decimals (decimal_decimals _ _), y.reads (decimal_reads _ _)⟩, hb⟩
    rw [formatOne_sign (d := |x|) (by simp [degFormat]) (by rw [hn]; rfl), if_pos hx, if_pos hx]
    simp only [degFormat, fill, formatNum]
    rw [formatF_neg w p (by simpa using hx.ne), neg_neg, e1]
    simp
  · obtain ⟨b, z, h1, y, e1⟩ := pad_split w false (decimal p (roundEven (|x| * 10 ^ p)))
    refine ⟨b, z ++ decimal p (roundEven (|x| * 10 ^ p)), _, ?_, h1, ⟨y.decimals (decimal_decimals _ _), y.reads (decimal_reads _ _)⟩, hb⟩
    rw [formatOne_sign (d := |x|) (by simp [degFormat]) (by rw [hn]; rfl), if_neg hx, if_neg hx]
    simp only [degFormat, fill, formatNum]
    rw [formatF_nonneg w p (abs_nonneg x), e1]
    simp

theorem blank_cons {b : Text} (h : Blank b) : Blank (' ' :: b) := by
  intro c hc
  rcases List.mem_cons.1 hc with rfl | hc
  · decide
  · exact h c hc

theorem optional_letter {β : Type} {k : Option Text → Text → Option β} {ts : List Text} {c : Char} {b : Text} {r : β}
    (hc : [c] ∈ ts) (hts : ∀ t ∈ ts, t = [c] ∨ ¬ t <+: c :: b) (h : k (some [c]) b = some r) :
    optional ts k (c :: b) = some r := by
  have : (ts.findSome? fun t => if t.isPrefixOf (c :: b) then k (some t) ((c :: b).drop t.length) else none) = some r := by
    induction ts with
    | nil => simp at hc
    | cons t ts ih =>
      rw [List.findSome?_cons]
      rcases hts t List.mem_cons_self with rfl | hn
      · simp [h]
      · rw [if_neg (by rw [List.isPrefixOf_iff_prefix]; exact hn)]
        refine ih ?_ fun t ht => hts t (List.mem_cons_of_mem _ ht)
        rcases List.mem_cons.1 hc with rfl | hc
        · exact absurd ⟨b, rfl⟩ hn
        · exact hc
  unfold optional
  rw [this]

theorem letter_lat (x : ℝ) : letterOf ('N', 'S') x = 'N' ∨ letterOf ('N', 'S') x = 'S' := by
  unfold letterOf; split_ifs <;> simp

theorem letter_lon (x : ℝ) : letterOf ('E', 'W') x = 'W' ∨ letterOf ('E', 'W') x = 'E' := by
  unfold letterOf; split_ifs <;> simp

/-- What follows the first coordinate. -/
theorem after_lat {β : Type} {f : Fmt} {k : Option Text → Text → Option Text → Option Text → Text → Option β} (x : ℝ)
    (b : Text) (hb : Blank b) (t : Text) (ht : Stops (fun c => isSpace c || c == ',') t) {r : β}
    (h : part f (k (some [letterOf ('N', 'S') x])) t = some r) :
    optional [['N'], ['S']] (fun sign => greedy isSpace 0 fun _ => optional [[',']] fun _ => greedy isSpace 0 fun _ =>
      part f (k sign)) (letterOf ('N', 'S') x :: (' ' :: b ++ t)) = some r := by
  have st : Stops isSpace t := by
    intro c t' e
    have := ht c t' e
    simp only [Bool.or_eq_false_iff] at this
    exact this.1
  refine optional_letter ?_ ?_ ?_
  · rcases letter_lat x with h | h <;> simp [h]
  · rcases letter_lat x with h | h <;> simp [h]
  · refine greedy_first (' ' :: b) t (blank_cons hb).space st (Nat.zero_le _) ?_
    rw [optional_skip]
    · exact greedy_first [] t (by simp) st (Nat.zero_le _) h
    · intro u hu ⟨y, hy⟩
      simp only [List.mem_singleton] at hu
      subst hu
      have := ht _ _ hy.symm
      simp at this

theorem after_lon (x : ℝ) (g : Option Text → Groups × Groups) :
    optional [['W'], ['E']] (fun sign => greedy isSpace 0 fun _ _ => some (g sign)) [letterOf ('E', 'W') x] =
      some (g (some [letterOf ('E', 'W') x])) := by
  refine optional_letter ?_ ?_ ?_
  · rcases letter_lon x with h | h <;> simp [h]
  · rcases letter_lon x with h | h <;> simp [h]
  · exact greedy_first [] [] (by simp) (stops_nil _) (Nat.zero_le _) rfl

theorem stops_digits {d : Text} (hd : Digits d) (t : Text) : Stops (fun c => isSpace c || c == ',') (d ++ t) := by
  refine stops_append hd.1 fun c hc => ?_
  have h := hd.2 c hc
  rw [digit_not_space h]
  have : c ≠ ',' := by rintro rfl; revert h; decide
  simp [this]

theorem stops_letter_lat (x : ℝ) (t : Text) : Stops isSpace (letterOf ('N', 'S') x :: t) := by
  refine stops_cons ?_
  rcases letter_lat x with h | h <;> rw [h] <;> decide

theorem stops_letter_lon (x : ℝ) (t : Text) : Stops isSpace (letterOf ('E', 'W') x :: t) := by
  refine stops_cons ?_
  rcases letter_lon x with h | h <;> rw [h] <;> decide

theorem pair_dms (b1 b2 b3 c1 c2 c3 : Text) (D M S D' M' S' : Text) (x y : ℝ) (h1 : Blank b1) (h2 : Blank b2) (h3 : Blank b3)
    (k1 : Blank c1) (k2 : Blank c2) (k3 : Blank c3) (hD : Digits D) (hM : Digits M) (hS : Decimals S) (hD' : Digits D') (hM' : Digits M') (hS' : Decimals S') :
    matchPair .dms (b1 ++ (D ++ '°' :: ((' ' :: b2) ++ (M ++ '\'' :: ((' ' :: b3) ++
      (S ++ '"' :: ([' '] ++ (letterOf ('N', 'S') x :: (' ' :: c1 ++ (D' ++ '°' :: ((' ' :: c2) ++
        (M' ++ '\'' :: ((' ' :: c3) ++ (S' ++ '"' :: ([' '] ++ [letterOf ('E', 'W') y]))))))))))))))) =
      some (⟨D, some M, some S, some [letterOf ('N', 'S') x]⟩,
        ⟨D', some M', some S', some [letterOf ('E', 'W') y]⟩) := by
  unfold matchPair
  refine greedy_first b1 _ h1.space (stops_append hD.1 (digits_not_space hD)) (Nat.zero_le _) ?_
  refine part_dms_first _ _ _ _ _ [' '] _ (signed_digits hD) (blank_cons h2) hM (blank_cons h3)
    hS (by simp [Blank]; decide) (stops_letter_lat x _) ?_
  have h := @after_lat (Groups × Groups) .dms (fun sign deg' min' sec' => optional [['W'], ['E']] fun sign' =>
    greedy isSpace 0 fun _ _ => some (⟨D, some M, some S, sign⟩, ⟨deg', min', sec', sign'⟩))
    x c1 k1 _ (stops_digits hD' ('°' :: ((' ' :: c2) ++
        (M' ++ '\'' :: ((' ' :: c3) ++ (S' ++ '"' :: ([' '] ++ [letterOf ('E', 'W') y]))))))) (⟨D, some M, some S, some [letterOf ('N', 'S') x]⟩,
        ⟨D', some M', some S', some [letterOf ('E', 'W') y]⟩)
  refine h ?_
  refine part_dms_first _ _ _ _ _ [' '] _ (signed_digits hD') (blank_cons k2) hM' (blank_cons k3)
    hS' (by simp [Blank]; decide) (stops_letter_lon y _) ?_
  exact after_lon y fun s => (⟨D, some M, some S, some [letterOf ('N', 'S') x]⟩,
        ⟨D', some M', some S', s⟩)

theorem pair_dm (b1 b2 c1 c2 : Text) (D M D' M' : Text) (mark : Bool) (x y : ℝ) (h1 : Blank b1) (h2 : Blank b2)
    (k1 : Blank c1) (k2 : Blank c2) (hD : Digits D) (hM : Decimals M) (hD' : Digits D') (hM' : Decimals M') :
    matchPair .dm (b1 ++ (D ++ '°' :: ((' ' :: b2) ++ (M ++ ((if mark then ['\''] else []) ++
      ([' '] ++ (letterOf ('N', 'S') x :: (' ' :: c1 ++ (D' ++ '°' :: ((' ' :: c2) ++
        (M' ++ ((if mark then ['\''] else []) ++ ([' '] ++ [letterOf ('E', 'W') y]))))))))))))) =
      some (⟨D, some M, none, some [letterOf ('N', 'S') x]⟩,
        ⟨D', some M', none, some [letterOf ('E', 'W') y]⟩) := by
  unfold matchPair
  refine greedy_first b1 _ h1.space (stops_append hD.1 (digits_not_space hD)) (Nat.zero_le _) ?_
  refine part_dm_first _ _ _ [' '] _ mark (signed_digits hD) (blank_cons h2) hM
    (by simp [Blank]; decide) (fun _ => stops_cons (by decide)) (stops_letter_lat x _) ?_
  have h := @after_lat (Groups × Groups) .dm (fun sign deg' min' sec' => optional [['W'], ['E']] fun sign' =>
    greedy isSpace 0 fun _ _ => some (⟨D, some M, none, sign⟩, ⟨deg', min', sec', sign'⟩))
    x c1 k1 _ (stops_digits hD' ('°' :: ((' ' :: c2) ++ (M' ++ ((if mark then ['\''] else []) ++
      ([' '] ++ [letterOf ('E', 'W') y])))))) (⟨D, some M, none, some [letterOf ('N', 'S') x]⟩,
        ⟨D', some M', none, some [letterOf ('E', 'W') y]⟩)
  refine h ?_
  refine part_dm_first _ _ _ [' '] _ mark (signed_digits hD') (blank_cons k2) hM'
    (by simp [Blank]; decide) (fun _ => stops_cons (by decide)) (stops_letter_lon y _) ?_
  exact after_lon y fun s => (⟨D, some M, none, some [letterOf ('N', 'S') x]⟩,
        ⟨D', some M', none, s⟩)

theorem signed_decimal (neg : Prop) [Decidable neg] {t : Text} (ht : Decimals t) :
    SignedDecimals ((if neg then ['-'] else []) ++ t) := by
  refine ⟨by simp [ht.1], fun c hc => ?_⟩
  rcases List.mem_append.1 hc with h | h
  · split_ifs at h with hn
    · simp at h; simp [h]
    · simp at h
  · rcases ht.2 c h with h | h
    · exact Or.inl h
    · exact Or.inr (Or.inl h)

theorem pair_deg (b c d d' : Text) (h1 : Blank b) (h2 : Blank c) (hd : SignedDecimals d) (hd' : SignedDecimals d') :
    matchPair .d (b ++ (d ++ '°' :: ((' ' :: c) ++ (d' ++ '°' :: ([] ++ []))))) = some (⟨d, none, none, none⟩, ⟨d', none, none, none⟩) := by
  unfold matchPair
  refine greedy_first b _ h1.space (stops_append hd.1 (signedDecimals_not_space hd)) (Nat.zero_le _) ?_
  refine part_d_first d (' ' :: c) _ hd (blank_cons h2) (stops_append hd'.1 (signedDecimals_not_space hd')) ?_
  have key : ∀ z, z = 'N' ∨ z = 'S' ∨ z = ',' → ¬ [z] <+: d' ++ '°' :: ([] ++ []) := by
    rintro z hz ⟨y, hy⟩
    obtain ⟨h0, hd'⟩ := hd'
    cases d' with
    | nil => exact h0 rfl
    | cons c d' =>
      simp only [List.cons_append, List.nil_append, List.cons.injEq] at hy
      have := hd' c List.mem_cons_self
      rw [← hy.1] at this
      revert this
      rcases hz with rfl | rfl | rfl <;> decide
  rw [optional_skip (by intro t ht; simp only [List.mem_cons, List.not_mem_nil, or_false] at ht
                        rcases ht with rfl | rfl
                        · exact key _ (by simp)
                        · exact key _ (by simp))]
  refine greedy_first [] _ (by simp) (stops_append hd'.1 (signedDecimals_not_space hd')) (Nat.zero_le _) ?_
  rw [optional_skip (by intro t ht; simp only [List.mem_cons, List.not_mem_nil, or_false] at ht
                        subst ht
                        exact key _ (by simp))]
  refine greedy_first [] _ (by simp) (stops_append hd'.1 (signedDecimals_not_space hd')) (Nat.zero_le _) ?_
  refine part_d_first d' [] _ hd' (by simp [Blank]) (stops_nil _) ?_
  rw [optional_skip (by intro t ht; simp only [List.mem_cons, List.not_mem_nil, or_false] at ht
                        rcases ht with rfl | rfl <;> simp)]
  exact greedy_first [] [] (by simp) (stops_nil _) (Nat.zero_le _) rfl

/-- The value of a coordinate with a letter. -/
theorem value_letter {L : Char × Char} (hL : L = ('N', 'S') ∨ L = ('E', 'W')) {x v err : ℝ} (g : Groups) {d m s : ℝ}
    (hsign : g.sign = some [letterOf L x]) (h1 : DegText g.deg false d) (h2 : OptReads g.min m) (h3 : OptReads g.sec s)
    (hv : v = dmsValue d m s) (hb : |v - abs x| ≤ err) : ∃ a, Letter g ∧ Value g a ∧ |a - x| ≤ err := by
  by_cases hx : x < 0
  · refine ⟨-v, ?_, ⟨false, d, m, s, h1, h2, h3, fun _ => by rw [hv], fun h => ?_⟩, ?_⟩
    · unfold Letter
      rw [hsign, letterOf, if_pos hx]
      rcases hL with rfl | rfl <;> simp
    · rw [hsign, letterOf, if_pos hx] at h
      rcases hL with rfl | rfl <;> simp at h
    · rw [abs_of_neg hx] at hb
      rw [← abs_neg, show -(-v - x) = v - -x by ring]
      exact hb
  · refine ⟨v, ?_, ⟨false, d, m, s, h1, h2, h3, fun h => ?_, fun _ => hv⟩, ?_⟩
    · unfold Letter
      rw [hsign, letterOf, if_neg hx]
      rcases hL with rfl | rfl <;> simp
    · rw [hsign, letterOf, if_neg hx] at h
      rcases hL with rfl | rfl <;> simp at h
    · rw [abs_of_nonneg (not_lt.1 hx)] at hb
      exact hb

theorem read_pair {f : Fmt} {s : Text} {g1 g2 : Groups} {a b : ℝ} (h : matchPair f s = some (g1, g2))
    (h0 : ∀ f', f'.rank < f.rank → matchPair f' s = none) (l1 : Letter g1) (l2 : Letter g2) (v1 : Value g1 a)
    (v2 : Value g2 b) : gpsFromString (.text s) none = .ok (.arr [.num a, .num b]) := by
  rw [gpsFromString]
  have : [Fmt.dms, .dm, .d].findSome? (fun f => matchPair f s) = some (g1, g2) := by
    cases f with
    | dms => simp [h]
    | dm => simp [h, h0 .dms (by simp [Fmt.rank])]
    | d => simp [h, h0 .dms (by simp [Fmt.rank]), h0 .dm (by simp [Fmt.rank])]
  unfold fromText
  rw [this]
  simp only [pairValues, C47_process_degree _ _ l1 v1, C47_process_degree _ _ l2 v2, bind, Except.bind, pure, Except.pure]

end GpsText

/-- **C45** Degrees, minutes and seconds: for every width and number of decimals and all coordinates, what is read
back differs by at most half a unit of the last printed digit. -/
theorem C45_dms (w1 w2 w3 : Width) (p : ℕ) (lat lon : ℝ) : ReadsBack (dmsFormat w1 w2 w3 p) lat lon (1 / 2 / 10 ^ p / 3600) := by
  obtain ⟨b1, b2, b3, D, M, S, vD, vM, vS, e, h1, h2, h3, ⟨gD, rD⟩, ⟨gM, rM⟩, ⟨gS, rS⟩, hb⟩ := one_dms w1 w2 w3 p ('N', 'S') lat
  obtain ⟨c1, c2, c3, D', M', S', vD', vM', vS', e', k1, k2, k3, ⟨gD', rD'⟩, ⟨gM', rM'⟩, ⟨gS', rS'⟩, hb'⟩ := one_dms w1 w2 w3 p ('E', 'W') lon
  have hp := pair_dms b1 b2 b3 c1 c2 c3 D M S D' M' S' lat lon h1 h2 h3 k1 k2 k3 gD gM gS gD' gM' gS'
  obtain ⟨a, la, va, ha⟩ := value_letter (L := ('N', 'S')) (Or.inl rfl)
    ⟨D, some M, some S, some [letterOf ('N', 'S') lat]⟩ rfl (.plain _ _ rD) (.some _ _ rM) (.some _ _ rS) rfl hb
  obtain ⟨b, lb, vb, hb⟩ := value_letter (L := ('E', 'W')) (Or.inr rfl)
    ⟨D', some M', some S', some [letterOf ('E', 'W') lon]⟩ rfl (.plain _ _ rD') (.some _ _ rM') (.some _ _ rS') rfl hb'
  refine ⟨_, _, a, b, rfl, ?_, ha, hb⟩
  have := read_pair hp (fun f' hf => by simp [Fmt.rank] at hf) la lb va vb
  rw [e, e', ← this]
  simp

/-- **C45** Degrees and minutes, with or without the minute mark. -/
theorem C45_dm (w1 w2 : Width) (p : ℕ) (mark : Bool) (lat lon : ℝ) :
    ReadsBack (dmFormat w1 w2 p mark) lat lon (1 / 2 / 10 ^ p / 60) := by
  obtain ⟨b1, b2, D, M, vD, vM, e, h1, h2, ⟨gD, rD⟩, ⟨gM, rM⟩, hb⟩ := one_dm w1 w2 p mark ('N', 'S') lat
  obtain ⟨c1, c2, D', M', vD', vM', e', k1, k2, ⟨gD', rD'⟩, ⟨gM', rM'⟩, hb'⟩ := one_dm w1 w2 p mark ('E', 'W') lon
  have hp := pair_dm b1 b2 c1 c2 D M D' M' mark lat lon h1 h2 k1 k2 gD gM gD' gM'
  obtain ⟨a, la, va, ha⟩ := value_letter (L := ('N', 'S')) (Or.inl rfl)
    ⟨D, some M, none, some [letterOf ('N', 'S') lat]⟩ rfl (.plain _ _ rD) (.some _ _ rM) .none rfl hb
  obtain ⟨b, lb, vb, hb⟩ := value_letter (L := ('E', 'W')) (Or.inr rfl)
    ⟨D', some M', none, some [letterOf ('E', 'W') lon]⟩ rfl (.plain _ _ rD') (.some _ _ rM') .none rfl hb'
  refine ⟨formatOne (dmFormat w1 w2 p mark) ('N', 'S') lat, formatOne (dmFormat w1 w2 p mark) ('E', 'W') lon, a, b, ?_, ?_,
    ha, hb⟩
  · cases mark <;> rfl
  have := read_pair hp (fun f' hf => by
    have : f' = .dms := by cases f' <;> simp [Fmt.rank] at hf ⊢
    subst this
    refine Option.eq_none_iff_forall_not_mem.2 fun g hg => ?_
    obtain ⟨d1, t, b', comma, b'', t', b3x, rest, d2, hc, -, -, -, -, -, -, -, ee⟩ := matchPair_some hg
    generalize hg1 : g.1.deg = deg' at hc
    generalize hg2 : g.1.min = min' at hc
    generalize hg3 : g.1.sec = sec' at hc
    cases hc with
    | dms _ f1 min1 m f2 sec m' f3 i1 i2 i3 i4 i5 i6 i7 i8 =>
      generalize hR : letterText g.1.sign ++ (b' ++ (comma ++ (b'' ++ (t' ++ (letterText g.2.sign ++ (b3x ++ rest)))))) = R at ee
      generalize hX : (letterOf ('N', 'S') lat :: (' ' :: c1 ++ (D' ++ '°' :: ((' ' :: c2) ++
        (M' ++ ((if mark then ['\''] else []) ++ ([' '] ++ [letterOf ('E', 'W') lon]))))))) = X at ee
      have ee : (b1 ++ D) ++ '°' :: ((' ' :: b2) ++ (M ++ ((if mark then ['\''] else []) ++ ([' '] ++ X)))) =
          (d1 ++ deg') ++ '°' :: (f1 ++ (min1 ++ (m ++ (f2 ++ (sec ++ (m' ++ (f3 ++ R))))))) := by simpa using ee
      obtain ⟨-, -, ee⟩ := span_unique Inner ee (inner_append (inner_blank h1) (inner_digits gD))
        (inner_append (inner_blank d2) (inner_signed i1)) (by simp [Inner]) (by simp [Inner])
      have cls : ∀ a b : Text, Blank a → Decimals b → ∀ z ∈ a ++ b, isSpace z ∨ isDecChar z := by
        intro a b ha hb z hz
        rcases List.mem_append.1 hz with hz | hz
        · exact Or.inl (ha.space z hz)
        · exact Or.inr (isDecChar_iff.2 (hb.2 z hz))
      obtain ⟨mc, hmc, m1⟩ : ∃ mc, m = [mc] ∧ (mc = '\'' ∨ mc = '′' ∨ mc = '´') := by
        rcases i4 with rfl | rfl | rfl
        · exact ⟨_, rfl, by simp⟩
        · exact ⟨_, rfl, by simp⟩
        · exact ⟨_, rfl, by simp⟩
      subst hmc
      cases mark with
      | true =>
        have ee : (' ' :: b2 ++ M) ++ '\'' :: (' ' :: X) =
          (f1 ++ min1) ++ mc :: (f2 ++ (sec ++ (m' ++ (f3 ++ R)))) := by simpa using ee
        obtain ⟨-, -, ee⟩ := span_unique (fun z => isSpace z ∨ isDecChar z) ee (cls _ _ (blank_cons h2) gM)
          (cls _ _ i2 (digits_decimals i3)) (by decide) (by rcases m1 with rfl | rfl | rfl <;> decide)
        cases sec with
        | nil => exact i6.1 rfl
        | cons sc sec =>
          rw [← hX] at ee
          have ee : [' '] ++ letterOf ('N', 'S') lat :: (' ' :: c1 ++ (D' ++ '°' :: ((' ' :: c2) ++
            (M' ++ ((if true then ['\''] else []) ++ ([' '] ++ [letterOf ('E', 'W') lon])))))) =
            f2 ++ sc :: (sec ++ (m' ++ (f3 ++ R))) := by simpa using ee
          have hsc := i6.2 sc List.mem_cons_self
          obtain ⟨-, ee, -⟩ := span_unique (fun z => isSpace z = true) ee (by simp; decide) i5.space
            (by rcases letter_lat lat with h | h <;> rw [h] <;> decide)
            (by
              rw [decimal_not_space i6 sc List.mem_cons_self]
              simp)
          rw [← ee] at hsc
          revert hsc
          rcases letter_lat lat with h | h <;> rw [h] <;> decide
      | false =>
        rw [← hX] at ee
        have ee : (' ' :: b2 ++ M ++ [' ']) ++ letterOf ('N', 'S') lat :: (' ' :: c1 ++ (D' ++ '°' :: ((' ' :: c2) ++
            (M' ++ ((if false then ['\''] else []) ++ ([' '] ++ [letterOf ('E', 'W') lon])))))) =
          (f1 ++ min1) ++ mc :: (f2 ++ (sec ++ (m' ++ (f3 ++ R)))) := by simpa using ee
        obtain ⟨-, ee, -⟩ := span_unique (fun z => isSpace z ∨ isDecChar z) ee (by
            intro z hz
            rcases List.mem_append.1 hz with hz | hz
            · exact cls _ _ (blank_cons h2) gM z hz
            · simp only [List.mem_singleton] at hz
              subst hz
              exact Or.inl (by decide))
          (cls _ _ i2 (digits_decimals i3)) (by rcases letter_lat lat with h | h <;> rw [h] <;> decide)
          (by rcases m1 with rfl | rfl | rfl <;> decide)
        rw [← ee] at m1
        revert m1
        rcases letter_lat lat with h | h <;> rw [h] <;> decide) la lb va vb
  rw [e, e', ← this]
  simp

/-- **C45** Decimal degrees. -/
theorem C45_deg (w : Width) (p : ℕ) (lat lon : ℝ) : ReadsBack (degFormat w p) lat lon (1 / 2 / 10 ^ p) := by
  obtain ⟨b, D, vD, e, h1, ⟨gD, rD⟩, hb⟩ := one_deg w p ('N', 'S') lat
  obtain ⟨c, D', vD', e', k1, ⟨gD', rD'⟩, hb'⟩ := one_deg w p ('E', 'W') lon
  have hp := pair_deg b c _ _ h1 k1 (signed_decimal (lat < 0) gD) (signed_decimal (lon < 0) gD')
  have val : ∀ (x : ℝ) (D : Text) (v : ℝ), Reads D v → |v - abs x| ≤ 1 / 2 / 10 ^ p →
      ∃ a, Value ⟨(if x < 0 then ['-'] else []) ++ D, none, none, none⟩ a ∧ |a - x| ≤ 1 / 2 / 10 ^ p := by
    intro x D v hr hD
    by_cases hx : x < 0
    · refine ⟨-v, ⟨true, v, 0, 0, ?_, .none, .none, fun _ => by simp [dmsValue], fun h => ?_⟩, ?_⟩
      · rw [if_pos hx]
        exact .minus _ _ hr
      · simp at h
      · rw [abs_of_neg hx] at hD
        rw [← abs_neg, show -(-v - x) = v - -x by ring]
        exact hD
    · refine ⟨v, ⟨false, v, 0, 0, ?_, .none, .none, fun h => ?_, fun _ => by simp [dmsValue]⟩, ?_⟩
      · rw [if_neg hx]
        exact .plain _ _ hr
      · simp at h
      · rw [abs_of_nonneg (not_lt.1 hx)] at hD
        exact hD
  obtain ⟨a, va, ha⟩ := val lat D vD rD hb
  obtain ⟨a', va', ha'⟩ := val lon D' vD' rD' hb'
  refine ⟨_, _, a, a', rfl, ?_, ha, ha'⟩
  have := read_pair hp (fun f' hf => by
    have hne : f' ≠ .d := by rintro rfl; simp [Fmt.rank] at hf
    refine Option.eq_none_iff_forall_not_mem.2 fun g hg => ?_
    obtain ⟨u, v, w', ee, hu, hv, hw⟩ := pair_split (matchPair_some hg)
    have ee : (b ++ ((if lat < 0 then ['-'] else []) ++ D)) ++ '°' :: (((' ' :: c) ++
        ((if lon < 0 then ['-'] else []) ++ D')) ++ '°' :: []) = u ++ '°' :: (v ++ '°' :: w') := by simpa using ee
    obtain ⟨-, -, ee⟩ := span_unique Inner ee (inner_append (inner_blank h1) (inner_signedDecimals (signed_decimal _ gD))) hu
      (by simp [Inner]) (by simp [Inner])
    obtain ⟨-, -, ee⟩ := span_unique Inner ee (inner_append (inner_blank (blank_cons k1))
      (inner_signedDecimals (signed_decimal _ gD'))) hv (by simp [Inner]) (by simp [Inner])
    exact hw hne ee.symm) (Or.inl rfl) (Or.inl rfl) va va'
  rw [e, e', ← this]
  simp

/-! The documented formats. -/

theorem GpsText.parse_lit {c : Char} {t : Text} {l : List Tok} (hc : c ≠ '%') (h : parseFormat t = some l) :
    parseFormat (c :: t) = some (.lit c :: l) := by
  rw [parseFormat, if_neg hc, h]
  rfl

theorem GpsText.parse_place {spec rest : Text} {x : Char} {k : Tok} {l : List Tok} (hs : ∀ c ∈ spec, isDecChar c)
    (hx : isDecChar x = false) (hk : placeholder spec x = some k) (h : parseFormat rest = some l) :
    parseFormat ('%' :: (spec ++ x :: rest)) = some (k :: l) := by
  have h1 := takeWhile_exact isDecChar spec (x :: rest) hs (stops_cons hx)
  have h2 := dropWhile_exact isDecChar spec (x :: rest) hs (stops_cons hx)
  rw [parseFormat, if_pos rfl]
  simp only [h1]
  split
  · next e => rw [h2] at e; simp at e
  · next y r e =>
    rw [h2] at e
    cases e
    rw [hk, h]
    rfl

theorem GpsText.parse_nil : parseFormat [] = some [] := by rw [parseFormat]

theorem GpsText.parse_default : parseFormat "%2d° %2d' %6.3f\" %s".toList = some (dmsFormat ⟨false, 2⟩ ⟨false, 2⟩ ⟨false, 6⟩ 3) :=
  parse_place (spec := ['2']) (by decide) (by decide) (by rfl) <| parse_lit (by decide) <| parse_lit (by decide) <|
  parse_place (spec := ['2']) (by decide) (by decide) (by rfl) <| parse_lit (by decide) <| parse_lit (by decide) <|
  parse_place (spec := ['6', '.', '3']) (by decide) (by decide) (by rfl) <| parse_lit (by decide) <|
  parse_lit (by decide) <| parse_place (spec := []) (by decide) (by decide) (by rfl) parse_nil

theorem GpsText.parse_minutes : parseFormat "%2d° %2.3f' %s".toList = some (dmFormat ⟨false, 2⟩ ⟨false, 2⟩ 3 true) :=
  parse_place (spec := ['2']) (by decide) (by decide) (by rfl) <| parse_lit (by decide) <| parse_lit (by decide) <|
  parse_place (spec := ['2', '.', '3']) (by decide) (by decide) (by rfl) <| parse_lit (by decide) <|
  parse_lit (by decide) <| parse_place (spec := []) (by decide) (by decide) (by rfl) parse_nil

theorem GpsText.parse_unmarked : parseFormat "%2d° %2.3f %s".toList = some (dmFormat ⟨false, 2⟩ ⟨false, 2⟩ 3 false) :=
  parse_place (spec := ['2']) (by decide) (by decide) (by rfl) <| parse_lit (by decide) <| parse_lit (by decide) <|
  parse_place (spec := ['2', '.', '3']) (by decide) (by decide) (by rfl) <|
  parse_lit (by decide) <| parse_place (spec := []) (by decide) (by decide) (by rfl) parse_nil

theorem GpsText.parse_degrees : parseFormat "%2.3f°".toList = some (degFormat ⟨false, 2⟩ 3) :=
  parse_place (spec := ['2', '.', '3']) (by decide) (by decide) (by rfl) <| parse_lit (by decide) parse_nil

/-- **C45** The four formats of the docstring. -/
theorem C45_documented (lat lon : ℝ) :
    (∀ t, parseFormat "%2d° %2d' %6.3f\" %s".toList = some t → ReadsBack t lat lon (1 / 2 / 1000 / 3600)) ∧
    (∀ t, parseFormat "%2d° %2.3f' %s".toList = some t → ReadsBack t lat lon (1 / 2 / 1000 / 60)) ∧
    (∀ t, parseFormat "%2d° %2.3f %s".toList = some t → ReadsBack t lat lon (1 / 2 / 1000 / 60)) ∧
    (∀ t, parseFormat "%2.3f°".toList = some t → ReadsBack t lat lon (1 / 2 / 1000)) := by
  refine ⟨fun t h => ?_, fun t h => ?_, fun t h => ?_, fun t h => ?_⟩
  · rw [parse_default] at h
    cases h
    have := C45_dms ⟨false, 2⟩ ⟨false, 2⟩ ⟨false, 6⟩ 3 lat lon
    norm_num at this ⊢
    exact this
  · rw [parse_minutes] at h
    cases h
    have := C45_dm ⟨false, 2⟩ ⟨false, 2⟩ 3 true lat lon
    norm_num at this ⊢
    exact this
  · rw [parse_unmarked] at h
    cases h
    have := C45_dm ⟨false, 2⟩ ⟨false, 2⟩ 3 false lat lon
    norm_num at this ⊢
    exact this
  · rw [parse_degrees] at h
    cases h
    have := C45_deg ⟨false, 2⟩ 3 lat lon
    norm_num at this ⊢
    exact this

example : ∃ t, parseFormat "%2d° %2d' %6.3f\" %s".toList = some t := ⟨_, parse_default⟩

/-! ### C46 -/

namespace GpsText

theorem split_head {a b : Option Tok} {x : ℝ} : ∃ d v, splitAngle a b x = d :: v ∧ (d = x ∨ d = x + 1) := by
  unfold splitAngle
  simp only
  refine ⟨_, _, rfl, ?_⟩
  cases a with
  | none => exact Or.inl rfl
  | some t =>
    simp only
    split_ifs
    · exact Or.inr rfl
    · exact Or.inl rfl

/-- A value of at most 59 is not printed like 60. -/
theorem not_sixty {k : Tok} (hk : k.isNum) {m : ℝ} (h0 : 0 ≤ m) (h : m < 59) : formatNum k m ≠ formatNum k 60 := by
  cases k with
  | lit c => simp [Tok.isNum] at hk
  | s => simp [Tok.isNum] at hk
  | d w =>
    simp only [formatNum]
    rw [Ne, formatD_eq h0 (by norm_num)]
    have h1 : ⌊(60 : ℝ)⌋₊ = 60 := by norm_num
    rw [h1]
    have : ⌊m⌋₊ < 60 := (Nat.floor_lt h0).2 (by push_cast; linarith)
    omega
  | f w p =>
    simp only [formatNum]
    rw [Ne, formatF_eq h0 (by norm_num)]
    intro hc
    have h60 : (roundEven (60 * 10 ^ p) : ℝ) = 60 * 10 ^ p := by
      have := roundEven_nat (60 * 10 ^ p)
      push_cast at this
      rw [this]; push_cast; ring
    have hr := round_close h0 p
    have hp : (1 : ℝ) ≤ 10 ^ p := one_le_pow₀ (by norm_num)
    rw [hc, h60, mul_div_assoc, div_self (by positivity), mul_one, abs_le] at hr
    have : 1 / 2 / (10 : ℝ) ^ p ≤ 1 / 2 := div_le_self (by norm_num) hp
    linarith [hr.2]

theorem split_small {a b : Option Tok} (ha : ∀ k, a = some k → k.isNum) {x : ℝ} (h0 : 0 ≤ x) (h : x < 58 / 60) :
    ∃ v, splitAngle a b x = x :: v := by
  obtain ⟨m1, m2, m3⟩ := minutes_of h0
  have hx : ⌊x⌋₊ = 0 := Nat.floor_eq_zero.2 (by linarith)
  rw [hx] at m3
  simp only [Nat.cast_zero, zero_add] at m3
  unfold splitAngle
  simp only
  generalize pymod (x * 60) 60 = m at *
  have hm : m < 58 := by rw [m3] at h; linarith
  generalize pymod (m * 60) 60 = s
  have key : ∀ m', 0 ≤ m' → m' < 59 → ∀ s' : ℝ, ∃ v : List ℝ,
      (match (match a with
        | some t => if formatNum t m' = formatNum t 60 then ((x + 1, 0) : ℝ × ℝ) else (x, m')
        | none => (x, m')) with
      | (degs, mins) => [degs, mins, s']) = x :: v := by
    intro m' h1 h2 s'
    cases a with
    | none => exact ⟨_, rfl⟩
    | some k =>
      simp only
      rw [if_neg (not_sixty (ha k rfl) h1 h2)]
      exact ⟨_, rfl⟩
  cases b with
  | none => exact key m m1 (by linarith) s
  | some k =>
    simp only
    split_ifs
    · exact key (m + 1) (by linarith) (by linarith) 0
    · exact key m m1 (by linarith) s

theorem numbers_isNum {t : List Tok} {i : ℕ} : ∀ k, (numbers t)[i]? = some k → k.isNum := by
  intro k hk
  have := List.mem_of_getElem? hk
  unfold numbers at this
  exact (List.mem_filter.1 this).2

theorem fill_letter {t : List Tok} (h : Tok.s ∉ t) (c c' : Char) (v : List ℝ) : fill c t v = fill c' t v := by
  induction t generalizing v with
  | nil => simp [fill]
  | cons k t ih =>
    have ht : Tok.s ∉ t := fun h' => h (List.mem_cons_of_mem _ h')
    cases k with
    | lit z => simp only [fill]; rw [ih ht]
    | s => exact absurd List.mem_cons_self h
    | d w =>
      cases v with
      | nil => simp [fill]
      | cons x v => simp only [fill]; rw [ih ht]
    | f w p =>
      cases v with
      | nil => simp [fill]
      | cons x v => simp only [fill]; rw [ih ht]

theorem fill_lits {pre : List Tok} (hp : ∀ k ∈ pre, ∃ c, k = .lit c) {k : Tok} (hk : k.isNum) (t : List Tok) (c : Char)
    (x : ℝ) (v : List ℝ) : fill c (pre ++ k :: t) (x :: v) = litText pre ++ (formatNum k x ++ fill c t v) := by
  induction pre with
  | nil =>
    cases k with
    | lit z => simp [Tok.isNum] at hk
    | s => simp [Tok.isNum] at hk
    | d w => rfl
    | f w p => rfl
  | cons a pre ih =>
    obtain ⟨z, rfl⟩ := hp a List.mem_cons_self
    simp only [List.cons_append, fill, litText]
    rw [ih fun k hk => hp k (List.mem_cons_of_mem _ hk)]

end GpsText

/-- **C46 is violated** for formats whose degrees are printed with `%d`: for all coordinates between 0 and 58 minutes
the texts of the negative and of the positive coordinate are the same. -/
theorem C46_violated (pre t : List Tok) (w : Width) (hp : ∀ k ∈ pre, ∃ c, k = .lit c) (ht : Tok.s ∉ t) (L : Char × Char)
    (x : ℝ) (h0 : 0 < x) (h : x < 58 / 60) :
    formatOne (pre ++ .d w :: t) L (-x) = formatOne (pre ++ .d w :: t) L x := by
  have hs : Tok.s ∉ pre ++ .d w :: t := by
    intro h
    rcases List.mem_append.1 h with h | h
    · obtain ⟨c, hc⟩ := hp _ h
      simp at hc
    · simp [ht] at h
  obtain ⟨v, hv⟩ := split_small (b := (numbers (pre ++ .d w :: t))[2]?)
    (numbers_isNum (t := pre ++ .d w :: t) (i := 1)) h0.le h
  rw [formatOne_sign hs (x := -x) (by rw [abs_neg, abs_of_pos h0]; exact hv),
    formatOne_sign hs (x := x) (by rw [abs_of_pos h0]; exact hv), fill_letter hs _ (letterOf L x),
    if_pos (by linarith), if_neg (by linarith), fill_lits hp rfl, fill_lits hp rfl]
  congr 2
  simp only [formatNum, formatD]
  rw [if_neg (by linarith), if_neg (by linarith), Nat.floor_eq_zero.2 (show x < 1 by linarith),
    Nat.floor_eq_zero.2 (show -x < 1 by linarith)]

example : ∃ (pre t : List Tok) (x : ℝ), (∀ k ∈ pre, ∃ c, k = .lit c) ∧ Tok.s ∉ t ∧ 0 < x ∧ x < 58 / 60 :=
  ⟨[], [], 1 / 2, by simp, by simp, by norm_num, by norm_num⟩

/-- **C46**, for the formats whose degrees are printed with `%f` and for coordinates of at least one degree: without
`%s`, the first number is printed with a minus exactly for negative coordinates.  Missing: `%d` below one degree. -/
theorem C46_sign_partial (pre t : List Tok) (k : Tok) (hp : ∀ k ∈ pre, ∃ c, k = .lit c) (hk : k.isNum) (ht : Tok.s ∉ t)
    (L : Char × Char) (x : ℝ) (h : (∃ w p, k = .f w p) ∨ 1 ≤ |x|) :
    ∃ b T post, Blank b ∧ Decimals T ∧
      formatOne (pre ++ k :: t) L x = litText pre ++ (b ++ (if x < 0 then '-' :: T else T) ++ post) := by
  have hs : Tok.s ∉ pre ++ k :: t := by
    intro h
    rcases List.mem_append.1 h with h | h
    · obtain ⟨c, hc⟩ := hp _ h
      simp at hc
    · rcases List.mem_cons.1 h with h | h
      · rw [← h] at hk; simp [Tok.isNum] at hk
      · exact ht h
  obtain ⟨d, v, hv, hd⟩ := split_head (a := (numbers (pre ++ k :: t))[1]?) (b := (numbers (pre ++ k :: t))[2]?) (x := |x|)
  rw [formatOne_sign hs hv, fill_lits hp hk]
  have hd0 : |x| ≤ d := by rcases hd with rfl | rfl <;> linarith
  have hd1 : 0 ≤ d := (abs_nonneg x).trans hd0
  have key : ∃ b T, Blank b ∧ Decimals T ∧ formatNum k (if x < 0 then -d else d) = b ++ (if x < 0 then '-' :: T else T) := by
    cases k with
    | lit c => simp [Tok.isNum] at hk
    | s => simp [Tok.isNum] at hk
    | d w =>
      have h1 : 1 ≤ |x| := by
        rcases h with ⟨_, _, h⟩ | h
        · simp at h
        · exact h
      by_cases hx : x < 0
      · obtain ⟨b, z, hb, hz, e⟩ := pad_split w true (digits ⌊d⌋₊)
        refine ⟨b, z ++ digits ⌊d⌋₊, hb, hz.decimals (digits_decimals (digits_digits _)), ?_⟩
        rw [if_pos hx, if_pos hx]
        simp only [formatNum, formatD]
        rw [if_pos (by linarith), neg_neg, e]
        rfl
      · obtain ⟨b, z, hb, hz, e⟩ := pad_split w false (digits ⌊d⌋₊)
        refine ⟨b, z ++ digits ⌊d⌋₊, hb, hz.decimals (digits_decimals (digits_digits _)), ?_⟩
        rw [if_neg hx, if_neg hx]
        exact (formatD_nonneg w hd1).trans e
    | f w p =>
      by_cases hx : x < 0
      · have hxp : 0 < |x| := abs_pos.2 hx.ne
        obtain ⟨b, z, hb, hz, e⟩ := pad_split w true (decimal p (roundEven (d * 10 ^ p)))
        refine ⟨b, z ++ decimal p (roundEven (d * 10 ^ p)), hb, hz.decimals (decimal_decimals p _), ?_⟩
        rw [if_pos hx, if_pos hx]
        simp only [formatNum]
        rw [formatF_neg w p (by linarith), neg_neg, e]
        rfl
      · obtain ⟨b, z, hb, hz, e⟩ := pad_split w false (decimal p (roundEven (d * 10 ^ p)))
        refine ⟨b, z ++ decimal p (roundEven (d * 10 ^ p)), hb, hz.decimals (decimal_decimals p _), ?_⟩
        rw [if_neg hx, if_neg hx]
        exact (formatF_nonneg w p hd1).trans e
  obtain ⟨b, T, hb, hT, e⟩ := key
  exact ⟨b, T, fill (letterOf L x) t v, hb, hT, by rw [e]⟩

example : ∃ (pre t : List Tok) (k : Tok) (x : ℝ), (∀ k ∈ pre, ∃ c, k = .lit c) ∧ k.isNum ∧ Tok.s ∉ t ∧
    ((∃ w p, k = .f w p) ∨ 1 ≤ |x|) ∧ x < 0 :=
  ⟨[], [], .f ⟨false, 2⟩ 3, -1 / 2, by simp, rfl, by simp, Or.inl ⟨_, _, rfl⟩, by norm_num⟩

/-! ### the formats that are modelled, and the width of the numbers -/

namespace GpsText

theorem split_cons {c : Char} {s w : Text} {ws : List Text} :
    split c s = w :: ws ↔ c ∉ w ∧ ((ws = [] ∧ s = w) ∨ ∃ s', s = w ++ c :: s' ∧ split c s' = ws) := by
  induction s generalizing w with
  | nil =>
    simp only [split, List.cons.injEq]
    constructor
    · rintro ⟨rfl, rfl⟩; simp
    · rintro ⟨-, ⟨rfl, rfl⟩ | ⟨s', h, -⟩⟩
      · simp
      · simp at h
  | cons x s ih =>
    obtain ⟨w0, ws0, h0⟩ : ∃ w0 ws0, split c s = w0 :: ws0 := by
      cases s with
      | nil => exact ⟨_, _, rfl⟩
      | cons y s =>
        simp only [split]
        split
        · exact ⟨_, _, rfl⟩
        · split_ifs <;> exact ⟨_, _, rfl⟩
    simp only [split, h0]
    by_cases hx : x = c
    · rw [if_pos hx]
      subst hx
      constructor
      · intro h
        cases h
        exact ⟨by simp, Or.inr ⟨s, rfl, h0⟩⟩
      · rintro ⟨hw, ⟨rfl, rfl⟩ | ⟨s', h, h'⟩⟩
        · simp at hw
        · cases w with
          | nil =>
            simp only [List.nil_append, List.cons.injEq, true_and] at h
            subst h
            rw [← h', h0]
          | cons y w =>
            simp only [List.cons_append, List.cons.injEq] at h
            simp [h.1] at hw
    · rw [if_neg hx]
      constructor
      · intro h
        cases h
        obtain ⟨h1, h2⟩ := ih.1 h0
        refine ⟨by simp [Ne.symm hx, h1], ?_⟩
        rcases h2 with ⟨rfl, rfl⟩ | ⟨s', rfl, h2⟩
        · simp
        · exact Or.inr ⟨s', rfl, h2⟩
      · rintro ⟨hw, h⟩
        cases w with
        | nil =>
          rcases h with ⟨-, h⟩ | ⟨s', h, -⟩
          · simp at h
          · simp only [List.nil_append, List.cons.injEq] at h
            exact absurd h.1 hx
        | cons y w =>
          simp only [List.mem_cons, not_or] at hw
          have hy : x = y ∧ (ws = [] ∧ s = w ∨ ∃ s', s = w ++ c :: s' ∧ split c s' = ws) := by
            rcases h with ⟨rfl, h⟩ | ⟨s', h, h'⟩
            · simp only [List.cons.injEq] at h
              exact ⟨h.1, Or.inl ⟨rfl, h.2⟩⟩
            · simp only [List.cons_append, List.cons.injEq] at h
              exact ⟨h.1, Or.inr ⟨s', h.2, h'⟩⟩
          have := ih.2 ⟨hw.2, hy.2⟩
          rw [h0] at this
          cases this
          rw [hy.1]

theorem split_nil {c : Char} {s : Text} : split c s ≠ [] := by
  cases s with
  | nil => simp [split]
  | cons x s => simp only [split]; split; simp; split_ifs <;> simp

theorem widthOf_iff {t : Text} {w : Width} : widthOf t = some w ↔ WidthText t w := by
  unfold widthOf WidthText Count
  constructor
  · intro h
    split_ifs at h with ha
    cases h
    refine ⟨⟨fun c hc => isDigit_iff.1 (List.all_eq_true.1 ha c hc), rfl⟩, ?_⟩
    cases t <;> simp
  · rintro ⟨⟨h1, h2⟩, h3⟩
    rw [if_pos (List.all_eq_true.2 fun c hc => isDigit_iff.2 (h1 c hc))]
    obtain ⟨z, n⟩ := w
    simp only at h2 h3
    subst h2
    congr 2
    rw [Bool.eq_iff_iff, h3]
    cases t <;> simp

theorem point_not_digit {t : Text} {w : Width} (h : WidthText t w) : '.' ∉ t := by
  intro hc
  have := h.1.1 _ hc
  revert this
  decide

/-- The texts of the place holders. -/
theorem placeholder_iff {u : Text} {x : Char} {k : Tok} : placeholder u x = some k ↔
    (x = 's' ∧ u = [] ∧ k = .s) ∨ (x = 'd' ∧ ∃ w, WidthText u w ∧ k = .d w) ∨ (x = 'f' ∧ ∃ w, WidthText u w ∧ k = .f w 6) ∨
    (x = 'f' ∧ ∃ u' v w p, u = u' ++ '.' :: v ∧ WidthText u' w ∧ Count v p ∧ k = .f w p) := by
  unfold placeholder
  by_cases hs : x = 's'
  · subst hs
    by_cases hu : u = []
    · simp [hu, eq_comm]
    · simp [hu]
  rw [if_neg hs]
  by_cases hd : x = 'd'
  · subst hd
    simp only [if_true, Option.map_eq_some_iff, widthOf_iff, Char.reduceEq, false_and, false_or, true_and, or_false]
    constructor
    · rintro ⟨w, h, rfl⟩; exact ⟨w, h, rfl⟩
    · rintro ⟨w, h, rfl⟩; exact ⟨w, h, rfl⟩
  rw [if_neg hd]
  by_cases hf : x = 'f'
  · subst hf
    simp only [if_true, Char.reduceEq, false_and, false_or, true_and]
    constructor
    · intro h
      split at h
      · next w e =>
        obtain ⟨-, ⟨-, rfl⟩ | ⟨s', -, h'⟩⟩ := split_cons.1 e
        · obtain ⟨w', h1, rfl⟩ := Option.map_eq_some_iff.1 h
          exact Or.inl ⟨w', widthOf_iff.1 h1, rfl⟩
        · exact absurd h' split_nil
      · next w p e =>
        obtain ⟨-, ⟨h', -⟩ | ⟨s', rfl, h'⟩⟩ := split_cons.1 e
        · simp at h'
        · obtain ⟨-, ⟨-, rfl⟩ | ⟨s', -, h'⟩⟩ := split_cons.1 h'
          · simp only [bind, Option.bind_eq_some_iff] at h
            obtain ⟨w', h1, h2⟩ := h
            split_ifs at h2 with ha
            cases h2
            exact Or.inr ⟨w, _, w', _, rfl, widthOf_iff.1 h1, ⟨fun c hc => isDigit_iff.1 (List.all_eq_true.1 ha c hc), rfl⟩, rfl⟩
          · exact absurd h' split_nil
      · cases h
    · rintro (⟨w, h, rfl⟩ | ⟨u', v, w, p, rfl, h1, h2, rfl⟩)
      · rw [split_cons.2 ⟨point_not_digit h, Or.inl ⟨rfl, rfl⟩⟩]
        simp only
        rw [widthOf_iff.2 h]
        rfl
      · have hv : split '.' v = [v] := split_cons.2 ⟨fun hc => by have := h2.1 _ hc; revert this; decide, Or.inl ⟨rfl, rfl⟩⟩
        rw [split_cons.2 ⟨point_not_digit h1, Or.inr ⟨v, rfl, hv⟩⟩]
        simp only
        rw [widthOf_iff.2 h1]
        simp only [bind, Option.bind]
        rw [if_pos (List.all_eq_true.2 fun c hc => isDigit_iff.2 (h2.1 c hc)), h2.2]
        rfl
  · simp [hs, hd, hf]

theorem count_dec {t : Text} {n : ℕ} (h : Count t n) : ∀ c ∈ t, isDecChar c := fun c hc => isDecChar_iff.2 (Or.inl (h.1 c hc))

end GpsText

/-- **C45** The formats that are understood: `parseFormat` reads exactly the texts of `FormatText`. -/
theorem C45_formats (t : Text) (l : List Tok) : parseFormat t = some l ↔ FormatText t l := by
  constructor
  · intro h
    induction t using parseFormat.induct generalizing l with
    | case1 => rw [parse_nil] at h; cases h; exact .nil
    | case2 t hd =>
      rw [parseFormat, if_pos rfl] at h
      simp only at h
      split at h
      · cases h
      · next e => rw [hd] at e; cases e
    | case3 t x rest hd ih =>
      rw [parseFormat, if_pos rfl] at h
      simp only at h
      split at h
      · cases h
      · next y r e =>
        rw [hd] at e
        cases e
        simp only [bind, Option.bind_eq_some_iff] at h
        obtain ⟨k, hk, l', hl, h⟩ := h
        cases h
        have e : t = t.takeWhile isDecChar ++ x :: rest := by rw [← hd, List.takeWhile_append_dropWhile]
        have hl := ih l' hl
        generalize t.takeWhile isDecChar = u at e hk
        subst e
        rcases placeholder_iff.1 hk with ⟨rfl, rfl, rfl⟩ | ⟨rfl, w, hw, rfl⟩ | ⟨rfl, w, hw, rfl⟩ | ⟨rfl, u', v, w, p, rfl, hw, hp, rfl⟩
        · exact .letter hl
        · exact .int hw hl
        · exact .float hw hl
        · exact .prec hw hp hl
    | case4 c t hc ih =>
      rw [parseFormat, if_neg hc] at h
      simp only [bind, Option.bind_eq_some_iff] at h
      obtain ⟨l', hl, h⟩ := h
      cases h
      exact .lit c hc (ih l' hl)
  · intro h
    induction h with
    | nil => exact parse_nil
    | lit c hc _ ih => exact parse_lit hc ih
    | letter _ ih => exact parse_place (spec := []) (by simp) (by decide) rfl ih
    | int hw _ ih => exact parse_place (count_dec hw.1) (by decide) (placeholder_iff.2 (Or.inr (Or.inl ⟨rfl, _, hw, rfl⟩))) ih
    | float hw _ ih => exact parse_place (count_dec hw.1) (by decide) (placeholder_iff.2 (Or.inr (Or.inr (Or.inl ⟨rfl, _, hw, rfl⟩)))) ih
    | prec hw hp _ ih =>
      refine parse_place ?_ (by decide) (placeholder_iff.2 (Or.inr (Or.inr (Or.inr ⟨rfl, _, _, _, _, rfl, hw, hp, rfl⟩)))) ih
      intro c hc
      rcases List.mem_append.1 hc with hc | hc
      · exact count_dec hw.1 c hc
      · rcases List.mem_cons.1 hc with rfl | hc
        · decide
        · exact count_dec hp c hc

example : FormatText "%02d°".toList [.d ⟨true, 2⟩, .lit '°'] :=
  .int (u := ['0', '2']) ⟨⟨by decide, rfl⟩, by simp⟩ (.lit '°' (by decide) .nil)

/-- **C45** The width of a number is filled up on the left: with blanks, or behind the sign with zeros; a number that is
longer is printed unchanged. -/
theorem C45_width (z : Bool) (w : ℕ) (k : Width → Tok) (hk : k = .d ∨ ∃ p, k = fun w => .f w p) (x : ℝ) :
    (formatNum (k ⟨z, w⟩) x).length = max w (formatNum (k ⟨false, 0⟩) x).length ∧
    (z = false → ∃ b, (∀ c ∈ b, c = ' ') ∧ formatNum (k ⟨z, w⟩) x = b ++ formatNum (k ⟨false, 0⟩) x) ∧
    (z = true → ∃ s b t, (s = [] ∨ s = ['-']) ∧ (∀ c ∈ b, c = '0') ∧ Decimals t ∧ formatNum (k ⟨z, w⟩) x = s ++ (b ++ t) ∧
      formatNum (k ⟨false, 0⟩) x = s ++ t) := by
  obtain ⟨neg, t, ht, h⟩ : ∃ neg t, Decimals t ∧ ∀ w, formatNum (k w) x = pad w neg t := by
    rcases hk with rfl | ⟨p, rfl⟩
    · by_cases hx : x ≤ -1
      · exact ⟨true, _, digits_decimals (digits_digits _), fun w => by simp only [formatNum, formatD]; exact if_pos hx⟩
      · exact ⟨false, _, digits_decimals (digits_digits _), fun w => by simp only [formatNum, formatD]; exact if_neg hx⟩
    · by_cases hx : x < 0
      · exact ⟨true, _, decimal_decimals p _, fun w => formatF_neg w p hx⟩
      · exact ⟨false, _, decimal_decimals p _, fun w => formatF_nonneg w p (not_lt.1 hx)⟩
  rw [h, h]
  refine ⟨?_, ?_, ?_⟩
  · unfold pad
    cases z <;> simp <;> omega
  · rintro rfl
    exact ⟨List.replicate (w - ((if neg then ['-'] else []) ++ t).length) ' ', fun c hc => List.eq_of_mem_replicate hc, by simp [pad]⟩
  · rintro rfl
    refine ⟨if neg then ['-'] else [], List.replicate (w - ((if neg then ['-'] else []) ++ t).length) '0', t, by split_ifs <;> simp,
      fun c hc => List.eq_of_mem_replicate hc, ht, by simp [pad], by simp [pad]⟩

example : ∃ k : Width → Tok, k = .d ∨ ∃ p, k = fun w => .f w p := ⟨.d, Or.inl rfl⟩

/-- Rounding to the even neighbour only for numbers in the middle. -/
theorem GpsText.roundEven_tie {x : ℝ} (hx : 0 ≤ x) (h : |(roundEven x : ℝ) - x| = 1 / 2) : Even (roundEven x) := by
  have h1 := Nat.floor_le hx
  have h2 := Nat.lt_floor_add_one x
  unfold roundEven at h ⊢
  simp only at h ⊢
  split_ifs at h ⊢ with a b c
  · rw [abs_of_nonpos (by linarith)] at h; linarith
  · push_cast at h; rw [abs_of_nonneg (by linarith)] at h; linarith
  · exact Nat.even_iff.2 c
  · rw [Nat.even_add_one, Nat.even_iff]; exact c

/-- **C45** The printed decimal number is the one closest to the number, the one with the even last digit if there are two. -/
theorem C45_rounding (p : ℕ) (x : ℝ) : ∃ (t : Text) (n : ℕ), formatNum (.f ⟨false, 0⟩ p) x = (if x < 0 then ['-'] else []) ++ t ∧
    Reads t (n / 10 ^ p) ∧ |(n : ℝ) - |x| * 10 ^ p| ≤ 1 / 2 ∧ (|(n : ℝ) - |x| * 10 ^ p| = 1 / 2 → Even n) := by
  have h0 : 0 ≤ |x| * 10 ^ p := by positivity
  refine ⟨decimal p (roundEven (|x| * 10 ^ p)), roundEven (|x| * 10 ^ p), ?_, decimal_reads _ _, roundEven_close h0, roundEven_tie h0⟩
  by_cases hx : x < 0
  · simp only [formatNum]
    rw [formatF_neg _ _ hx, abs_of_neg hx, if_pos hx]; simp [pad]
  · simp only [formatNum]
    rw [formatF_nonneg _ _ (not_lt.1 hx), abs_of_nonneg (not_lt.1 hx), if_neg hx]; simp [pad]

/-- **C45** `formatGPS` writes both coordinates for every format with at least one and at most three numbers or at least
one letter, and else raises ValueError. -/
theorem C45_errors (t : List Tok) (lat lon : ℝ) :
    ((∃ k ∈ t, ∀ c, k ≠ .lit c) ∧ (t.countP fun k => match k with | .d _ => true | .f _ _ => true | _ => false) ≤ 3 ∧
      ∃ la lo, formatGPS t lat lon = .ok (la, lo)) ∨
    (((∀ k ∈ t, ∃ c, k = .lit c) ∨ 3 < t.countP fun k => match k with | .d _ => true | .f _ _ => true | _ => false) ∧
      formatGPS t lat lon = .error .value) := by
  have hn : (numbers t).length = t.countP fun k => match k with | .d _ => true | .f _ _ => true | _ => false := by
    rw [numbers, List.countP_eq_length_filter]
    congr 2
  classical
  have hl : formatGPS t lat lon = if ∀ k ∈ t, ∃ c, k = .lit c then .error .value else if 3 < (numbers t).length then .error .value
      else .ok (formatOne t ('N', 'S') lat, formatOne t ('E', 'W') lon) := by
    unfold formatGPS
    refine if_congr ?_ rfl rfl
    rw [List.filter_eq_nil_iff]
    refine forall₂_congr fun k _ => ?_
    cases k <;> simp
  rw [hl, hn]
  by_cases h : ∀ k ∈ t, ∃ c, k = .lit c
  · exact Or.inr ⟨Or.inl h, by rw [if_pos h]⟩
  · rw [if_neg h]
    by_cases h3 : 3 < t.countP fun k => match k with | .d _ => true | .f _ _ => true | _ => false
    · exact Or.inr ⟨Or.inr h3, by rw [if_pos h3]⟩
    · refine Or.inl ⟨?_, not_lt.1 h3, _, _, by rw [if_neg h3]⟩
      push Not at h
      exact h
