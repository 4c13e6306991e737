import Verif.Proofs.GpsText

/-! # Lemmas on decomposing a text and on formatted numbers -/

namespace GpsText

open Py

/-- The first character outside a class is unique. -/
theorem span_unique (p : Char → Prop) {a a' x y : Text} {c c' : Char} (h : a ++ c :: x = a' ++ c' :: y)
    (ha : ∀ z ∈ a, p z) (ha' : ∀ z ∈ a', p z) (hc : ¬ p c) (hc' : ¬ p c') : a = a' ∧ c = c' ∧ x = y := by
  induction a generalizing a' with
  | nil =>
    cases a' with
    | nil => simpa using h
    | cons z a' =>
      simp only [List.nil_append, List.cons_append, List.cons.injEq] at h
      exact absurd (h.1 ▸ ha' z List.mem_cons_self) hc
  | cons z a ih =>
    cases a' with
    | nil =>
      simp only [List.nil_append, List.cons_append, List.cons.injEq] at h
      exact absurd (h.1 ▸ ha z List.mem_cons_self) hc'
    | cons z' a' =>
      simp only [List.cons_append, List.cons.injEq] at h
      obtain ⟨h1, h2, h3⟩ := ih h.2 (fun z hz => ha z (List.mem_cons_of_mem _ hz))
        (fun z hz => ha' z (List.mem_cons_of_mem _ hz))
      exact ⟨by rw [h.1, h1], h2, h3⟩

/-- The characters that separate the parts of a coordinate text. -/
def Inner (c : Char) : Prop := c ≠ '°' ∧ c ≠ '’'

theorem inner_digit {c : Char} (h : '0' ≤ c ∧ c ≤ '9') : Inner c := by
  constructor <;> rintro rfl <;> revert h <;> decide

theorem inner_space {c : Char} (h : isSpace c) : Inner c := by
  constructor <;> rintro rfl <;> revert h <;> decide

theorem inner_signed {t : Text} (h : Signed t) : ∀ c ∈ t, Inner c := by
  intro c hc
  rcases h.2 c hc with h | rfl | rfl
  · exact inner_digit h
  · constructor <;> decide
  · constructor <;> decide

theorem inner_decimals {t : Text} (h : Decimals t) : ∀ c ∈ t, Inner c := by
  intro c hc
  rcases h.2 c hc with h | rfl
  · exact inner_digit h
  · constructor <;> decide

theorem inner_signedDecimals {t : Text} (h : SignedDecimals t) : ∀ c ∈ t, Inner c := by
  intro c hc
  rcases h.2 c hc with h | rfl | rfl | rfl
  · exact inner_digit h
  all_goals constructor <;> decide

theorem inner_blank {t : Text} (h : Blank t) : ∀ c ∈ t, Inner c := fun c hc => inner_space (h.space c hc)

theorem inner_minute {t : Text} (h : MinuteMark t) : ∀ c ∈ t, Inner c := by
  rcases h with rfl | rfl | rfl <;> · simp only [List.mem_singleton, forall_eq]; constructor <;> decide

theorem inner_second {t : Text} (h : SecondMark t) : ∀ c ∈ t, Inner c := by
  rcases h with rfl | rfl | rfl | rfl | rfl <;>
  · intro c hc
    simp only [List.mem_cons, List.not_mem_nil, or_false, or_self] at hc
    subst hc
    constructor <;> decide

theorem inner_digits {t : Text} (h : Digits t) : ∀ c ∈ t, Inner c := fun c hc => inner_digit (h.2 c hc)

theorem inner_append {a b : Text} (ha : ∀ c ∈ a, Inner c) (hb : ∀ c ∈ b, Inner c) : ∀ c ∈ a ++ b, Inner c := by
  intro c hc
  rcases List.mem_append.1 hc with h | h
  · exact ha c h
  · exact hb c h

/-- Every coordinate consists of degrees, the degree sign and a tail. -/
theorem coord_split {f : Fmt} {t deg : Text} {min sec : Option Text} (h : Coord f t deg min sec) :
    ∃ tail, t = deg ++ '°' :: tail ∧ (∀ c ∈ deg, Inner c) ∧ (∀ c ∈ tail, Inner c) ∧
      (f ≠ .d → tail ≠ []) := by
  cases h with
  | dms _ b min m b' sec m' b'' h1 h2 h3 h4 h5 h6 h7 h8 =>
    refine ⟨_, rfl, inner_signed h1, ?_, fun _ => by simp [h3.1]⟩
    exact inner_append (inner_blank h2) (inner_append (inner_digits h3) (inner_append (inner_minute h4)
      (inner_append (inner_blank h5) (inner_append (inner_decimals h6) (inner_append (inner_second h7) (inner_blank h8))))))
  | dm _ b min m b' h1 h2 h3 h4 h5 =>
    refine ⟨_, rfl, inner_signed h1, ?_, fun _ => by simp [h3.1]⟩
    refine inner_append (inner_blank h2) (inner_append (inner_decimals h3) (inner_append ?_ (inner_blank h5)))
    rcases h4 with rfl | h4
    · simp
    · exact inner_minute h4
  | d _ b h1 h2 => exact ⟨b, rfl, inner_signedDecimals h1, inner_blank h2, fun h => absurd rfl h⟩

/-- Two coordinates contain two degree signs. -/
theorem pair_split {f : Fmt} {s : Text} {g : Groups × Groups} (h : IsPair f s g) :
    ∃ u v w, s = u ++ '°' :: (v ++ '°' :: w) ∧ (∀ c ∈ u, Inner c) ∧ (∀ c ∈ v, Inner c) ∧ (f ≠ .d → w ≠ []) := by
  obtain ⟨b, t, b', comma, b'', t', b''', rest, c1, hc, hs, c2, hcomma, c3, hc', hs', c4, rfl⟩ := h
  obtain ⟨t1, rfl, i1, i2, -⟩ := coord_split hc
  obtain ⟨t2, rfl, i3, i4, i5⟩ := coord_split hc'
  have il : ∀ c ∈ letterText g.1.sign, Inner c := by
    rcases hs with h | h | h <;> rw [h]
    · simp [letterText]
    all_goals
      simp only [letterText, Option.getD_some, List.mem_singleton, forall_eq]
      constructor <;> decide
  have ic : ∀ c ∈ comma, Inner c := by
    rcases hcomma with h | h <;> rw [h]
    · simp
    · simp only [List.mem_singleton, forall_eq]
      constructor <;> decide
  refine ⟨b ++ g.1.deg, t1 ++ (letterText g.1.sign ++ (b' ++ (comma ++ (b'' ++ g.2.deg)))),
    t2 ++ (letterText g.2.sign ++ (b''' ++ rest)), by simp, inner_append (inner_blank c1) i1,
    inner_append i2 (inner_append il (inner_append (inner_blank c2) (inner_append ic
      (inner_append (inner_blank c3) i3)))), fun hf => ?_⟩
  have := i5 hf
  simp [this]

theorem optional_skip {β : Type} {ts : List Text} {k : Option Text → Text → Option β} {s : Text}
    (h : ∀ t ∈ ts, ¬ t <+: s) : optional ts k s = k none s := by
  unfold optional
  have : (ts.findSome? fun t => if t.isPrefixOf s then k (some t) (s.drop t.length) else none) = none := by
    rw [List.findSome?_eq_none_iff]
    intro t ht
    rw [if_neg]
    rw [List.isPrefixOf_iff_prefix]
    exact h t ht
  rw [this]

theorem alts_first {β : Type} {t : Text} {ts : List Text} {k : Text → Option β} {b : Text} {r : β} (h : k b = some r) :
    alts (t :: ts) k (t ++ b) = some r := by
  unfold alts
  rw [List.findSome?_cons]
  rw [if_pos (List.isPrefixOf_iff_prefix.2 ⟨b, rfl⟩)]
  simp [h]

theorem optional_first {β : Type} {t : Text} {ts : List Text} {k : Option Text → Text → Option β} {b : Text} {r : β}
    (h : k (some t) b = some r) : optional (t :: ts) k (t ++ b) = some r := by
  unfold optional
  rw [List.findSome?_cons]
  rw [if_pos (List.isPrefixOf_iff_prefix.2 ⟨b, rfl⟩)]
  simp [h]

/-! ### the longest repetitions match -/

/-- The text does not begin with a character of the class. -/
def Stops (p : Char → Bool) (t : Text) : Prop := ∀ c t', t = c :: t' → p c = false

theorem stops_nil (p : Char → Bool) : Stops p [] := by intro c t' h; simp at h

theorem stops_cons {p : Char → Bool} {c : Char} {t : Text} (h : p c = false) : Stops p (c :: t) := by
  intro c' t' e
  simp only [List.cons.injEq] at e
  rw [← e.1]; exact h

theorem stops_append {p : Char → Bool} {a b : Text} (h0 : a ≠ []) (h : ∀ c ∈ a, p c = false) : Stops p (a ++ b) := by
  cases a with
  | nil => exact absurd rfl h0
  | cons c a => exact stops_cons (h c List.mem_cons_self)

theorem digit_not_space {c : Char} (h : '0' ≤ c ∧ c ≤ '9') : isSpace c = false := by
  have h1 : 48 ≤ c.toNat := h.1
  have h2 : c.toNat ≤ 57 := h.2
  cases hs : isSpace c with
  | false => rfl
  | true =>
    simp only [isSpace, Bool.or_eq_true, Bool.and_eq_true, decide_eq_true_eq, beq_iff_eq] at hs
    omega

theorem decimal_not_space {t : Text} (h : Decimals t) : ∀ c ∈ t, isSpace c = false := by
  intro c hc
  rcases h.2 c hc with h | rfl
  · exact digit_not_space h
  · decide

theorem signed_not_space {t : Text} (h : Signed t) : ∀ c ∈ t, isSpace c = false := by
  intro c hc
  rcases h.2 c hc with h | rfl | rfl
  · exact digit_not_space h
  all_goals decide

theorem signedDecimals_not_space {t : Text} (h : SignedDecimals t) : ∀ c ∈ t, isSpace c = false := by
  intro c hc
  rcases h.2 c hc with h | rfl | rfl | rfl
  · exact digit_not_space h
  all_goals decide

theorem digits_not_space {t : Text} (h : Digits t) : ∀ c ∈ t, isSpace c = false :=
  fun c hc => digit_not_space (h.2 c hc)

theorem part_dm_first {β : Type} {k : Text → Option Text → Option Text → Text → Option β} (deg b min b' rest : Text)
    (mark : Bool) (h1 : Signed deg) (h2 : Blank b) (h3 : Decimals min) (h4 : Blank b')
    (h5 : mark = false → Stops (fun c => isDecChar c || c == '\'' || c == '′' || c == '´') (b' ++ rest))
    (h6 : Stops isSpace rest) {r : β} (hk : k deg (some min) none rest = some r) :
    part .dm k (deg ++ '°' :: (b ++ (min ++ ((if mark then ['\''] else []) ++ (b' ++ rest))))) = some r := by
  unfold part
  refine greedy_first deg _ (fun c hc => isDegChar_iff.2 (h1.2 c hc)) (stops_cons (by decide)) (len_pos.2 h1.1) ?_
  refine alts_first (t := ['°']) ?_
  refine greedy_first b _ h2.space (stops_append h3.1 (decimal_not_space h3)) (Nat.zero_le _) ?_
  refine greedy_first min _ (fun c hc => isDecChar_iff.2 (h3.2 c hc)) ?_ (len_pos.2 h3.1) ?_
  · cases mark with
    | true => exact stops_cons (by decide)
    | false =>
      intro c t' e
      have := h5 rfl c t' (by simpa using e)
      simp only [Bool.or_eq_false_iff] at this
      exact this.1.1.1
  · cases mark with
    | true => exact optional_first (t := ['\'']) (greedy_first b' _ h4.space h6 (Nat.zero_le _) hk)
    | false =>
      simp only [Bool.false_eq_true, if_false, List.nil_append]
      rw [optional_skip]
      · exact greedy_first b' _ h4.space h6 (Nat.zero_le _) hk
      · intro t ht ⟨x, hx⟩
        rcases mem_minuteMarks.1 ht with rfl | rfl | rfl
        · have := h5 rfl _ _ hx.symm; revert this; simp
        · have := h5 rfl _ _ hx.symm; revert this; simp
        · have := h5 rfl _ _ hx.symm; revert this; simp

theorem part_dms_first {β : Type} {k : Text → Option Text → Option Text → Text → Option β}
    (deg b min b' sec b'' rest : Text) (h1 : Signed deg) (h2 : Blank b) (h3 : Digits min) (h4 : Blank b')
    (h5 : Decimals sec) (h6 : Blank b'') (h7 : Stops isSpace rest) {r : β}
    (hk : k deg (some min) (some sec) rest = some r) :
    part .dms k (deg ++ '°' :: (b ++ (min ++ '\'' :: (b' ++ (sec ++ '"' :: (b'' ++ rest)))))) = some r := by
  unfold part
  refine greedy_first deg _ (fun c hc => isDegChar_iff.2 (h1.2 c hc)) (stops_cons (by decide)) (len_pos.2 h1.1) ?_
  refine alts_first (t := ['°']) ?_
  refine greedy_first b _ h2.space (stops_append h3.1 (digits_not_space h3)) (Nat.zero_le _) ?_
  refine greedy_first min _ (fun c hc => isDigit_iff.2 (h3.2 c hc)) (stops_cons (by decide)) (len_pos.2 h3.1) ?_
  refine alts_first (t := ['\'']) ?_
  refine greedy_first b' _ h4.space (stops_append h5.1 (decimal_not_space h5)) (Nat.zero_le _) ?_
  refine greedy_first sec _ (fun c hc => isDecChar_iff.2 (h5.2 c hc)) (stops_cons (by decide)) (len_pos.2 h5.1) ?_
  have := greedy_first (k := fun _ s => k deg (some min) (some sec) s) b'' _ h6.space h7 (Nat.zero_le _) hk
  simp [alts, secondMarks, this]

theorem part_d_first {β : Type} {k : Text → Option Text → Option Text → Text → Option β} (deg b rest : Text)
    (h1 : SignedDecimals deg) (h2 : Blank b) (h3 : Stops isSpace rest) {r : β} (hk : k deg none none rest = some r) :
    part .d k (deg ++ '°' :: (b ++ rest)) = some r := by
  unfold part
  refine greedy_first deg _ (fun c hc => isDegDecChar_iff.2 (h1.2 c hc)) (stops_cons (by decide)) (len_pos.2 h1.1) ?_
  refine alts_first (t := ['°']) ?_
  exact greedy_first b _ h2.space h3 (Nat.zero_le _) hk

end GpsText
