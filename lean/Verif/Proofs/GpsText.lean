import Verif.Spec.GpsText
import Mathlib.Tactic.Linarith
import Mathlib.Tactic.NormNum
import Mathlib.Tactic.SplitIfs
import Mathlib.Tactic.Positivity

/-! # Lemmas on the pattern matcher -/

namespace GpsText

open Py

/-- `\s` matches exactly the white space. -/
theorem space_iff (c : Char) : isSpace c = true ↔ White c := by
  unfold isSpace White
  simp only [Bool.or_eq_true, Bool.and_eq_true, decide_eq_true_eq, beq_iff_eq, List.mem_cons, List.not_mem_nil, or_false]
  omega

theorem Blank.space {t : Text} (h : Blank t) : ∀ c ∈ t, isSpace c = true := fun c hc => (space_iff c).2 (h c hc)

theorem blank_of {t : Text} (h : ∀ c ∈ t, isSpace c = true) : Blank t := fun c hc => (space_iff c).1 (h c hc)

instance (c : Char) : Decidable (White c) := by unfold White; infer_instance

theorem tryDown_some {β : Type} {k : Text → Text → Option β} {s : Text} {m n : ℕ} {r : β} (hn : n ≤ s.length)
    (h : tryDown k s m n = some r) : ∃ i, i ≤ n ∧ m ≤ i ∧ k (s.take i) (s.drop i) = some r := by
  induction n with
  | zero =>
    unfold tryDown at h
    split_ifs at h with h0
    exact ⟨0, le_rfl, by omega, by simpa using h⟩
  | succ n ih =>
    unfold tryDown at h
    split_ifs at h with h0
    cases hk : k (s.take (n + 1)) (s.drop (n + 1)) with
    | some r' =>
      rw [hk] at h
      exact ⟨n + 1, le_rfl, h0, by rw [hk]; exact h⟩
    | none =>
      rw [hk] at h
      obtain ⟨i, h1, h2, h3⟩ := ih (by omega) h
      exact ⟨i, by omega, h2, h3⟩

theorem tryDown_none {β : Type} {k : Text → Text → Option β} {s : Text} {m n : ℕ}
    (h : tryDown k s m n = none) (i : ℕ) (hi : i ≤ n) (hm : m ≤ i) : k (s.take i) (s.drop i) = none := by
  induction n with
  | zero =>
    unfold tryDown at h
    have : i = 0 := by omega
    subst this
    rw [if_pos (by omega)] at h
    simpa using h
  | succ n ih =>
    unfold tryDown at h
    rw [if_pos (by omega)] at h
    cases hk : k (s.take (n + 1)) (s.drop (n + 1)) with
    | some r' => rw [hk] at h; simp at h
    | none =>
      rw [hk] at h
      rcases Nat.lt_or_ge i (n + 1) with h1 | h1
      · exact ih h (by omega)
      · have : i = n + 1 := by omega
        subst this
        exact hk

theorem takeWhile_len (p : Char → Bool) (a b : Text) (ha : ∀ c ∈ a, p c) : a.length ≤ ((a ++ b).takeWhile p).length := by
  induction a with
  | nil => simp
  | cons x a ih =>
    have := ha x List.mem_cons_self
    simp only [List.cons_append, List.takeWhile_cons, this, if_true, List.length_cons]
    have := ih fun c hc => ha c (List.mem_cons_of_mem _ hc)
    omega

theorem takeWhile_exact (p : Char → Bool) (a b : Text) (ha : ∀ c ∈ a, p c) (hb : ∀ c b', b = c :: b' → p c = false) :
    (a ++ b).takeWhile p = a := by
  induction a with
  | nil =>
    cases b with
    | nil => rfl
    | cons c b => simp [hb c b rfl]
  | cons x a ih =>
    simp [ha x List.mem_cons_self, ih fun c hc => ha c (List.mem_cons_of_mem _ hc)]

theorem dropWhile_exact (p : Char → Bool) (a b : Text) (ha : ∀ c ∈ a, p c) (hb : ∀ c b', b = c :: b' → p c = false) :
    (a ++ b).dropWhile p = b := by
  have h := List.takeWhile_append_dropWhile (p := p) (l := a ++ b)
  rw [takeWhile_exact p a b ha hb] at h
  exact List.append_cancel_left h

theorem greedy_some {β : Type} {p : Char → Bool} {m : ℕ} {k : Text → Text → Option β} {s : Text} {r : β}
    (h : greedy p m k s = some r) : ∃ a b, s = a ++ b ∧ (∀ c ∈ a, p c) ∧ m ≤ a.length ∧ k a b = some r := by
  have hl : (s.takeWhile p).length ≤ s.length := (List.takeWhile_prefix p).length_le
  obtain ⟨i, h1, h2, h3⟩ := tryDown_some hl h
  refine ⟨s.take i, s.drop i, (List.take_append_drop i s).symm, fun c hc => ?_, ?_, h3⟩
  · have : c ∈ s.takeWhile p := by
      have e : s.take i = (s.takeWhile p).take i := by
        have hp := List.takeWhile_prefix p (l := s)
        obtain ⟨t, ht⟩ := hp
        conv_lhs => rw [← ht]
        rw [List.take_append_of_le_length h1]
      rw [e] at hc
      exact List.mem_of_mem_take hc
    exact List.all_eq_true.1 List.all_takeWhile c this
  · rw [List.length_take]; omega

theorem greedy_none {β : Type} {p : Char → Bool} {m : ℕ} {k : Text → Text → Option β} {s : Text}
    (h : greedy p m k s = none) (a b : Text) (e : s = a ++ b) (ha : ∀ c ∈ a, p c) (hm : m ≤ a.length) : k a b = none := by
  subst e
  have := tryDown_none h a.length (takeWhile_len p a b ha) hm
  simpa using this

theorem greedy_eq_none {β : Type} {p : Char → Bool} {m : ℕ} {k : Text → Text → Option β} {s : Text}
    (h : ∀ a b, s = a ++ b → (∀ c ∈ a, p c) → m ≤ a.length → k a b = none) : greedy p m k s = none := by
  cases hg : greedy p m k s with
  | none => rfl
  | some r =>
    obtain ⟨a, b, h1, h2, h3, h4⟩ := greedy_some hg
    rw [h a b h1 h2 h3] at h4
    simp at h4

/-- The first try succeeds. -/
theorem greedy_first {β : Type} {p : Char → Bool} {m : ℕ} {k : Text → Text → Option β} (a b : Text)
    (ha : ∀ c ∈ a, p c) (hb : ∀ c b', b = c :: b' → p c = false) (hm : m ≤ a.length) {r : β} (hk : k a b = some r) :
    greedy p m k (a ++ b) = some r := by
  unfold greedy
  rw [takeWhile_exact p a b ha hb]
  cases a with
  | nil =>
    have : m = 0 := by simpa using hm
    simpa [tryDown, this] using hk
  | cons x a =>
    have hm' : m ≤ a.length + 1 := by simpa using hm
    have e1 : List.take (a.length + 1) (x :: a ++ b) = x :: a := by simp
    have e2 : List.drop (a.length + 1) (x :: a ++ b) = b := by simp
    simp only [List.length_cons, tryDown, if_pos hm', e1, e2, hk]

/-- If the rest of the pattern does not match in front of a character of the class, only the longest repetition
can match. -/
theorem greedy_forced {β : Type} {p : Char → Bool} {m : ℕ} {k : Text → Text → Option β} (a b : Text)
    (ha : ∀ c ∈ a, p c) (hb : ∀ c b', b = c :: b' → p c = false) (hm : m ≤ a.length)
    (hk : ∀ a' c b', p c → k a' (c :: b') = none) : greedy p m k (a ++ b) = k a b := by
  cases h : k a b with
  | some r => exact greedy_first a b ha hb hm h
  | none =>
    refine greedy_eq_none fun a' b' e ha' _ => ?_
    rcases List.append_eq_append_iff.1 e with ⟨u, h1, h2⟩ | ⟨u, h1, h2⟩
    · cases u with
      | nil => simp only [List.append_nil] at h1; rw [List.nil_append] at h2; rw [h1, ← h2]; exact h
      | cons c u =>
        have := hb c _ h2
        have := ha' c (by rw [h1]; simp)
        simp_all
    · cases u with
      | nil => simp only [List.append_nil] at h1; rw [List.nil_append] at h2; rw [← h1, h2]; exact h
      | cons c u =>
        rw [h2]
        exact hk _ _ _ (ha c (by rw [h1]; simp))

theorem alts_some {β : Type} {ts : List Text} {k : Text → Option β} {s : Text} {r : β} (h : alts ts k s = some r) :
    ∃ t ∈ ts, ∃ b, s = t ++ b ∧ k b = some r := by
  unfold alts at h
  obtain ⟨t, ht, h⟩ := List.exists_of_findSome?_eq_some h
  split_ifs at h with hp
  obtain ⟨b, rfl⟩ := List.isPrefixOf_iff_prefix.1 hp
  exact ⟨t, ht, b, rfl, by simpa using h⟩

theorem alts_deg {β : Type} {k : Text → Option β} {s : Text} {r : β} (h : alts [['°']] k s = some r) :
    ∃ b, s = '°' :: b ∧ k b = some r := by
  obtain ⟨t, ht, b, rfl, e1⟩ := alts_some h
  simp only [List.mem_singleton] at ht
  exact ⟨b, by rw [ht]; rfl, e1⟩

theorem alts_none {β : Type} {ts : List Text} {k : Text → Option β} {s : Text} (h : alts ts k s = none) (t : Text)
    (ht : t ∈ ts) (b : Text) (e : s = t ++ b) : k b = none := by
  unfold alts at h
  have := List.findSome?_eq_none_iff.1 h t ht
  subst e
  rw [if_pos (List.isPrefixOf_iff_prefix.2 ⟨b, rfl⟩)] at this
  simpa using this

theorem alts_eq_none {β : Type} {ts : List Text} {k : Text → Option β} {s : Text}
    (h : ∀ t ∈ ts, ∀ b, s = t ++ b → k b = none) : alts ts k s = none := by
  cases hg : alts ts k s with
  | none => rfl
  | some r =>
    obtain ⟨t, ht, b, e, hk⟩ := alts_some hg
    rw [h t ht b e] at hk
    simp at hk

theorem optional_some {β : Type} {ts : List Text} {k : Option Text → Text → Option β} {s : Text} {r : β}
    (h : optional ts k s = some r) : (∃ t ∈ ts, ∃ b, s = t ++ b ∧ k (some t) b = some r) ∨ k none s = some r := by
  unfold optional at h
  split at h
  · next r' hr =>
    obtain ⟨t, ht, hf⟩ := List.exists_of_findSome?_eq_some hr
    split_ifs at hf with hp
    obtain ⟨b, rfl⟩ := List.isPrefixOf_iff_prefix.1 hp
    exact Or.inl ⟨t, ht, b, rfl, by rw [← h]; simpa using hf⟩
  · exact Or.inr h

theorem optional_none {β : Type} {ts : List Text} {k : Option Text → Text → Option β} {s : Text}
    (h : optional ts k s = none) : (∀ t ∈ ts, ∀ b, s = t ++ b → k (some t) b = none) ∧ k none s = none := by
  unfold optional at h
  split at h
  · simp at h
  · next hr =>
    refine ⟨fun t ht b e => ?_, h⟩
    have := List.findSome?_eq_none_iff.1 hr t ht
    subst e
    rw [if_pos (List.isPrefixOf_iff_prefix.2 ⟨b, rfl⟩)] at this
    simpa using this

theorem optional_eq_none {β : Type} {ts : List Text} {k : Option Text → Text → Option β} {s : Text}
    (h : ∀ t ∈ ts, ∀ b, s = t ++ b → k (some t) b = none) (h' : k none s = none) : optional ts k s = none := by
  cases hg : optional ts k s with
  | none => rfl
  | some r =>
    rcases optional_some hg with ⟨t, ht, b, e, hk⟩ | hk
    · rw [h t ht b e] at hk; simp at hk
    · rw [h'] at hk; simp at hk

/-! ### classes of characters -/

theorem isDigit_iff {c : Char} : isDigit c = true ↔ '0' ≤ c ∧ c ≤ '9' := by simp [isDigit]

theorem isDegChar_iff {c : Char} : isDegChar c = true ↔ ('0' ≤ c ∧ c ≤ '9' ∨ c = '+' ∨ c = '-') := by
  simp [isDegChar, isDigit, or_assoc]

theorem isDecChar_iff {c : Char} : isDecChar c = true ↔ ('0' ≤ c ∧ c ≤ '9' ∨ c = '.') := by
  simp [isDecChar, isDigit]

theorem isDegDecChar_iff {c : Char} : isDegDecChar c = true ↔ ('0' ≤ c ∧ c ≤ '9' ∨ c = '.' ∨ c = '+' ∨ c = '-') := by
  simp [isDegDecChar, isDigit, or_assoc]

theorem len_pos {a : Text} : 1 ≤ a.length ↔ a ≠ [] := by
  rw [Nat.one_le_iff_ne_zero]; simp

theorem mem_minuteMarks {t : Text} : t ∈ minuteMarks ↔ MinuteMark t := by
  simp only [minuteMarks, MinuteMark, List.mem_cons, List.not_mem_nil, or_false]
  tauto

theorem mem_secondMarks {t : Text} : t ∈ secondMarks ↔ SecondMark t := by
  simp only [secondMarks, SecondMark, List.mem_cons, List.not_mem_nil, or_false]

/-! ### the patterns match exactly the notations -/

theorem part_some {β : Type} {f : Fmt} {k : Text → Option Text → Option Text → Text → Option β} {s : Text} {r : β}
    (h : part f k s = some r) : ∃ t rest deg min sec, s = t ++ rest ∧ Coord f t deg min sec ∧
      k deg min sec rest = some r := by
  cases f with
  | dms =>
    unfold part at h
    obtain ⟨deg, s1, rfl, c1, l1, e1⟩ := greedy_some h
    obtain ⟨s2, rfl, e2⟩ := alts_deg e1
    obtain ⟨b, s3, rfl, c2, -, e3⟩ := greedy_some e2
    obtain ⟨min, s4, rfl, c3, l3, e4⟩ := greedy_some e3
    obtain ⟨m, hm, s5, rfl, e5⟩ := alts_some e4
    obtain ⟨b', s6, rfl, c5, -, e6⟩ := greedy_some e5
    obtain ⟨sec, s7, rfl, c6, l6, e7⟩ := greedy_some e6
    obtain ⟨m', hm', s8, rfl, e8⟩ := alts_some e7
    obtain ⟨b'', s9, rfl, c8, -, e9⟩ := greedy_some e8
    refine ⟨_, s9, deg, some min, some sec, ?_, Coord.dms deg b min m b' sec m' b''
      ⟨len_pos.1 l1, fun c hc => isDegChar_iff.1 (c1 c hc)⟩ (blank_of c2) ⟨len_pos.1 l3, fun c hc => isDigit_iff.1 (c3 c hc)⟩
      (mem_minuteMarks.1 hm) (blank_of c5) ⟨len_pos.1 l6, fun c hc => isDecChar_iff.1 (c6 c hc)⟩ (mem_secondMarks.1 hm') (blank_of c8), e9⟩
    simp
  | dm =>
    unfold part at h
    obtain ⟨deg, s1, rfl, c1, l1, e1⟩ := greedy_some h
    obtain ⟨s2, rfl, e2⟩ := alts_deg e1
    obtain ⟨b, s3, rfl, c2, -, e3⟩ := greedy_some e2
    obtain ⟨min, s4, rfl, c3, l3, e4⟩ := greedy_some e3
    rcases optional_some e4 with ⟨m, hm, s5, rfl, e5⟩ | e5
    · obtain ⟨b', s6, rfl, c5, -, e6⟩ := greedy_some e5
      refine ⟨_, s6, deg, some min, none, ?_, Coord.dm deg b min m b'
        ⟨len_pos.1 l1, fun c hc => isDegChar_iff.1 (c1 c hc)⟩ (blank_of c2) ⟨len_pos.1 l3, fun c hc => isDecChar_iff.1 (c3 c hc)⟩
        (Or.inr (mem_minuteMarks.1 hm)) (blank_of c5), e6⟩
      simp
    · obtain ⟨b', s6, rfl, c5, -, e7⟩ := greedy_some e5
      refine ⟨_, s6, deg, some min, none, ?_, Coord.dm deg b min [] b'
        ⟨len_pos.1 l1, fun c hc => isDegChar_iff.1 (c1 c hc)⟩ (blank_of c2) ⟨len_pos.1 l3, fun c hc => isDecChar_iff.1 (c3 c hc)⟩
        (Or.inl rfl) (blank_of c5), e7⟩
      simp
  | d =>
    unfold part at h
    obtain ⟨deg, s1, rfl, c1, l1, e1⟩ := greedy_some h
    obtain ⟨s2, rfl, e2⟩ := alts_deg e1
    obtain ⟨b, s3, rfl, c2, -, e3⟩ := greedy_some e2
    refine ⟨_, s3, deg, none, none, ?_, Coord.d deg b
      ⟨len_pos.1 l1, fun c hc => isDegDecChar_iff.1 (c1 c hc)⟩ (blank_of c2), e3⟩
    simp

theorem part_none {β : Type} {f : Fmt} {k : Text → Option Text → Option Text → Text → Option β} {s : Text}
    (h : part f k s = none) (t rest deg : Text) (min sec : Option Text) (e : s = t ++ rest) (hc : Coord f t deg min sec) :
    k deg min sec rest = none := by
  subst e
  cases hc with
  | dms _ b min m b' sec m' b'' h1 h2 h3 h4 h5 h6 h7 h8 =>
    simp only [List.append_assoc, List.cons_append] at h
    unfold part at h
    have h := greedy_none h deg _ rfl
      (fun c hc => isDegChar_iff.2 (h1.2 c hc)) (len_pos.2 h1.1)
    have h := alts_none h ['°'] (by simp) _ rfl
    have h := greedy_none h b _ rfl h2.space (Nat.zero_le _)
    have h := greedy_none h min _ rfl (fun c hc => isDigit_iff.2 (h3.2 c hc)) (len_pos.2 h3.1)
    have h := alts_none h m (mem_minuteMarks.2 h4) _ rfl
    have h := greedy_none h b' _ rfl h5.space (Nat.zero_le _)
    have h := greedy_none h sec _ rfl (fun c hc => isDecChar_iff.2 (h6.2 c hc)) (len_pos.2 h6.1)
    have h := alts_none h m' (mem_secondMarks.2 h7) _ rfl
    exact greedy_none h b'' _ rfl h8.space (Nat.zero_le _)
  | dm _ b min m b' h1 h2 h3 h4 h5 =>
    simp only [List.append_assoc, List.cons_append] at h
    unfold part at h
    have h := greedy_none h deg _ rfl
      (fun c hc => isDegChar_iff.2 (h1.2 c hc)) (len_pos.2 h1.1)
    have h := alts_none h ['°'] (by simp) _ rfl
    have h := greedy_none h b _ rfl h2.space (Nat.zero_le _)
    have h := greedy_none h min _ rfl (fun c hc => isDecChar_iff.2 (h3.2 c hc)) (len_pos.2 h3.1)
    obtain ⟨o1, o2⟩ := optional_none h
    rcases h4 with rfl | h4
    · exact greedy_none o2 b' _ rfl h5.space (Nat.zero_le _)
    · exact greedy_none (o1 m (mem_minuteMarks.2 h4) _ rfl) b' _ rfl h5.space (Nat.zero_le _)
  | d _ b h1 h2 =>
    simp only [List.append_assoc, List.cons_append] at h
    unfold part at h
    have h := greedy_none h deg _ rfl
      (fun c hc => isDegDecChar_iff.2 (h1.2 c hc)) (len_pos.2 h1.1)
    have h := alts_none h ['°'] (by simp) _ rfl
    exact greedy_none h b _ rfl h2.space (Nat.zero_le _)

theorem matchSingle_some {f : Fmt} {s : Text} {g : Groups} (h : matchSingle f s = some g) : IsSingle f s g := by
  unfold matchSingle at h
  obtain ⟨b, s1, rfl, c1, -, e1⟩ := greedy_some h
  obtain ⟨t, s2, deg, min, sec, rfl, hc, e2⟩ := part_some e1
  rcases optional_some e2 with ⟨x, hx, s3, rfl, e3⟩ | e3
  · obtain ⟨b', rest, rfl, c2, -, e4⟩ := greedy_some e3
    simp only [Option.some.injEq] at e4
    subst e4
    simp only [List.mem_cons, List.not_mem_nil, or_false] at hx
    exact ⟨b, t, b', rest, (blank_of c1), hc, by simpa using hx, (blank_of c2), by simp [letterText]⟩
  · obtain ⟨b', rest, rfl, c2, -, e5⟩ := greedy_some e3
    simp only [Option.some.injEq] at e5
    subst e5
    exact ⟨b, t, b', rest, (blank_of c1), hc, by simp, (blank_of c2), by simp [letterText]⟩

theorem matchSingle_none {f : Fmt} {s : Text} (h : matchSingle f s = none) (g : Groups) : ¬ IsSingle f s g := by
  rintro ⟨b, t, b', rest, c1, hc, hs, c2, rfl⟩
  unfold matchSingle at h
  have h := greedy_none h b _ rfl c1.space (Nat.zero_le _)
  have h := part_none h t _ _ _ _ rfl hc
  obtain ⟨o1, o2⟩ := optional_none h
  rcases hs with hs | hs | hs | hs | hs
  · rw [hs] at o2
    simpa using greedy_none o2 b' rest rfl c2.space (Nat.zero_le _)
  all_goals
    rw [hs] at o1
    simpa using greedy_none (o1 _ (by simp [letterText]) _ rfl) b' rest rfl c2.space (Nat.zero_le _)

theorem matchPair_some {f : Fmt} {s : Text} {g : Groups × Groups} (h : matchPair f s = some g) : IsPair f s g := by
  unfold matchPair at h
  obtain ⟨b, s1, rfl, c1, -, e1⟩ := greedy_some h
  obtain ⟨t, s2, deg, min, sec, rfl, hc, e2⟩ := part_some e1
  have key : ∃ sign, (sign = none ∨ sign = some ['N'] ∨ sign = some ['S']) ∧ ∃ s3, s2 = letterText sign ++ s3 ∧
      greedy isSpace 0 (fun _ => optional [[',']] fun _ => greedy isSpace 0 fun _ =>
        part f fun deg' min' sec' => optional [['W'], ['E']] fun sign' => greedy isSpace 0 fun _ _ =>
        some (⟨deg, min, sec, sign⟩, ⟨deg', min', sec', sign'⟩)) s3 = some g := by
    rcases optional_some e2 with ⟨x, hx, s3, rfl, e3⟩ | e3
    · simp only [List.mem_cons, List.not_mem_nil, or_false] at hx
      exact ⟨some x, by simpa using hx, s3, rfl, e3⟩
    · exact ⟨none, by simp, s2, rfl, e3⟩
  obtain ⟨sign, hs, s3, rfl, e4⟩ := key
  obtain ⟨b', s4, rfl, c2, -, e5⟩ := greedy_some e4
  have key : ∃ comma, (comma = [] ∨ comma = [',']) ∧ ∃ s5, s4 = comma ++ s5 ∧ greedy isSpace 0 (fun _ =>
        part f fun deg' min' sec' => optional [['W'], ['E']] fun sign' => greedy isSpace 0 fun _ _ =>
        some ((⟨deg, min, sec, sign⟩, ⟨deg', min', sec', sign'⟩) : Groups × Groups)) s5 = some g := by
    rcases optional_some e5 with ⟨x, hx, s5, rfl, e6⟩ | e6
    · simp only [List.mem_cons, List.not_mem_nil, or_false] at hx
      exact ⟨x, Or.inr hx, s5, rfl, e6⟩
    · exact ⟨[], Or.inl rfl, s4, rfl, e6⟩
  obtain ⟨comma, hcomma, s5, rfl, e7⟩ := key
  obtain ⟨b'', s6, rfl, c3, -, e8⟩ := greedy_some e7
  obtain ⟨t', s7, deg', min', sec', rfl, hc', e9⟩ := part_some e8
  have key : ∃ sign', (sign' = none ∨ sign' = some ['W'] ∨ sign' = some ['E']) ∧ ∃ s8, s7 = letterText sign' ++ s8 ∧
      greedy isSpace 0 (fun _ _ => some ((⟨deg, min, sec, sign⟩, ⟨deg', min', sec', sign'⟩) : Groups × Groups)) s8
        = some g := by
    rcases optional_some e9 with ⟨x, hx, s8, rfl, e10⟩ | e10
    · simp only [List.mem_cons, List.not_mem_nil, or_false] at hx
      exact ⟨some x, by simpa using hx, s8, rfl, e10⟩
    · exact ⟨none, by simp, s7, rfl, e10⟩
  obtain ⟨sign', hs', s8, rfl, e11⟩ := key
  obtain ⟨b''', rest, rfl, c4, -, e12⟩ := greedy_some e11
  simp only [Option.some.injEq] at e12
  subst e12
  exact ⟨b, t, b', comma, b'', t', b''', rest, (blank_of c1), hc, hs, (blank_of c2), hcomma, (blank_of c3), hc', hs', (blank_of c4), rfl⟩

theorem matchPair_none {f : Fmt} {s : Text} (h : matchPair f s = none) (g : Groups × Groups) : ¬ IsPair f s g := by
  rintro ⟨b, t, b', comma, b'', t', b''', rest, c1, hc, hs, c2, hcomma, c3, hc', hs', c4, rfl⟩
  unfold matchPair at h
  have h := greedy_none h b _ rfl c1.space (Nat.zero_le _)
  have h := part_none h t _ _ _ _ rfl hc
  obtain ⟨o1, o2⟩ := optional_none h
  have h : greedy isSpace 0 (fun _ => optional [[',']] fun _ => greedy isSpace 0 fun _ =>
        part f fun deg' min' sec' => optional [['W'], ['E']] fun sign' => greedy isSpace 0 fun _ _ =>
        some ((⟨g.1.deg, g.1.min, g.1.sec, g.1.sign⟩, ⟨deg', min', sec', sign'⟩) : Groups × Groups))
        (b' ++ (comma ++ (b'' ++ (t' ++ (letterText g.2.sign ++ (b''' ++ rest)))))) = none := by
    rcases hs with hs | hs | hs
    · rw [hs] at o2 ⊢; exact o2
    · rw [hs] at o1 ⊢; exact o1 _ (by simp) _ rfl
    · rw [hs] at o1 ⊢; exact o1 _ (by simp) _ rfl
  have h := greedy_none h b' _ rfl c2.space (Nat.zero_le _)
  obtain ⟨p1, p2⟩ := optional_none h
  have h : greedy isSpace 0 (fun _ =>
        part f fun deg' min' sec' => optional [['W'], ['E']] fun sign' => greedy isSpace 0 fun _ _ =>
        some ((⟨g.1.deg, g.1.min, g.1.sec, g.1.sign⟩, ⟨deg', min', sec', sign'⟩) : Groups × Groups))
        (b'' ++ (t' ++ (letterText g.2.sign ++ (b''' ++ rest)))) = none := by
    rcases hcomma with rfl | rfl
    · exact p2
    · exact p1 _ (by simp) _ rfl
  have h := greedy_none h b'' _ rfl c3.space (Nat.zero_le _)
  have h := part_none h t' _ _ _ _ rfl hc'
  obtain ⟨q1, q2⟩ := optional_none h
  rcases hs' with hs | hs | hs
  · rw [hs] at q2
    simpa using greedy_none q2 b''' rest rfl c4.space (Nat.zero_le _)
  all_goals
    rw [hs] at q1
    simpa using greedy_none (q1 _ (by simp [letterText]) _ rfl) b''' rest rfl c4.space (Nat.zero_le _)

end GpsText

namespace GpsText

open Py

/-! ### numbers -/

theorem digits_all {t : Text} (h : t = [] ∨ Digits t) : ∀ c ∈ t, isDigit c := by
  intro c hc
  rcases h with rfl | h
  · simp at hc
  · exact isDigit_iff.2 (h.2 c hc)

theorem digitsVal_eq (t : Text) : digitsVal t = Nat.ofDigitChars 10 t 0 := rfl

theorem unsigned_reads {t : Text} {x : ℝ} (h : Reads t x) : unsignedFloat t = some x := by
  cases h with
  | int _ h =>
    have h1 := takeWhile_exact isDigit t [] (digits_all (Or.inr h)) (by simp)
    have h2 := dropWhile_exact isDigit t [] (digits_all (Or.inr h)) (by simp)
    rw [List.append_nil] at h1 h2
    unfold unsignedFloat
    simp only [h1, h2]
    rw [if_neg h.1, digitsVal_eq]
  | dec a b ha hb h =>
    have hd : ∀ c b', '.' :: b = c :: b' → isDigit c = false := by
      intro c b' e
      simp only [List.cons.injEq] at e
      rw [← e.1]
      decide
    have h1 := takeWhile_exact isDigit a ('.' :: b) (digits_all ha) hd
    have h2 := dropWhile_exact isDigit a ('.' :: b) (digits_all ha) hd
    unfold unsignedFloat
    simp only [h1, h2]
    rw [if_pos ⟨List.all_eq_true.2 (digits_all hb), h⟩, digitsVal_eq, digitsVal_eq]

theorem mem_takeWhile {p : Char → Bool} {t : Text} {c : Char} (h : c ∈ t.takeWhile p) : p c :=
  List.all_eq_true.1 List.all_takeWhile c h

theorem reads_unsigned {t : Text} {x : ℝ} (h : unsignedFloat t = some x) : Reads t x := by
  have ht : t.takeWhile isDigit ++ t.dropWhile isDigit = t := List.takeWhile_append_dropWhile
  unfold unsignedFloat at h
  simp only at h
  generalize hA : t.takeWhile isDigit = a at *
  generalize hB : t.dropWhile isDigit = b at *
  have ha : a = [] ∨ Digits a := by
    by_cases h0 : a = []
    · exact Or.inl h0
    · exact Or.inr ⟨h0, fun c hc => isDigit_iff.1 (mem_takeWhile (hA ▸ hc))⟩
  match b, h with
  | [], h =>
    simp only at h
    split_ifs at h with h0
    simp only [Option.some.injEq] at h
    rw [List.append_nil] at ht
    subst ht
    subst h
    rw [digitsVal_eq]
    exact Reads.int a (ha.resolve_left h0)
  | '.' :: b, h =>
    simp only at h
    split_ifs at h with h0
    simp only [Option.some.injEq] at h
    subst ht
    subst h
    rw [digitsVal_eq, digitsVal_eq]
    refine Reads.dec a b ha ?_ h0.2
    by_cases h1 : b = []
    · exact Or.inl h1
    · exact Or.inr ⟨h1, fun c hc => isDigit_iff.1 (List.all_eq_true.1 h0.1 c hc)⟩
  | c :: b, h =>
    split at h
    · next e => simp at e
    · next b' e =>
      simp only [List.cons.injEq] at e
      obtain ⟨rfl, rfl⟩ := e
      split_ifs at h with h0
      simp only [Option.some.injEq] at h
      subst ht
      subst h
      rw [digitsVal_eq, digitsVal_eq]
      refine Reads.dec a _ ha ?_ h0.2
      by_cases h1 : b = []
      · exact Or.inl h1
      · exact Or.inr ⟨h1, fun c hc => isDigit_iff.1 (List.all_eq_true.1 h0.1 c hc)⟩
    · simp at h

theorem reads_head {t : Text} {x : ℝ} (h : Reads t x) : ∃ c t', t = c :: t' ∧ c ≠ '-' ∧ c ≠ '+' := by
  cases h with
  | int _ h =>
    obtain ⟨h0, h1⟩ := h
    cases t with
    | nil => exact absurd rfl h0
    | cons c t =>
      have := h1 c List.mem_cons_self
      refine ⟨c, t, rfl, ?_, ?_⟩ <;> rintro rfl <;> revert this <;> decide
  | dec a b ha hb h =>
    cases a with
    | nil => exact ⟨'.', b, rfl, by decide, by decide⟩
    | cons c a =>
      have := (ha.resolve_left (by simp)).2 c List.mem_cons_self
      refine ⟨c, a ++ '.' :: b, rfl, ?_, ?_⟩ <;> rintro rfl <;> revert this <;> decide

theorem float_reads {t : Text} {x : ℝ} (h : Reads t x) : float t = .ok x := by
  obtain ⟨c, t', rfl, h1, h2⟩ := reads_head h
  unfold float
  split
  · next hm =>
    split at hm
    · next e => simp only [List.cons.injEq] at e; exact absurd e.1 h1
    · next e => simp only [List.cons.injEq] at e; exact absurd e.1 h2
    · rw [unsigned_reads h] at hm; simp at hm
  · next hm =>
    split at hm
    · next e => simp only [List.cons.injEq] at e; exact absurd e.1 h1
    · next e => simp only [List.cons.injEq] at e; exact absurd e.1 h2
    · rw [unsigned_reads h] at hm; simp only [Option.some.injEq] at hm; rw [hm]

theorem float_minus {t : Text} {x : ℝ} (h : Reads t x) : float ('-' :: t) = .ok (-x) := by
  simp [float, unsigned_reads h]

theorem float_plus {t : Text} {x : ℝ} (h : Reads t x) : float ('+' :: t) = .ok x := by
  simp [float, unsigned_reads h]

theorem digits_decimals {t : Text} (h : Digits t) : Decimals t := ⟨h.1, fun c hc => Or.inl (h.2 c hc)⟩

theorem reads_unique {t : Text} {x y : ℝ} (h : Reads t x) (h' : Reads t y) : x = y := by
  have := unsigned_reads h
  rw [unsigned_reads h'] at this
  simpa using this.symm

theorem reads_nonneg {t : Text} {x : ℝ} (h : Reads t x) : 0 ≤ x := by
  cases h <;> positivity

theorem float_ok {t : Text} {x : ℝ} (h : float t = .ok x) :
    Reads t x ∨ (∃ t', t = '+' :: t' ∧ Reads t' x) ∨ ∃ t' y, t = '-' :: t' ∧ Reads t' y ∧ x = -y := by
  unfold float at h
  split at h
  · simp at h
  · next y hm =>
    simp only [Except.ok.injEq] at h
    subst h
    split at hm
    · next t' =>
      right; right
      simp only [Option.map_eq_some_iff] at hm
      obtain ⟨z, hz, rfl⟩ := hm
      exact ⟨t', z, rfl, reads_unsigned hz, rfl⟩
    · next t' => exact Or.inr (Or.inl ⟨t', rfl, reads_unsigned hm⟩)
    · exact Or.inl (reads_unsigned hm)

theorem floatOr0_reads {t : Option Text} {x : ℝ} (h : OptReads t x) : floatOr0 t = .ok x := by
  cases h with
  | none => rfl
  | some t x h => exact float_reads h

end GpsText
