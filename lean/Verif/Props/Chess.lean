import Verif.Spec.Chess
import Mathlib.Tactic.Common
import Mathlib.Tactic.Push

/-! # C138: stored corners are those of the image;  C139: a batch is the files that differ only in their numbers -/

namespace Chess

variable {D : Type}

/-- The cache only holds corners of the calls made. -/
def Honest (files : List Char → Option (Pic D)) (dir : List Char) (done : List Call) (c : Cache D) : Prop :=
  ∀ name d, c (dir, name) = some d → ∃ k ∈ done, stem k.fn = name ∧ look (files k.fn) k.size = some d

theorem honest_step {files : List Char → Option (Pic D)} {rows : D → ℕ} {n : ℕ} {dir : List Char} {done : List Call} {c : Cache D}
    (h : Honest files dir done c) (k : Call) :
    Honest files dir (done ++ [k]) (processImage files rows n c k.fn k.size (some dir)).2 := by
  have mono : Honest files dir (done ++ [k]) c := by
    intro name d hd
    obtain ⟨k', h1, h2⟩ := h name d hd
    exact ⟨k', List.mem_append_left _ h1, h2⟩
  unfold processImage
  simp only
  split
  · exact mono
  · cases hl : look (files k.fn) k.size with
    | none => exact mono
    | some d =>
      simp only
      split_ifs with h0
      · exact mono
      · intro name d' hd'
        by_cases e : (dir, name) = (dir, stem k.fn)
        · rw [e, Function.update_self] at hd'
          cases hd'
          exact ⟨k, by simp, (Prod.mk.inj e).2.symm, hl⟩
        · rw [Function.update_of_ne e] at hd'
          exact mono name d' hd'

theorem results_direct {files : List Char → Option (Pic D)} {rows : D → ℕ} {n : ℕ} {dir : List Char}
    (hn : ∀ fn size d, look (files fn) size = some d → rows d = n) :
    ∀ (ks done : List Call) (c : Cache D), Honest files dir done c →
      (∀ k ∈ done ++ ks, ∀ k' ∈ done ++ ks, stem k.fn = stem k'.fn → look (files k.fn) k.size = look (files k'.fn) k'.size) →
      results files rows n dir c ks = ks.map (direct files) := by
  intro ks
  induction ks with
  | nil => intros; rfl
  | cons k ks ih =>
    intro done c hc hs
    have h1 := ih (done ++ [k]) _ (honest_step (rows := rows) (n := n) hc k) (by simpa using hs)
    unfold results
    rw [h1, List.map_cons]
    congr 1
    unfold processImage direct
    simp only
    split
    · rename_i d hd
      have hd' : c (dir, stem k.fn) = some d := by
        by_cases h0 : dir = []
        · rw [if_pos h0] at hd
          cases hd
        · rwa [if_neg h0] at hd
      obtain ⟨k', hk', e1, e2⟩ := hc _ _ hd'
      have := hs k (by simp) k' (by simp [hk']) e1.symm
      rw [this, e2]
      simp [hn _ _ _ e2]
    · cases look (files k.fn) k.size <;> rfl

theorem dropWhile_stop {dig : Char → Bool} {d f : List Char} (hd : ∀ c ∈ d, dig c = true) (hf : ∀ c ∈ f.head?, dig c = false) :
    (d ++ f).dropWhile dig = f := by
  induction d with
  | nil =>
    cases f with
    | nil => rfl
    | cons a f => simp [hf a (by simp)]
  | cons a d ih =>
    rw [List.cons_append, List.dropWhile_cons, if_pos (hd a List.mem_cons_self)]
    exact ih fun c hc => hd c (List.mem_cons_of_mem _ hc)

theorem stars_number {dig : Char → Bool} {d f : List Char} (h0 : d ≠ []) (hd : ∀ c ∈ d, dig c = true) (hf : ∀ c ∈ f.head?, dig c = false) :
    stars dig (d ++ f) = '*' :: stars dig f := by
  cases d with
  | nil => exact absurd rfl h0
  | cons a d =>
    rw [List.cons_append, stars, if_pos (hd a List.mem_cons_self)]
    rw [dropWhile_stop (fun c hc => hd c (List.mem_cons_of_mem _ hc)) hf]

theorem stars_char {dig : Char → Bool} {c : Char} (h : dig c = false) (f : List Char) : stars dig (c :: f) = c :: stars dig f := by
  rw [stars, if_neg (by simp [h])]

theorem stars_plain {dig : Char → Bool} {p : List Char} (h : ∀ c ∈ p, dig c = false) (q : List Char) : stars dig (p ++ q) = p ++ stars dig q := by
  induction p with
  | nil => rfl
  | cons a p ih =>
    rw [List.cons_append, stars_char (h a List.mem_cons_self), ih fun c hc => h c (List.mem_cons_of_mem _ hc)]
    rfl

/-- A character that stands for itself or for any character. -/
theorem Fits.self {c : Char} (h : c ≠ '[') {p s : List Char} (hf : Fits p s) : Fits (c :: p) (c :: s) := by
  by_cases h1 : c = '*'
  · subst h1
    exact Fits.star ['*'] hf
  · by_cases h2 : c = '?'
    · subst h2
      exact Fits.any '?' hf
    · exact Fits.lit c h1 h2 h hf

theorem fits_plain {p : List Char} (hp : ∀ c ∈ p, c ≠ '*' ∧ c ≠ '?' ∧ c ≠ '[') {q s : List Char} :
    Fits (p ++ q) s ↔ ∃ t, s = p ++ t ∧ Fits q t := by
  induction p generalizing s with
  | nil => simp
  | cons a p ih =>
    obtain ⟨h1, h2, h3⟩ := hp a List.mem_cons_self
    have ih' := @ih fun c hc => hp c (List.mem_cons_of_mem _ hc)
    constructor
    · intro h
      rw [List.cons_append] at h
      cases h with
      | star => exact absurd rfl h1
      | any => exact absurd rfl h2
      | set => exact absurd rfl h3
      | bracket => exact absurd rfl h3
      | lit _ _ _ _ h' =>
        obtain ⟨t, rfl, ht⟩ := ih'.1 h'
        exact ⟨t, rfl, ht⟩
    · rintro ⟨t, rfl, ht⟩
      exact Fits.lit a h1 h2 h3 (ih'.2 ⟨t, rfl, ht⟩)

end Chess

open Chess

/-- **C138, partial.**  With an output directory whose cache is empty and any sequence of images: if images with the same name (without
folder and ending) have the same content, every result is the one of the image itself.  `rows` corners are found in every image in which
the pattern is found. -/
theorem C138_cache_partial {D : Type} (files : List Char → Option (Pic D)) (rows : D → ℕ) (n : ℕ)
    (hn : ∀ fn size d, look (files fn) size = some d → rows d = n) (dir : List Char) (c : Cache D) (hc : ∀ name, c (dir, name) = none)
    (ks : List Call) (hs : ∀ k ∈ ks, ∀ k' ∈ ks, stem k.fn = stem k'.fn → look (files k.fn) k.size = look (files k'.fn) k'.size) :
    results files rows n dir c ks = ks.map (direct files) :=
  results_direct hn ks [] c (fun name d h => by rw [hc] at h; cases h) (by simpa using hs)

/-- **C138 violated.**  Two images with the same name in different folders, or with different endings: the second gets the corners of the
first, whatever it shows, even if it shows no chess board or does not exist. -/
theorem C138_name_violated {D : Type} (files : List Char → Option (Pic D)) (rows : D → ℕ) (n : ℕ) (dir : List Char) (h0 : dir ≠ [])
    (c : Cache D) (hc : ∀ name, c (dir, name) = none) {f g : List Char} (hfg : stem f = stem g) {size size' : Option (ℕ × ℕ)} {d : D}
    (hd : look (files f) size = some d) (hr : rows d = n) :
    results files rows n dir c [⟨f, size⟩, ⟨g, size'⟩] = [.corners d, .corners d] := by
  simp [results, processImage, h0, hc, hd, ← hfg, hr]

/-- **C138 violated.**  Without output directory, which is the default, `processImage` always raises. -/
theorem C138_default_violated {D : Type} (files : List Char → Option (Pic D)) (rows : D → ℕ) (n : ℕ) (c : Cache D) (fn : List Char)
    (size : Option (ℕ × ℕ)) : (processImage files rows n c fn size none).1 = .typeError := rfl

/-- Names with different endings, or in different folders, are such names. -/
example : stem "a/img1.jpg".toList = stem "b/img1.png".toList ∧ "a/img1.jpg" ≠ "b/img1.png" := by
  constructor
  · decide
  · decide

/-- The hypotheses can be met: two images of the same size with different names. -/
example : ∃ (files : List Char → Option (Pic ℕ)) (ks : List Call), (∀ fn size d, look (files fn) size = some d → (fun _ => 54) d = 54) ∧ ks.length = 2 ∧
    ks.map (direct files) = [.corners 1, .corners 2] ∧
    ∀ k ∈ ks, ∀ k' ∈ ks, stem k.fn = stem k'.fn → look (files k.fn) k.size = look (files k'.fn) k'.size := by
  refine ⟨fun fn => if fn = ['a'] then some ⟨4, 3, some 1, none⟩ else some ⟨4, 3, some 2, none⟩, [⟨['a'], none⟩, ⟨['b'], none⟩], fun _ _ _ _ => rfl,
    rfl, ?_, ?_⟩
  · simp [direct, look]
  · have e1 : stem ['a'] = ['a'] := by decide
    have e2 : stem ['b'] = ['b'] := by decide
    simp [look, e1, e2]

/-- **C139, partial.**  A file is chosen whose name has no opening bracket.  The files that differ from it only in their numbers, and it
itself, are loaded. -/
theorem C139_numbers_partial (dig : Char → Bool) (hdot : dig '.' = false) (dir : List (List Char)) {f g : List Char} (hf : '[' ∉ f)
    (h : SameButNumbers dig f g) (hg : g ∈ dir) : Loaded dig dir f g := by
  have fit : Fits (stars dig f) g := by
    clear hg
    induction h with
    | nil => rw [stars]; exact .nil
    | char c hc _ ih =>
      rw [stars_char hc]
      exact Fits.self (fun e => hf (by rw [e]; exact List.mem_cons_self)) (ih fun hh => hf (List.mem_cons_of_mem _ hh))
    | number h1 _ h3 _ h5 _ _ ih =>
      rw [stars_number h1 h3 h5]
      exact Fits.star _ (ih fun hh => hf (List.mem_append_right _ hh))
  refine ⟨hg, fit, fun hh => ?_⟩
  clear fit hg hf
  cases h with
  | nil => simp [Chess.hidden] at hh
  | char c hc _ =>
    rw [stars_char hc]
    by_cases e : c = '.'
    · subst e
      rfl
    · exfalso
      revert hh
      unfold Chess.hidden
      split
      · rename_i h; exact absurd (List.cons.inj h).1 e
      · simp
  | number h1 h2 h3 h4 h5 h6 h7 =>
    rename_i d e f g
    cases e with
    | nil => exact absurd rfl h2
    | cons a e =>
      exfalso
      have ha := h4 a List.mem_cons_self
      revert hh
      unfold Chess.hidden
      split
      · rename_i h
        rw [List.cons_append] at h
        rw [(List.cons.inj h).1, hdot] at ha
        cases ha
      · simp

/-- The chosen file differs from itself only in its numbers. -/
theorem C139_chosen_partial (dig : Char → Bool) (hdot : dig '.' = false) (dir : List (List Char)) {f : List Char} (hf : '[' ∉ f)
    (h : f ∈ dir) : Loaded dig dir f f := by
  refine C139_numbers_partial dig hdot dir hf ?_ h
  clear h hf
  suffices H : ∀ n (f : List Char), f.length ≤ n → SameButNumbers dig f f from H _ f le_rfl
  intro n
  induction n with
  | zero =>
    intro f hf
    rw [List.eq_nil_of_length_eq_zero (Nat.le_zero.1 hf)]
    exact .nil
  | succ n ih =>
    intro f hf
    cases f with
    | nil => exact .nil
    | cons c f =>
      cases hc : dig c with
      | false => exact .char c hc (ih f (by simpa using hf))
      | true =>
        have e : c :: f = (c :: f.takeWhile dig) ++ f.dropWhile dig := by
          rw [List.cons_append, List.takeWhile_append_dropWhile]
        have hd : ∀ x ∈ c :: f.takeWhile dig, dig x = true := by
          intro x hx
          rcases List.mem_cons.1 hx with rfl | hx
          · exact hc
          · exact List.mem_takeWhile_imp hx
        have hh : ∀ x ∈ (f.dropWhile dig).head?, dig x = false := by
          intro x hx
          have := List.head?_dropWhile_not dig f
          rw [Option.mem_def.1 hx] at this
          simpa using this
        rw [e]
        refine .number (by simp) (by simp) hd hd hh hh (ih _ ?_)
        have := (List.dropWhile_sublist dig (l := f)).length_le
        simp only [List.length_cons] at hf
        omega

/-- **C139 violated.**  Other files are loaded, too: with a number between two texts, every file of the directory that begins and ends
with these texts is loaded, whatever is in between. -/
theorem C139_others_violated (dig : Char → Bool) (dir : List (List Char)) {p d q x : List Char}
    (hp : ∀ c ∈ p, dig c = false ∧ c ≠ '*' ∧ c ≠ '?' ∧ c ≠ '[') (hq : ∀ c ∈ q, dig c = false ∧ c ≠ '*' ∧ c ≠ '?' ∧ c ≠ '[')
    (h0 : p ≠ []) (hd0 : d ≠ []) (hd : ∀ c ∈ d, dig c = true) (h : p ++ x ++ q ∈ dir) : Loaded dig dir (p ++ d ++ q) (p ++ x ++ q) := by
  have e : stars dig (p ++ d ++ q) = p ++ '*' :: q := by
    rw [List.append_assoc, stars_plain (fun c hc => (hp c hc).1), stars_number hd0 hd (by
      intro c hc
      exact (hq c (List.mem_of_mem_head? hc)).1)]
    have := stars_plain (dig := dig) (fun c hc => (hq c hc).1) []
    rw [List.append_nil] at this
    rw [this, stars, List.append_nil]
  refine ⟨h, ?_, ?_⟩
  · rw [e, List.append_assoc]
    refine (fits_plain fun c hc => (hp c hc).2).2 ⟨x ++ q, rfl, Fits.star x ?_⟩
    have := (fits_plain (p := q) (q := []) (s := q) fun c hc => (hq c hc).2).2 ⟨[], by simp, .nil⟩
    simpa using this
  · intro hh
    rw [e]
    cases p with
    | nil => exact absurd rfl h0
    | cons a p =>
      simp only [List.cons_append] at hh ⊢
      revert hh
      unfold Chess.hidden
      split
      · rename_i h; rw [(List.cons.inj h).1]; simp
      · simp

/-- **C139 violated.**  A file whose number stands in brackets is not loaded when it is chosen. -/
theorem C139_bracket_violated (dig : Char → Bool) (hb : dig '[' = false ∧ dig ']' = false) (dir : List (List Char)) {p d q : List Char}
    (hp : ∀ c ∈ p, dig c = false ∧ c ≠ '*' ∧ c ≠ '?' ∧ c ≠ '[') (hq : ∀ c ∈ q, dig c = false ∧ c ≠ '*' ∧ c ≠ '?' ∧ c ≠ '[')
    (hd0 : d ≠ []) (hd : ∀ c ∈ d, dig c = true) : ¬Loaded dig dir (p ++ '[' :: (d ++ ']' :: q)) (p ++ '[' :: (d ++ ']' :: q)) := by
  rintro ⟨-, h, -⟩
  have e : stars dig (p ++ '[' :: (d ++ ']' :: q)) = p ++ '[' :: '*' :: ']' :: q := by
    rw [stars_plain (fun c hc => (hp c hc).1), stars_char hb.1, stars_number hd0 hd (by
      intro c hc
      simp only [List.head?_cons, Option.mem_def, Option.some.injEq] at hc
      rw [← hc]
      exact hb.2), stars_char hb.2]
    have := stars_plain (dig := dig) (fun c hc => (hq c hc).1) []
    rw [List.append_nil] at this
    rw [this, stars, List.append_nil]
  rw [e, fits_plain fun c hc => (hp c hc).2] at h
  obtain ⟨t, ht, hf⟩ := h
  rw [List.append_cancel_left_eq] at ht
  subst ht
  have hs : splitSet ('*' :: ']' :: q) = some (false, ['*'], q) := by
    simp [splitSet]
  have fin : ∀ rest s', Fits rest s' → rest = q → s' = q := by
    intro rest s' hf hr
    have := (fits_plain (p := q) (q := []) (s := s') fun c hc => (hq c hc).2).1 (by rw [List.append_nil, ← hr]; exact hf)
    obtain ⟨t, rfl, ht⟩ := this
    cases ht
    simp
  cases hf with
  | set c h1 h2 h3 =>
    rw [hs] at h1
    have := fin _ _ h3 (Prod.mk.inj (Prod.mk.inj (Option.some.inj h1)).2).2.symm
    have := congrArg List.length this
    simp at this
    omega
  | bracket h1 =>
    rw [hs] at h1
    cases h1
  | lit _ _ _ h3 => exact absurd rfl h3

/-- The hypotheses can be met: names with numbers, other names and names in brackets. -/
example : SameButNumbers Char.isDigit "img1.png".toList "img23.png".toList ∧ '[' ∉ "img1.png".toList := by
  refine ⟨?_, by decide⟩
  refine .char 'i' rfl (.char 'm' rfl (.char 'g' rfl ?_))
  refine SameButNumbers.number (d := ['1']) (e := ['2', '3']) (f := ".png".toList) (g := ".png".toList) (by simp) (by simp) (by decide) (by decide)
    (by decide) (by decide) ?_
  exact .char '.' rfl (.char 'p' rfl (.char 'n' rfl (.char 'g' rfl .nil)))

/-- The hypotheses of the violations can be met: text without digits and special characters around a number. -/
example : (∀ c ∈ "img".toList, c.isDigit = false ∧ c ≠ '*' ∧ c ≠ '?' ∧ c ≠ '[') ∧ (∀ c ∈ ".png".toList, c.isDigit = false ∧ c ≠ '*' ∧ c ≠ '?' ∧ c ≠ '[') ∧
    "12".toList ≠ [] ∧ (∀ c ∈ "12".toList, c.isDigit = true) := by
  refine ⟨by decide, by decide, by decide, by decide⟩

/-- **C138, partial.**  Which images are used: without a given size all that show the pattern, with a given size those of this size that
are not square, and those of the swapped size, transposed. -/
theorem C138_sizes_partial {D : Type} (p : Pic D) :
    look (some p) none = p.found ∧ (p.w ≠ p.h → look (some p) (some (p.w, p.h)) = p.found) ∧
    (look (some p) (some (p.h, p.w)) = p.foundT) ∧
    (∀ w h, (w, h) ≠ (p.w, p.h) → (w, h) ≠ (p.h, p.w) → look (some p) (some (w, h)) = none) ∧
    ∀ size, look (none : Option (Pic D)) size = none := by
  refine ⟨rfl, fun h => ?_, ?_, fun w h h1 h2 => ?_, fun _ => rfl⟩
  · simp [look, h]
  · simp [look]
  · simp only [ne_eq, Prod.mk.injEq, not_and] at h1 h2
    have a : ¬(p.w = h ∧ p.h = w) := fun e => h2 e.2.symm e.1.symm
    have b : ¬(w = p.w ∧ h = p.h) := fun e => h1 e.1 e.2
    simp only [look]
    rw [if_neg a, if_neg b]

/-- **C138 violated.**  A square image of the given size is transposed before the pattern is looked for: its result is that of another
image. -/
theorem C138_square_violated {D : Type} (p : Pic D) (h : p.w = p.h) (hne : p.found ≠ p.foundT) :
    look (some p) (some (p.w, p.h)) ≠ p.found ∧ look (some p) (some (p.w, p.h)) = p.foundT := by
  have : look (some p) (some (p.w, p.h)) = p.foundT := by simp [look, h]
  exact ⟨by rw [this]; exact hne.symm, this⟩

/-- There are such images. -/
example : ∃ p : Pic ℕ, p.w = p.h ∧ p.found ≠ p.foundT := ⟨⟨3, 3, some 1, some 2⟩, rfl, by simp⟩

example : ∃ p : Pic ℕ, p.w ≠ p.h ∧ ((5, 5) : ℕ × ℕ) ≠ (p.w, p.h) ∧ ((5, 5) : ℕ × ℕ) ≠ (p.h, p.w) := ⟨⟨4, 3, some 1, none⟩, by decide, by decide, by decide⟩

theorem Chess.stars_all {dig : Char → Bool} {q : List Char} (h : ∀ c ∈ q, dig c = false) : stars dig q = q := by
  have := stars_plain h []
  rw [List.append_nil] at this
  rw [this, stars, List.append_nil]

theorem Chess.fits_all {q s : List Char} (hq : ∀ c ∈ q, c ≠ '*' ∧ c ≠ '?' ∧ c ≠ '[') : Fits q s ↔ s = q := by
  have := fits_plain (p := q) (q := []) (s := s) hq
  rw [List.append_nil] at this
  rw [this]
  constructor
  · rintro ⟨t, rfl, ht⟩
    cases ht
    simp
  · rintro rfl
    exact ⟨[], by simp, .nil⟩

theorem Chess.hidden_append {p q r : List Char} (h : p ≠ []) : Chess.hidden (p ++ q) = Chess.hidden (p ++ r) := by
  cases p with
  | nil => exact absurd rfl h
  | cons a p =>
    simp only [List.cons_append]
    by_cases e : a = '.'
    · subst e
      rfl
    · have : ∀ s, Chess.hidden (a :: s) = false := by
        intro s
        unfold Chess.hidden
        split
        · rename_i h; exact absurd (List.cons.inj h).1 e
        · rfl
      rw [this, this]

/-- A set of characters in brackets, without special first character and without bracket inside. -/
theorem Chess.loaded_set {dig : Char → Bool} (hb : dig '[' = false ∧ dig ']' = false) {dir : List (List Char)} {p set q g : List Char}
    (hp : ∀ c ∈ p, dig c = false ∧ c ≠ '*' ∧ c ≠ '?' ∧ c ≠ '[') (hq : ∀ c ∈ q, dig c = false ∧ c ≠ '*' ∧ c ≠ '?' ∧ c ≠ '[')
    (h0 : p ≠ []) (hs0 : set ≠ []) (hs : ∀ c ∈ set, dig c = false ∧ c ≠ ']') (h1 : set.head? ≠ some '!') :
    Loaded dig dir (p ++ '[' :: (set ++ ']' :: q)) g ↔ g ∈ dir ∧ ∃ c, inSet set c = true ∧ g = p ++ c :: q := by
  have e : stars dig (p ++ '[' :: (set ++ ']' :: q)) = p ++ '[' :: (set ++ ']' :: q) := by
    refine stars_all fun c hc => ?_
    simp only [List.mem_append, List.mem_cons] at hc
    rcases hc with hc | rfl | hc | rfl | hc
    · exact (hp c hc).1
    · exact hb.1
    · exact (hs c hc).1
    · exact hb.2
    · exact (hq c hc).1
  have hsp : splitSet (set ++ ']' :: q) = some (false, set, q) := by
    cases set with
    | nil => exact absurd rfl hs0
    | cons a set =>
      have ha : a ≠ '!' := fun h => h1 (by simp [h])
      have ha2 := (hs a List.mem_cons_self).2
      have e1 : (a :: set ++ ']' :: q).takeWhile (· ≠ ']') = a :: set := by
        rw [List.takeWhile_append_of_pos (by intro c hc; simpa using (hs c hc).2)]
        simp
      have e2 : (a :: set ++ ']' :: q).dropWhile (· ≠ ']') = ']' :: q := by
        rw [List.dropWhile_append_of_pos (by intro c hc; simpa using (hs c hc).2)]
        simp
      unfold splitSet
      split
      rename_i neg q' hm
      split at hm
      · rename_i h; exact absurd (List.cons.inj h).1 ha
      cases hm
      split
      rename_i first q'' hm
      split at hm
      · rename_i h; exact absurd (List.cons.inj h).1 ha2
      cases hm
      rw [if_pos (by simp), e1, e2]
      rfl
  unfold Loaded
  rw [e, fits_plain fun c hc => (hp c hc).2]
  constructor
  · rintro ⟨hg, ⟨t, rfl, hf⟩, -⟩
    refine ⟨hg, ?_⟩
    cases hf with
    | set c h1 h2 h3 =>
      rw [hsp] at h1
      simp only [Option.some.injEq, Prod.mk.injEq] at h1
      obtain ⟨rfl, rfl, rfl⟩ := h1
      rw [(fits_all fun c hc => (hq c hc).2).1 h3]
      exact ⟨c, by simpa using h2, rfl⟩
    | bracket h1 => rw [hsp] at h1; cases h1
    | lit _ _ _ h3 => exact absurd rfl h3
  · rintro ⟨hg, c, hc, rfl⟩
    refine ⟨hg, ⟨c :: q, rfl, Fits.set c hsp (by simpa using hc) ((fits_all fun c hc => (hq c hc).2).2 rfl)⟩, fun h => ?_⟩
    rw [← h]
    exact hidden_append h0

/-- **C139 violated.**  A file with a range in brackets is chosen, as in `img[a-c].png`: instead of it, the files with one of the
characters of the range in its place are loaded. -/
theorem C139_range_violated (dig : Char → Bool) (hb : dig '[' = false ∧ dig ']' = false ∧ dig '-' = false) (dir : List (List Char))
    {p q g : List Char} {a b : Char} (hp : ∀ c ∈ p, dig c = false ∧ c ≠ '*' ∧ c ≠ '?' ∧ c ≠ '[')
    (hq : ∀ c ∈ q, dig c = false ∧ c ≠ '*' ∧ c ≠ '?' ∧ c ≠ '[') (h0 : p ≠ []) (ha : dig a = false ∧ a ≠ ']' ∧ a ≠ '!')
    (hbb : dig b = false ∧ b ≠ ']') :
    Loaded dig dir (p ++ '[' :: a :: '-' :: b :: ']' :: q) g ↔ g ∈ dir ∧ ∃ c, a ≤ c ∧ c ≤ b ∧ g = p ++ c :: q := by
  have := loaded_set (dir := dir) (g := g) ⟨hb.1, hb.2.1⟩ hp hq h0 (set := [a, '-', b]) (by simp)
    (by
      intro c hc
      simp only [List.mem_cons, List.not_mem_nil, or_false] at hc
      rcases hc with rfl | rfl | rfl
      · exact ⟨ha.1, ha.2.1⟩
      · exact ⟨hb.2.2, by decide⟩
      · exact hbb) (by simpa using ha.2.2)
  simpa [inSet, and_assoc] using this

/-- **C139 violated.**  The same for a single character in brackets. -/
theorem C139_letter_violated (dig : Char → Bool) (hb : dig '[' = false ∧ dig ']' = false) (dir : List (List Char))
    {p q g : List Char} {a : Char} (hp : ∀ c ∈ p, dig c = false ∧ c ≠ '*' ∧ c ≠ '?' ∧ c ≠ '[')
    (hq : ∀ c ∈ q, dig c = false ∧ c ≠ '*' ∧ c ≠ '?' ∧ c ≠ '[') (h0 : p ≠ []) (ha : dig a = false ∧ a ≠ ']' ∧ a ≠ '!') :
    Loaded dig dir (p ++ '[' :: a :: ']' :: q) g ↔ g ∈ dir ∧ g = p ++ a :: q := by
  have := loaded_set (dir := dir) (g := g) hb hp hq h0 (set := [a]) (by simp)
    (by
      intro c hc
      simp only [List.mem_cons, List.not_mem_nil, or_false] at hc
      rw [hc]
      exact ⟨ha.1, ha.2.1⟩) (by simpa using ha.2.2)
  simpa [inSet] using this

/-- The hypotheses can be met by letters. -/
example : ('a'.isDigit = false ∧ 'a' ≠ ']' ∧ 'a' ≠ '!') ∧ ('c'.isDigit = false ∧ 'c' ≠ ']') ∧ '['.isDigit = false ∧ ']'.isDigit = false ∧
    '-'.isDigit = false := by decide

/-- The files that are loaded for a name with a bracket, where `r` is what follows it. -/
theorem Chess.loaded_split {dig : Char → Bool} {dir : List (List Char)} {p r set q g : List Char} {neg : Bool}
    (hp : ∀ c ∈ p, dig c = false ∧ c ≠ '*' ∧ c ≠ '?' ∧ c ≠ '[') (hq : ∀ c ∈ q, c ≠ '*' ∧ c ≠ '?' ∧ c ≠ '[')
    (h0 : p ≠ []) (hr : ∀ c ∈ '[' :: r, dig c = false) (hsp : splitSet r = some (neg, set, q)) :
    Loaded dig dir (p ++ '[' :: r) g ↔ g ∈ dir ∧ ∃ c, inSet set c ≠ neg ∧ g = p ++ c :: q := by
  have e : stars dig (p ++ '[' :: r) = p ++ '[' :: r := by
    refine stars_all fun c hc => ?_
    rcases List.mem_append.1 hc with hc | hc
    · exact (hp c hc).1
    · exact hr c hc
  unfold Loaded
  rw [e, fits_plain fun c hc => (hp c hc).2]
  constructor
  · rintro ⟨hg, ⟨t, rfl, hf⟩, -⟩
    refine ⟨hg, ?_⟩
    cases hf with
    | set c h1 h2 h3 =>
      rw [hsp] at h1
      simp only [Option.some.injEq, Prod.mk.injEq] at h1
      obtain ⟨rfl, rfl, rfl⟩ := h1
      rw [(fits_all hq).1 h3]
      exact ⟨c, by simpa using h2, rfl⟩
    | bracket h1 => rw [hsp] at h1; cases h1
    | lit _ _ _ h3 => exact absurd rfl h3
  · rintro ⟨hg, c, hc, rfl⟩
    refine ⟨hg, ⟨c :: q, rfl, Fits.set c hsp (by simpa using hc) ((fits_all hq).2 rfl)⟩, fun h => ?_⟩
    rw [← h]
    exact hidden_append h0

/-- **C139 violated.**  A file with an exclamation mark and a character in brackets is chosen, as in `img[!a].png`: instead of it, the
files with any other character in this place are loaded. -/
theorem C139_other_violated (dig : Char → Bool) (hb : dig '[' = false ∧ dig ']' = false ∧ dig '!' = false) (dir : List (List Char))
    {p q g : List Char} {a : Char} (hp : ∀ c ∈ p, dig c = false ∧ c ≠ '*' ∧ c ≠ '?' ∧ c ≠ '[')
    (hq : ∀ c ∈ q, dig c = false ∧ c ≠ '*' ∧ c ≠ '?' ∧ c ≠ '[') (h0 : p ≠ []) (ha : dig a = false ∧ a ≠ ']') :
    Loaded dig dir (p ++ '[' :: '!' :: a :: ']' :: q) g ↔ g ∈ dir ∧ ∃ c, c ≠ a ∧ g = p ++ c :: q := by
  have hsp : splitSet ('!' :: a :: ']' :: q) = some (true, [a], q) := by
    unfold splitSet
    simp only
    split
    · rename_i h; exact absurd (List.cons.inj h).1 ha.2
    · simp [ha.2]
  have := loaded_split (dir := dir) (g := g) hp (fun c hc => (hq c hc).2) h0 (by
    intro c hc
    simp only [List.mem_cons] at hc
    rcases hc with rfl | rfl | rfl | rfl | hc
    exacts [hb.1, hb.2.2, ha.1, hb.2.1, (hq c hc).1]) hsp
  simpa [inSet, eq_comm] using this

/-- **C139 violated.**  A file with a closing bracket in brackets is chosen, as in `img[]].png`: the file with the closing bracket alone is
loaded instead. -/
theorem C139_closing_violated (dig : Char → Bool) (hb : dig '[' = false ∧ dig ']' = false) (dir : List (List Char))
    {p q g : List Char} (hp : ∀ c ∈ p, dig c = false ∧ c ≠ '*' ∧ c ≠ '?' ∧ c ≠ '[')
    (hq : ∀ c ∈ q, dig c = false ∧ c ≠ '*' ∧ c ≠ '?' ∧ c ≠ '[') (h0 : p ≠ []) :
    Loaded dig dir (p ++ '[' :: ']' :: ']' :: q) g ↔ g ∈ dir ∧ g = p ++ ']' :: q := by
  have hsp : splitSet (']' :: ']' :: q) = some (false, [']'], q) := by simp [splitSet]
  have := loaded_split (dir := dir) (g := g) hp (fun c hc => (hq c hc).2) h0 (by
    intro c hc
    simp only [List.mem_cons] at hc
    rcases hc with rfl | rfl | rfl | hc
    exacts [hb.1, hb.2, hb.2, (hq c hc).1]) hsp
  simpa [inSet] using this

/-- **C139.**  A file without number and with a bracket that is never closed is loaded, and no other. -/
theorem C139_unclosed_partial (dig : Char → Bool) (hb : dig '[' = false) (dir : List (List Char))
    {p q g : List Char} (hp : ∀ c ∈ p, dig c = false ∧ c ≠ '*' ∧ c ≠ '?' ∧ c ≠ '[')
    (hq : ∀ c ∈ q, dig c = false ∧ c ≠ '*' ∧ c ≠ '?' ∧ c ≠ '[' ∧ c ≠ ']') :
    Loaded dig dir (p ++ '[' :: q) g ↔ g ∈ dir ∧ g = p ++ '[' :: q := by
  have e : stars dig (p ++ '[' :: q) = p ++ '[' :: q := by
    refine stars_all fun c hc => ?_
    rcases List.mem_append.1 hc with hc | hc
    · exact (hp c hc).1
    · rcases List.mem_cons.1 hc with rfl | hc
      exacts [hb, (hq c hc).1]
  have hsp : splitSet q = none := by
    have hn : ∀ l : List Char, (∀ c ∈ l, c ∈ q) → ']' ∉ l := fun l hl h => (hq _ (hl _ h)).2.2.2.2 rfl
    unfold splitSet
    split
    rename_i neg q' hm
    have hq' : ∀ c ∈ q', c ∈ q := by
      split at hm
      · cases hm; exact fun c hc => List.mem_cons_of_mem _ hc
      · cases hm; exact fun c hc => hc
    split
    rename_i first q'' hm2
    have hq2 : ∀ c ∈ q'', c ∈ q := by
      split at hm2
      · cases hm2; exact fun c hc => hq' c (List.mem_cons_of_mem _ hc)
      · cases hm2; exact hq'
    rw [if_neg (hn _ hq2)]
  have hq3 : ∀ c ∈ q, c ≠ '*' ∧ c ≠ '?' ∧ c ≠ '[' := fun c hc => ⟨(hq c hc).2.1, (hq c hc).2.2.1, (hq c hc).2.2.2.1⟩
  unfold Loaded
  rw [e, fits_plain fun c hc => (hp c hc).2]
  constructor
  · rintro ⟨hg, ⟨t, rfl, hf⟩, -⟩
    refine ⟨hg, ?_⟩
    cases hf with
    | set c h1 h2 h3 => rw [hsp] at h1; cases h1
    | bracket h1 h2 => rw [(fits_all hq3).1 h2]
    | lit _ _ _ h3 => exact absurd rfl h3
  · rintro ⟨hg, rfl⟩
    exact ⟨hg, ⟨'[' :: q, rfl, Fits.bracket hsp ((fits_all hq3).2 rfl)⟩, fun h => h⟩

/-- The hypotheses can be met: `a[!b]c`, `a[]]c`, `a[c`. -/
example : ('a'.isDigit = false ∧ 'a' ≠ '*' ∧ 'a' ≠ '?' ∧ 'a' ≠ '[' ∧ 'a' ≠ ']') ∧ '['.isDigit = false ∧ ']'.isDigit = false ∧
    '!'.isDigit = false := by decide

/-- The name of a file in a folder, without its ending. -/
theorem Chess.stem_path {d n e : List Char} (hn : '/' ∉ n) (he : '/' ∉ e) (he2 : '.' ∉ e) (h0 : ∃ c ∈ n, c ≠ '.') :
    stem (d ++ '/' :: (n ++ '.' :: e)) = n ∧ stem (n ++ '.' :: e) = n := by
  have ht : ∀ l : List Char, '/' ∉ l → Chess.tail (d ++ '/' :: l) = l ∧ Chess.tail l = l := by
    intro l hl
    have hl' : ∀ c ∈ l.reverse, decide (c ≠ '/') = true := by
      intro c hc
      simp only [decide_eq_true_eq]
      rintro rfl
      exact hl (List.mem_reverse.1 hc)
    constructor
    · unfold Chess.tail
      rw [List.reverse_append, List.reverse_cons, List.append_assoc, List.takeWhile_append_of_pos hl']
      simp
    · unfold Chess.tail
      rw [List.takeWhile_eq_self_iff.2 hl', List.reverse_reverse]
  have hr : root (n ++ '.' :: e) = n := by
    have he' : ∀ c ∈ e.reverse, decide (c ≠ '.') = true := by
      intro c hc
      simp only [decide_eq_true_eq]
      rintro rfl
      exact he2 (List.mem_reverse.1 hc)
    have e1 : ((n ++ '.' :: e).reverse.dropWhile (· ≠ '.')).tail.reverse = n := by
      rw [List.reverse_append, List.reverse_cons, List.append_assoc, List.dropWhile_append_of_pos he']
      simp
    unfold root
    rw [if_pos (by simp)]
    simp only [e1]
    rw [if_neg]
    obtain ⟨c, hc, hc'⟩ := h0
    intro h
    exact hc' (by simpa using List.all_eq_true.1 h c hc)
  have hs : '/' ∉ n ++ '.' :: e := by
    simp only [List.mem_append, List.mem_cons, not_or]
    exact ⟨hn, by decide, he⟩
  unfold stem
  rw [(ht _ hs).1, (ht _ hs).2]
  exact ⟨hr, hr⟩

/-- **C138.**  The corners found in an image are stored in the output directory under the name of the file, without its folder and its
ending; nothing else is stored or changed. -/
theorem C138_stored_partial {D : Type} (files : List Char → Option (Pic D)) (rows : D → ℕ) (k : ℕ) (c : Cache D) {dir : List Char}
    (hdir : dir ≠ []) {d n e : List Char} (hn : '/' ∉ n) (he : '/' ∉ e) (he2 : '.' ∉ e) (h0 : ∃ c ∈ n, c ≠ '.')
    (size : Option (ℕ × ℕ)) {x : D} (hl : look (files (d ++ '/' :: (n ++ '.' :: e))) size = some x) (hc : c (dir, n) = none) :
    (processImage files rows k c (d ++ '/' :: (n ++ '.' :: e)) size (some dir)).2 (dir, n) = some x ∧
    ∀ j, j ≠ (dir, n) → (processImage files rows k c (d ++ '/' :: (n ++ '.' :: e)) size (some dir)).2 j = c j := by
  have hs := (stem_path (d := d) hn he he2 h0).1
  constructor
  · simp [processImage, hs, hc, hl, hdir]
  · intro j hj
    simp [processImage, hs, hc, hl, hdir, Function.update, hj]

/-- The hypotheses can be met. -/
example : '/' ∉ "img1".toList ∧ '/' ∉ "jpg".toList ∧ '.' ∉ "jpg".toList ∧ ∃ c ∈ "img1".toList, c ≠ '.' := by decide
