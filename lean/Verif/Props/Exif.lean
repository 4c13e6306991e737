import Verif.Spec.Exif
import Mathlib.Tactic.Linarith
import Mathlib.Tactic.NormNum
import Mathlib.Tactic.FieldSimp
import Mathlib.Tactic.Ring
import Mathlib.Tactic.SplitIfs

/-! # Properties of the sensor database and of the exif parameters (C68, C69, C102, C103) -/

open Py Exif

/-! ### C68 -/

theorem Exif.lookups_disk (float : Text → Option ℝ) (t : Text) (l : List (Net × Text)) :
    lookups float l (some t) = l.map fun p => search float p.2 (readlines t) := by
  induction l with
  | nil => rfl
  | cons p l ih =>
    obtain ⟨n, m⟩ := p
    show (getSensor float n m (some t)).2 :: lookups float l (getSensor float n m (some t)).1 = _
    have h1 : getSensor float n m (some t) = (some t, search float m (readlines t)) := rfl
    rw [h1, ih]
    rfl

/-- **C68 (partial)** If the first download succeeds, or the file exists already, all lookups search this database,
whatever the network does then.  Missing: recovery from a failed download (see `C68_violated`). -/
theorem C68_lookups_partial (float : Text → Option ℝ) (d : Disk) (t m : Text) (n : Net)
    (h : d = some t ∨ d = none ∧ n = .text t) (l : List (Net × Text)) :
    lookups float ((n, m) :: l) d = ((n, m) :: l).map fun p => search float p.2 (readlines t) := by
  rcases h with rfl | ⟨rfl, rfl⟩
  · exact lookups_disk float t _
  · show search float m (readlines t) :: lookups float l (some t) = _
    rw [lookups_disk]
    rfl

/-- **C68 violated** After a download that raised, no later lookup finds any sensor, whatever the model and however
well the network works. -/
theorem C68_violated (float : Text → Option ℝ) (m : Text) (l : List (Net × Text)) :
    lookups float ((.fails, m) :: l) none = .error .network :: l.map fun _ => .ok none := by
  show Except.error Err.network :: lookups float l (some []) = _
  rw [lookups_disk]
  rfl

/-- **C68 violated** After a download that was cut off, all later lookups see the rows received until then only. -/
theorem C68_violated_cut (float : Text → Option ℝ) (t m : Text) (l : List (Net × Text)) :
    lookups float ((.cut t, m) :: l) none = .error .network :: l.map fun p => search float p.2 (readlines t) := by
  show Except.error Err.network :: lookups float l (some t) = _
  rw [lookups_disk]

/-! ### C69 -/

/-- **C69 violated** Without the database the function raises UnboundLocalError for all exif data with a focal
length. -/
theorem C69_violated (float : Text → Option ℝ) (net : Net) (x : Data) (d : Disk) (r : Ratio)
    (h : x.focalLength = some r) (hr : r.den ≠ 0) : parameters float net x false d = (d, .error .unboundLocal) := by
  simp [parameters, h, Exif.get, Ratio.div, hr, bind, Except.bind]

/-- **C69** Without the database the function never returns. -/
theorem C69_violated_always (float : Text → Option ℝ) (net : Net) (x : Data) (d : Disk) :
    ∃ e, parameters float net x false d = (d, .error e) := by
  unfold parameters
  cases (do let r ← Exif.get x.focalLength; r.div : Except Err ℝ) with
  | error e => exact ⟨e, rfl⟩
  | ok f => exact ⟨.unboundLocal, rfl⟩

/-- **C69 (partial)** With the database, for a camera that is not listed, and a resolution in pixels per inch, the
sensor size is the one of the exif data.  Missing: the call without database. -/
theorem C69_from_exif_partial (float : Text → Option ℝ) (net : Net) (x : Data) (d : Disk) (f rx ry : Ratio) (m : Text)
    (w h : ℤ) (hf : x.focalLength = some f) (hm : x.model = some m) (hw : x.width = some w) (hh : x.height = some h)
    (hx : x.xRes = some rx) (hy : x.yRes = some ry) (f0 : f.den ≠ 0) (x0 : rx.den ≠ 0) (y0 : ry.den ≠ 0)
    (x1 : rx.num ≠ 0) (y1 : ry.num ≠ 0) (hs : (getSensor float net m d).2 = .ok none) :
    ∃ d' R, parameters float net x true d = (d', .ok R) ∧ R.focal * f.den = f.num ∧ R.image = (w, h) ∧
      TrueExtent w rx 2 R.sensor.1 ∧ TrueExtent h ry 2 R.sensor.2 := by
  have ext : ∀ (n : ℤ) (r : Ratio), r.den ≠ 0 → r.num ≠ 0 → extent n r = .ok (n / (r.num / r.den : ℝ) * 25.4) := by
    intro n r h0 h1
    have h0' : (r.den : ℝ) ≠ 0 := by exact_mod_cast h0
    have h1' : (r.num : ℝ) ≠ 0 := by exact_mod_cast h1
    simp [extent, Ratio.div, h0, bind, Except.bind, h1, pure, Except.pure]
  refine ⟨(getSensor float net m d).1, ⟨f.num / f.den, (w / (rx.num / rx.den : ℝ) * 25.4, h / (ry.num / ry.den : ℝ) * 25.4),
    (w, h)⟩, ?_, ?_, rfl, ⟨fun _ => ?_, by simp⟩, ⟨fun _ => ?_, by simp⟩⟩
  · unfold parameters
    simp only [hf, Exif.get, bind, Except.bind, Ratio.div, f0, if_false, hm, if_true]
    generalize getSensor float net m d = g at *
    obtain ⟨g1, g2⟩ := g
    simp only at hs
    subst hs
    simp [sizeFromExif, hw, hh, hx, hy, Exif.get, bind, Except.bind, ext _ _ x0 x1, ext _ _ y0 y1, pure, Except.pure]
  · have : (f.den : ℝ) ≠ 0 := by exact_mod_cast f0
    simp only
    rw [div_mul_cancel₀ _ this]
  · have a : (rx.den : ℝ) ≠ 0 := by exact_mod_cast x0
    have b : (rx.num : ℝ) ≠ 0 := by exact_mod_cast x1
    simp only
    field_simp
  · have a : (ry.den : ℝ) ≠ 0 := by exact_mod_cast y0
    have b : (ry.num : ℝ) ≠ 0 := by exact_mod_cast y1
    simp only
    field_simp

/-! ### C103: the unit of the resolution -/

/-- **C103 violated** The unit of the resolution is not read: for a resolution in pixels per cm the width is too
large by the factor 2.54, for every sensor. -/
theorem C103_violated (n : ℤ) (hn : 0 < n) (r : Ratio) (h0 : 0 < r.num) (h1 : 0 < r.den) :
    ∃ a b, extent n r = .ok a ∧ TrueExtent n r 3 b ∧ a = 2.54 * b ∧ b < a := by
  have a : (0 : ℝ) < r.den := by exact_mod_cast h1
  have b : (0 : ℝ) < r.num := by exact_mod_cast h0
  have c : (0 : ℝ) < n := by exact_mod_cast hn
  refine ⟨n / (r.num / r.den : ℝ) * 25.4, n / (r.num / r.den : ℝ) * 10, ?_, ⟨by simp, fun _ => ?_⟩, by ring, ?_⟩
  · simp [extent, Ratio.div, h1.ne', bind, Except.bind, h0.ne', pure, Except.pure]
  · field_simp
  · have : (0 : ℝ) < n / (r.num / r.den : ℝ) := by positivity
    linarith

/-- **C103 (partial)** For a resolution in pixels per inch the size is right, and the result is the same for every
unit. -/
theorem C103_inch_partial (x : Data) (u : Option ℕ) :
    sizeFromExif { x with unit := u } = sizeFromExif x ∧
    ∀ (n : ℤ) (r : Ratio) (a : ℝ), extent n r = .ok a → TrueExtent n r 2 a := by
  refine ⟨rfl, fun n r a h => ⟨fun _ => ?_, by simp⟩⟩
  unfold extent Ratio.div at h
  simp only [bind, Except.bind] at h
  split_ifs at h with h0
  simp only at h
  split_ifs at h with h1
  simp only [pure, Except.pure, Except.ok.injEq] at h
  subst h
  rw [mul_right_comm, div_mul_cancel₀ _ h1]

/-! ### C102: the lookup -/

theorem Exif.split_ne (c : Char) (s : Text) : split c s ≠ [] := by
  induction s with
  | nil => simp [split]
  | cons x s ih =>
    unfold split
    split
    · simp
    · split_ifs <;> simp

theorem Exif.split_plain (c : Char) (s t : Text) (h : c ∉ s) : split c (s ++ c :: t) = s :: split c t := by
  induction s with
  | nil =>
    simp only [List.nil_append, split]
    cases hs : split c t with
    | nil => exact absurd hs (split_ne c t)
    | cons w ws => simp
  | cons x s ih =>
    simp only [List.mem_cons, not_or] at h
    simp only [List.cons_append, split, ih h.2]
    rw [if_neg (fun e => h.1 e.symm)]

theorem Exif.split_last (c : Char) (s : Text) (h : c ∉ s) : split c s = [s] := by
  induction s with
  | nil => rfl
  | cons x s ih =>
    simp only [List.mem_cons, not_or] at h
    simp only [split, ih h.2]
    rw [if_neg (fun e => h.1 e.symm)]

theorem Exif.readlines_line (l t : Text) (h : '\n' ∉ l) : readlines (l ++ '\n' :: t) = (l ++ ['\n']) :: readlines t := by
  induction l with
  | nil => simp [readlines]
  | cons x l ih =>
    simp only [List.mem_cons, not_or] at h
    simp only [List.cons_append, readlines, ih h.2]
    rw [if_neg (fun e => h.1 e.symm)]

/-- The line of a row. -/
def Exif.Entry.line (e : Entry) : Text := List.intercalate [';'] e.columns ++ ['\n']

theorem Exif.intercalate_mem {l : List Text} {c : Char} (h : c ∈ List.intercalate [';'] l) :
    c = ';' ∨ ∃ t ∈ l, c ∈ t := by
  induction l with
  | nil => simp [List.intercalate] at h
  | cons a l ih =>
    cases l with
    | nil => simp [List.intercalate] at h; exact Or.inr ⟨a, by simp, h⟩
    | cons b l =>
      rw [List.intercalate_cons_cons] at h
      simp only [List.mem_append, List.mem_singleton] at h
      rcases h with (h | h) | h
      · exact Or.inr ⟨a, by simp, h⟩
      · exact Or.inl h
      · rcases ih h with h | ⟨t, ht, h⟩
        · exact Or.inl h
        · exact Or.inr ⟨t, List.mem_cons_of_mem _ ht, h⟩

theorem Exif.readlines_csv (rows : List Entry) (h : ∀ e ∈ rows, ∀ t ∈ e.columns, Plain t) :
    readlines (csv rows) = rows.map Entry.line := by
  induction rows with
  | nil => rfl
  | cons e rows ih =>
    have h1 : '\n' ∉ List.intercalate [';'] e.columns := by
      intro hc
      rcases intercalate_mem hc with h' | ⟨t, ht, h'⟩
      · simp at h'
      · exact (h e List.mem_cons_self t ht _ h').2 rfl
    have h2 : csv (e :: rows) = List.intercalate [';'] e.columns ++ '\n' :: csv rows := by
      simp [csv]
    rw [h2, readlines_line _ _ h1, ih fun e' he' => h e' (List.mem_cons_of_mem _ he')]
    rfl

/-- Two texts without separator that are prefixes up to the separator are equal. -/
theorem Exif.prefix_sep (a b s t : Text) (ha : ';' ∉ a) (hb : ';' ∉ b) :
    (a ++ ';' :: s).isPrefixOf (b ++ ';' :: t) = (decide (a = b) && s.isPrefixOf t) := by
  induction a generalizing b with
  | nil =>
    cases b with
    | nil => simp
    | cons y b =>
      simp only [List.mem_cons, not_or] at hb
      simp [List.isPrefixOf, hb.1]
  | cons x a ih =>
    simp only [List.mem_cons, not_or] at ha
    cases b with
    | nil =>
      have : (x == ';') = false := by simpa using fun e => ha.1 e.symm
      simp [List.isPrefixOf, this]
    | cons y b =>
      simp only [List.mem_cons, not_or] at hb
      simp only [List.cons_append, List.isPrefixOf, ih b ha.2 hb.2, List.cons.injEq]
      by_cases hxy : x = y <;> simp [hxy]

theorem Exif.line_eq (e : Entry) : ∃ rest, e.line = e.make ++ ';' :: (e.model ++ ';' :: (e.third ++ ';' ::
    (e.width ++ ';' :: (e.height ++ ';' :: rest)))) := by
  refine ⟨List.intercalate [';'] (e.fifth :: e.more) ++ ['\n'], ?_⟩
  simp [Entry.line, Entry.columns, List.intercalate_cons_cons]

theorem Exif.plain_sep {e : Entry} (h : ∀ t ∈ e.columns, Plain t) :
    ';' ∉ e.make ∧ ';' ∉ e.model ∧ ';' ∉ e.third ∧ ';' ∉ e.width ∧ ';' ∉ e.height := by
  refine ⟨?_, ?_, ?_, ?_, ?_⟩ <;> intro hc <;>
    [exact (h e.make (by simp [Entry.columns]) _ hc).1 rfl; exact (h e.model (by simp [Entry.columns]) _ hc).1 rfl;
     exact (h e.third (by simp [Entry.columns]) _ hc).1 rfl; exact (h e.width (by simp [Entry.columns]) _ hc).1 rfl;
     exact (h e.height (by simp [Entry.columns]) _ hc).1 rfl]

theorem Exif.replaceFirst_space (a b : Text) (h : ' ' ∉ a) : replaceFirst ' ' ';' (a ++ ' ' :: b) = a ++ ';' :: b := by
  induction a with
  | nil => simp [replaceFirst]
  | cons x a ih =>
    simp only [List.mem_cons, not_or] at h
    simp only [List.cons_append, replaceFirst, ih h.2]
    rw [if_neg (fun e => h.1 e.symm)]

theorem Exif.replaceFirst_none (a : Text) (h : ' ' ∉ a) : replaceFirst ' ' ';' a = a := by
  induction a with
  | nil => rfl
  | cons x a ih =>
    simp only [List.mem_cons, not_or] at h
    simp only [replaceFirst, ih h.2]
    rw [if_neg (fun e => h.1 e.symm)]

theorem Exif.size_line (float : Text → Option ℝ) (e : Entry) (h : ∀ t ∈ e.columns, Plain t) (w k : ℝ)
    (hw : float e.width = some w) (hk : float e.height = some k) : size float e.line = .ok (w, k) := by
  obtain ⟨rest, he⟩ := line_eq e
  obtain ⟨h1, h2, h3, h4, h5⟩ := plain_sep h
  unfold size
  simp only [he, split_plain _ _ _ h1, split_plain _ _ _ h2, split_plain _ _ _ h3, split_plain _ _ _ h4,
    split_plain _ _ _ h5, List.getElem?_cons_succ, List.getElem?_cons_zero, hw, hk]

theorem Exif.find_map_line (rows : List Entry) (name : Text) (p : Entry → Bool)
    (hp : ∀ e ∈ rows, startsWith e.line name = p e) :
    (rows.map Entry.line).find? (fun l => startsWith l name) = (rows.find? p).map Entry.line := by
  induction rows with
  | nil => rfl
  | cons e rows ih =>
    simp only [List.map_cons, List.find?_cons, hp e List.mem_cons_self]
    cases p e with
    | true => rfl
    | false => exact ih fun e' he' => hp e' (List.mem_cons_of_mem _ he')

/-- **C102 (partial)** For a maker whose name contains no space, the exif model text `maker model` finds the first
row of the database with this maker and model, and its size is returned; if there is no such row the result is
None.  Missing: makers with a space in the name (see `C102_violated`). -/
theorem C102_lookup_partial (float : Text → Option ℝ) (rows : List Entry) (h : ∀ e ∈ rows, ∀ t ∈ e.columns, Plain t)
    (hfloat : ∀ e ∈ rows, (float e.width).isSome ∧ (float e.height).isSome) (make model : Text) (hs : ' ' ∉ make)
    (hm : Plain make) (hm' : Plain model) (net : Net) :
    (getSensor float net (make ++ ' ' :: model) (some (csv rows))).2 =
      match rows.find? fun e => decide (e.make = make ∧ e.model = model) with
      | none => .ok none
      | some e => .ok (some ((float e.width).getD 0, (float e.height).getD 0)) := by
  show search float (make ++ ' ' :: model) (readlines (csv rows)) = _
  rw [readlines_csv rows h]
  unfold search
  have n1 : ';' ∉ make := fun hc => (hm _ hc).1 rfl
  have n2 : ';' ∉ model := fun hc => (hm' _ hc).1 rfl
  have key := find_map_line rows (replaceFirst ' ' ';' (make ++ ' ' :: model) ++ [';'])
    (fun e => decide (e.make = make ∧ e.model = model)) (by
      intro e he
      obtain ⟨rest, hl⟩ := line_eq e
      obtain ⟨h1, h2, -⟩ := plain_sep (h e he)
      rw [replaceFirst_space _ _ hs, hl]
      unfold startsWith
      rw [List.append_assoc, List.cons_append, prefix_sep _ _ _ _ n1 h1, prefix_sep _ _ _ _ n2 h2]
      simp [List.isPrefixOf, eq_comm])
  simp only [key]
  cases hf : rows.find? fun e => decide (e.make = make ∧ e.model = model) with
  | none => rfl
  | some e =>
    have hmem := List.mem_of_find?_eq_some hf
    obtain ⟨w, hw⟩ := Option.isSome_iff_exists.1 (hfloat e hmem).1
    obtain ⟨k, hk⟩ := Option.isSome_iff_exists.1 (hfloat e hmem).2
    simp only [Option.map_some, size_line float e (h e hmem) w k hw hk, hw, hk, Option.getD_some]
    rfl

/-- **C102 violated** A maker with a space in its name is never found, although the database lists it. -/
theorem C102_violated (float : Text → Option ℝ) (a b model : Text) (ha : ' ' ∉ a) (rows : List Entry)
    (h : ∀ e ∈ rows, ∀ t ∈ e.columns, Plain t) (hrows : ∀ e ∈ rows, e.make = a ++ ' ' :: b ∧ e.model = model)
    (hm : Plain a) (net : Net) :
    (getSensor float net ((a ++ ' ' :: b) ++ ' ' :: model) (some (csv rows))).2 = .ok none := by
  show search float ((a ++ ' ' :: b) ++ ' ' :: model) (readlines (csv rows)) = _
  rw [readlines_csv rows h]
  unfold search
  have n1 : ';' ∉ a := fun hc => (hm _ hc).1 rfl
  have key := find_map_line rows (replaceFirst ' ' ';' ((a ++ ' ' :: b) ++ ' ' :: model) ++ [';']) (fun _ => false) (by
      intro e he
      obtain ⟨rest, hl⟩ := line_eq e
      obtain ⟨h1, h2, -⟩ := plain_sep (h e he)
      rw [List.append_assoc, List.cons_append, replaceFirst_space _ _ ha, hl]
      unfold startsWith
      rw [List.append_assoc, List.cons_append, prefix_sep _ _ _ _ n1 h1, (hrows e he).1]
      simp)
  simp only [key]
  have : rows.find? (fun _ => false) = none := by simp
  rw [this]
  rfl

/-- **C102 violated** An exif model text without space finds the first row of the maker of this name, whatever its
model. -/
theorem C102_violated_maker (float : Text → Option ℝ) (e : Entry) (rows : List Entry)
    (h : ∀ e' ∈ e :: rows, ∀ t ∈ e'.columns, Plain t) (hs : ' ' ∉ e.make) (w k : ℝ)
    (hw : float e.width = some w) (hk : float e.height = some k) (net : Net) :
    (getSensor float net e.make (some (csv (e :: rows)))).2 = .ok (some (w, k)) := by
  show search float e.make (readlines (csv (e :: rows))) = _
  rw [readlines_csv _ h]
  unfold search
  obtain ⟨rest, hl⟩ := line_eq e
  obtain ⟨h1, -⟩ := plain_sep (h e List.mem_cons_self)
  have : startsWith e.line (replaceFirst ' ' ';' e.make ++ [';']) = true := by
    rw [replaceFirst_none _ hs, hl]
    unfold startsWith
    rw [prefix_sep _ _ _ _ h1 h1]
    simp [List.isPrefixOf]
  simp only [List.map_cons, List.find?_cons, this, size_line float e (h e List.mem_cons_self) w k hw hk]
  rfl

/-- The lookup if the first line of the file belongs to the camera. -/
theorem Exif.first_line (float : Text → Option ℝ) (make model tail rest : Text) (hs : ' ' ∉ make) (hm : Plain make) (hm' : Plain model)
    (ht : '\n' ∉ tail) (net : Net) :
    (getSensor float net (make ++ ' ' :: model) (some ((make ++ ';' :: (model ++ ';' :: tail)) ++ '\n' :: rest))).2 =
      (size float (make ++ ';' :: (model ++ ';' :: (tail ++ ['\n'])))).map some := by
  show search float (make ++ ' ' :: model) (readlines ((make ++ ';' :: (model ++ ';' :: tail)) ++ '\n' :: rest)) = _
  have n1 : ';' ∉ make := fun hc => (hm _ hc).1 rfl
  have n2 : ';' ∉ model := fun hc => (hm' _ hc).1 rfl
  have l1 : '\n' ∉ make := fun hc => (hm _ hc).2 rfl
  have l2 : '\n' ∉ model := fun hc => (hm' _ hc).2 rfl
  rw [readlines_line _ _ (by simp [l1, l2, ht])]
  unfold search
  have : startsWith (make ++ ';' :: (model ++ ';' :: tail) ++ ['\n']) (replaceFirst ' ' ';' (make ++ ' ' :: model) ++ [';']) = true := by
    rw [replaceFirst_space _ _ hs]
    unfold startsWith
    rw [List.append_assoc, List.append_assoc, List.cons_append, List.cons_append, List.append_assoc, List.cons_append,
      prefix_sep _ _ _ _ n1 n1, prefix_sep _ _ _ _ n2 n2]
    simp [List.isPrefixOf]
  simp only [List.find?_cons, this]
  simp

/-- **C102** A row of the camera with too few columns raises an IndexError, a size that is no number a ValueError. -/
theorem C102_broken_row (float : Text → Option ℝ) (make model third width height rest : Text) (hs : ' ' ∉ make)
    (hm : Plain make) (hm' : Plain model) (h3 : Plain third) (h4 : Plain width) (h5 : Plain height) (net : Net) :
    (getSensor float net (make ++ ' ' :: model) (some ((make ++ ';' :: (model ++ ';' :: third)) ++ '\n' :: rest))).2 = .error .index ∧
    ((float (width ++ ['\n'])).isSome → (getSensor float net (make ++ ' ' :: model)
      (some ((make ++ ';' :: (model ++ ';' :: (third ++ ';' :: width))) ++ '\n' :: rest))).2 = .error .index) ∧
    (float width = none → (getSensor float net (make ++ ' ' :: model)
      (some ((make ++ ';' :: (model ++ ';' :: (third ++ ';' :: (width ++ ';' :: height)))) ++ '\n' :: rest))).2 = .error .value) ∧
    ((float width).isSome → float (height ++ ['\n']) = none → (getSensor float net (make ++ ' ' :: model)
      (some ((make ++ ';' :: (model ++ ';' :: (third ++ ';' :: (width ++ ';' :: height)))) ++ '\n' :: rest))).2 = .error .value) := by
  have sep : ∀ {t : Text}, Plain t → ';' ∉ t := fun h hc => (h _ hc).1 rfl
  have nl : ∀ {t : Text}, Plain t → '\n' ∉ t := fun h hc => (h _ hc).2 rfl
  have sepn : ∀ {t : Text}, Plain t → ';' ∉ t ++ ['\n'] := by
    intro t h hc
    simp only [List.mem_append, List.mem_singleton] at hc
    rcases hc with hc | hc
    · exact sep h hc
    · exact absurd hc (by decide)
  refine ⟨?_, fun hw => ?_, fun hw => ?_, fun hw hk => ?_⟩
  · rw [first_line float make model _ rest hs hm hm' (nl h3) net]
    unfold size
    simp only [split_plain _ _ _ (sep hm), split_plain _ _ _ (sep hm'), split_last _ _ (sepn h3)]
    rfl
  · rw [first_line float make model _ rest hs hm hm' (by simp [nl h3, nl h4]) net]
    obtain ⟨w, hw⟩ := Option.isSome_iff_exists.1 hw
    unfold size
    simp only [List.append_assoc, List.cons_append, split_plain _ _ _ (sep hm), split_plain _ _ _ (sep hm'), split_plain _ _ _ (sep h3),
      split_last _ _ (sepn h4), List.getElem?_cons_succ, List.getElem?_cons_zero, hw]
    rfl
  · rw [first_line float make model _ rest hs hm hm' (by simp [nl h3, nl h4, nl h5]) net]
    unfold size
    simp only [List.append_assoc, List.cons_append, split_plain _ _ _ (sep hm), split_plain _ _ _ (sep hm'), split_plain _ _ _ (sep h3),
      split_plain _ _ _ (sep h4), split_last _ _ (sepn h5), List.getElem?_cons_succ, List.getElem?_cons_zero, hw]
    rfl
  · rw [first_line float make model _ rest hs hm hm' (by simp [nl h3, nl h4, nl h5]) net]
    obtain ⟨w, hw⟩ := Option.isSome_iff_exists.1 hw
    unfold size
    simp only [List.append_assoc, List.cons_append, split_plain _ _ _ (sep hm), split_plain _ _ _ (sep hm'), split_plain _ _ _ (sep h3),
      split_plain _ _ _ (sep h4), split_last _ _ (sepn h5), List.getElem?_cons_succ, List.getElem?_cons_zero, hw, hk]
    rfl

example (net : Net) := C102_broken_row (fun t => if t = [] then none else some 1) ['a'] ['c'] [] [] ['1'] [] (by simp)
  (by simp [Plain]) (by simp [Plain]) (by simp [Plain]) (by simp [Plain]) (by simp [Plain]) net

/-! ### the hypotheses can be met -/

/-- A row of the database. -/
def Exif.exampleEntry : Entry := ⟨"Canon".toList, "EOS 50D".toList, [], "22.3".toList, "14.9".toList, [], []⟩

theorem Exif.exampleEntry_plain : ∀ e ∈ [exampleEntry], ∀ t ∈ e.columns, Plain t := by
  simp only [List.mem_singleton, forall_eq]
  intro t ht c hc
  simp only [exampleEntry, Entry.columns, List.mem_cons, List.not_mem_nil, or_false] at ht
  rcases ht with rfl | rfl | rfl | rfl | rfl | rfl <;> simp at hc <;>
    first | exact hc.elim | (rcases hc with rfl | rfl | rfl | rfl | rfl | rfl | rfl <;> simp)

example (float : Text → Option ℝ) (t m : Text) (l : List (Net × Text)) := C68_lookups_partial float none t m (.text t)
  (Or.inr ⟨rfl, rfl⟩) l

example (net : Net) := C69_violated (fun _ => none) net ⟨some ⟨400, 1⟩, none, none, none, none, none, none⟩ none ⟨400, 1⟩
  rfl (by norm_num)

example (net : Net) := C69_from_exif_partial (fun _ => none) net
  ⟨some ⟨400, 1⟩, some [], some 4752, some 3168, some ⟨4752000, 894⟩, some ⟨3168000, 597⟩, some 2⟩ (some []) ⟨400, 1⟩
  ⟨4752000, 894⟩ ⟨3168000, 597⟩ [] 4752 3168 rfl rfl rfl rfl rfl rfl (by norm_num) (by norm_num) (by norm_num)
  (by norm_num) (by norm_num) rfl

example := C103_violated 4752 (by norm_num) ⟨4752000, 894⟩ (by norm_num) (by norm_num)

example (net : Net) := C102_lookup_partial (fun _ => some 1) [exampleEntry] exampleEntry_plain (by simp) "Canon".toList
  "EOS 50D".toList (by simp) (exampleEntry_plain exampleEntry (by simp) _ (by simp [exampleEntry, Entry.columns]))
  (exampleEntry_plain exampleEntry (by simp) _ (by simp [exampleEntry, Entry.columns])) net

example (net : Net) := C102_violated_maker (fun _ => some 1) exampleEntry [] exampleEntry_plain (by simp [exampleEntry]) 1 1
  rfl rfl net

example (net : Net) := C102_violated (fun _ => some 1) ['a'] ['b'] ['c'] (by simp)
  [⟨['a', ' ', 'b'], ['c'], [], [], [], [], []⟩] (by simp [Entry.columns, Plain]) (by simp) (by simp [Plain]) net
