import Verif.Model.Print
import Verif.Spec.Print
import Verif.Props.Attributes
import Verif.Proofs.Group
import Verif.Props.GpsFormat

/-! # The printed description of a camera (C128) -/

set_option linter.constructorNameAsVariable false

open Classical Sys Py GpsText

namespace Print

/-- A text of whole lines. -/
def Whole (t : Text) : Prop := t = [] ∨ ∃ a, t = a ++ ['\n']

theorem whole_line (a : String) (t : Text) (u : String) : Whole (line a t u) :=
  Or.inr ⟨a.toList ++ (t ++ u.toList), by simp [line]⟩

theorem Whole.append {a b : Text} (ha : Whole a) (hb : Whole b) : Whole (a ++ b) := by
  rcases hb with rfl | ⟨b', rfl⟩
  · simpa using ha
  · exact Or.inr ⟨a ++ b', by simp⟩

theorem HasLine.left {a l : Text} (h : HasLine a l) (b : Text) : HasLine (a ++ b) l := by
  obtain ⟨h0, x, y, rfl, h⟩ := h
  exact ⟨h0, x, y ++ b, by simp, h⟩

theorem HasLine.right {b l : Text} (h : HasLine b l) {a : Text} (ha : Whole a) : HasLine (a ++ b) l := by
  obtain ⟨h0, x, y, rfl, h⟩ := h
  refine ⟨h0, a ++ x, y, by simp, ?_⟩
  have hx : Whole x := h
  exact ha.append hx

theorem hasLine_line {a u : String} {t : Text} (h1 : '\n' ∉ a.toList) (h2 : '\n' ∉ t) (h3 : '\n' ∉ u.toList) :
    HasLine (line a t u) (a.toList ++ (t ++ u.toList)) :=
  ⟨by simp [h1, h2, h3], [], [], by simp [line], Or.inl rfl⟩

theorem decimals_newline {t : Text} (h : Decimals t) : '\n' ∉ t := fun hc => by
  rcases h.2 _ hc with h | h
  · exact absurd h (by decide)
  · exact absurd h (by decide)

theorem num_eq (p : ℕ) (x : ℝ) : num p x = (if x < 0 then ['-'] else []) ++ decimal p (roundEven (|x| * 10 ^ p)) := by
  unfold num
  by_cases hx : x < 0
  · rw [formatF_neg _ _ hx, abs_of_neg hx, if_pos hx]; simp [pad]
  · rw [formatF_nonneg _ _ (not_lt.1 hx), abs_of_nonneg (not_lt.1 hx), if_neg hx]; simp [pad]

theorem num_newline (p : ℕ) (x : ℝ) : '\n' ∉ num p x := by
  rw [num_eq]
  intro h
  rcases List.mem_append.1 h with h | h
  · split_ifs at h <;> simp at h
  · exact decimals_newline (decimal_decimals _ _) h

theorem num_shows (p : ℕ) (x : ℝ) : Shows p x (num p x) :=
  ⟨_, _, num_eq p x, decimal_reads _ _, round_close (abs_nonneg x) p⟩

theorem int_eq (x : ℝ) : Print.int x = (if x ≤ -1 then ['-'] else []) ++ digits ⌊|x|⌋₊ := by
  unfold Print.int formatD
  by_cases hx : x ≤ -1
  · rw [if_pos hx, if_pos hx, abs_of_neg (by linarith)]; simp [pad]
  · rw [if_neg hx, if_neg hx]
    simp only [pad, Bool.false_eq_true, if_false, List.nil_append, Nat.zero_sub, List.replicate_zero]
    by_cases h0 : 0 ≤ x
    · rw [abs_of_nonneg h0]
    · rw [Nat.floor_of_nonpos (by linarith), abs_of_neg (by linarith), Nat.floor_eq_zero.2 (by linarith)]

theorem int_newline (x : ℝ) : '\n' ∉ Print.int x := by
  rw [int_eq]
  intro h
  rcases List.mem_append.1 h with h | h
  · split_ifs at h <;> simp at h
  · exact absurd ((digits_digits _).2 _ h) (by decide)

theorem int_shows (x : ℝ) : ShowsInt x (Print.int x) := by
  refine ⟨_, _, int_eq x, ?_, Nat.floor_le (abs_nonneg x), Nat.lt_floor_add_one _⟩
  have := decimal_reads 0 ⌊|x|⌋₊
  simpa [decimal] using this

theorem param_p {s : St} (hr : Reach s) {p : ℕ} {P : PObj} (hP : s.projs p = some P) (f : PField) :
    param s (.proj p) f.name = some (s.rd (.p p f)) := by
  have : (s.dict (.proj p)).lookup f.name = some (.p p f) := by
    simp only [St.dict, hP]
    cases f <;> rfl
  rw [param, this, Option.bind_some, read_rd hr]

theorem param_o {s : St} (hr : Reach s) {o : ℕ} {O : OObj} (hO : s.orients o = some O) (f : OField) :
    param s (.orient o) (f.name O.kind) = some (s.rd (.o o f)) := by
  have : (s.dict (.orient o)).lookup (f.name O.kind) = some (.o o f) := by
    simp only [St.dict, hO]
    cases O.kind <;> cases f <;> rfl
  rw [param, this, Option.bind_some, read_rd hr]

theorem hasNumber_line {a u : String} (p : ℕ) (x : ℝ) (h1 : '\n' ∉ a.toList) (h3 : '\n' ∉ u.toList) :
    HasNumber (line a (num p x) u) a p x u := ⟨_, num_shows p x, hasLine_line h1 (num_newline p x) h3⟩

theorem HasNumber.left {a : Text} {l u : String} {p : ℕ} {x : ℝ} (h : HasNumber a l p x u) (b : Text) : HasNumber (a ++ b) l p x u :=
  let ⟨t, h1, h2⟩ := h; ⟨t, h1, h2.left b⟩

theorem HasNumber.right {b : Text} {l u : String} {p : ℕ} {x : ℝ} (h : HasNumber b l p x u) {a : Text} (ha : Whole a) :
    HasNumber (a ++ b) l p x u :=
  let ⟨t, h1, h2⟩ := h; ⟨t, h1, h2.right ha⟩

theorem count_line {a u : String} {t : Text} (h1 : '\n' ∉ a.toList) (h2 : '\n' ∉ t) (h3 : '\n' ∉ u.toList) :
    (line a t u).count '\n' = 1 := by
  simp [line, List.count_append, List.count_eq_zero_of_not_mem h1, List.count_eq_zero_of_not_mem h2, List.count_eq_zero_of_not_mem h3]

theorem lensLines_spec (s : St) (l : ℕ) : ∀ (ns : List String), (∀ n ∈ ns, '\n' ∉ n.toList) →
    (∀ n ∈ ns, ∃ x, s.getattr (.lens l) n = some (some x)) →
    ∃ r, lensLines s l ns = some r ∧ Whole r ∧ r.count '\n' = ns.length ∧
      ∀ n ∈ ns, ∀ x, s.getattr (.lens l) n = some (some x) → HasNumber r ("    " ++ n ++ ":\t\t") 3 x ""
  | [], _, _ => ⟨[], rfl, Or.inl rfl, rfl, by simp⟩
  | n :: t, h, hx => by
    obtain ⟨r, e, h1, h2, h3⟩ := lensLines_spec s l t (fun m hm => h m (by simp [hm])) (fun m hm => hx m (by simp [hm]))
    obtain ⟨x, hn⟩ := hx n (by simp)
    have hl : '\n' ∉ ("    " ++ n ++ ":\t\t").toList := by
      have := h n (by simp)
      simp only [String.toList_append, List.mem_append, this, or_false]
      decide
    refine ⟨_, by simp only [lensLines, hn, e, Option.bind_some, Option.bind_eq_bind, id, Option.pure_def]; rfl,
      (whole_line _ _ _).append h1, ?_, fun m hm y hy => ?_⟩
    · rw [List.count_append, h2, count_line hl (num_newline _ _) (by simp), List.length_cons, Nat.add_comm]
    · rcases List.mem_cons.1 hm with rfl | hm
      · rw [hn] at hy; cases hy
        exact (hasNumber_line 3 x hl (by simp)).left _
      · exact (h3 m hm y hy).right (whole_line _ _ _)

theorem lens_read {s : St} (hr : Reach s) (l : ℕ) {n : String} (h : n ∈ (s.dict (.lens l)).map Prod.fst) :
    ∃ x, s.getattr (.lens l) n = some (some x) := by
  obtain ⟨q, h⟩ := Option.isSome_iff_exists.1 (lookup_isSome.2 h)
  exact ⟨s.rd q, by rw [getattr_eq (plain_lens _ _), h, Option.map_some, read_rd hr]⟩

theorem lens_keys {s : St} {l : ℕ} {L : LObj} (hL : s.lenses l = some L) :
    (s.dict (.lens l)).map Prod.fst = if L.kind = .none then [] else lensNames L.kind ++ if L.proj = none then [] else lensExtra := by
  simp only [St.dict, hL]
  cases hk : L.kind <;> cases hp : L.proj <;> simp [lensDict, LField.all, PField.lens, LField.name, PField.name, lensNames, lensExtra]

theorem lens_spec {s : St} (hr : Reach s) {l : ℕ} {L : LObj} (hL : s.lenses l = some L) (hp : L.kind ≠ .none → L.proj ≠ none) :
    ∃ r, lens s l = some r ∧ Whole r ∧ r.count '\n' = 1 + (if L.kind = .none then 0 else 9) ∧
      HasLine r ("  lens (" ++ lensClass L.kind ++ "):").toList ∧
      ∀ n ∈ (if L.kind = .none then [] else lensNames L.kind ++ lensExtra), ∃ x, s.getattr (.lens l) n = some (some x) ∧
        HasNumber r ("    " ++ n ++ ":\t\t") 3 x "" := by
  have hkeys : (s.dict (.lens l)).map Prod.fst = if L.kind = .none then [] else lensNames L.kind ++ lensExtra := by
    rw [lens_keys hL]
    split_ifs with h h2
    · rfl
    · exact absurd h2 (hp h)
    · rfl
  obtain ⟨r, e, h1, h2, h3⟩ := lensLines_spec s l ((s.dict (.lens l)).map Prod.fst)
    (by rw [hkeys]; cases L.kind <;> decide) (fun n hn => lens_read hr l hn)
  have hname : '\n' ∉ (lensName L.kind).toList := by cases L.kind <;> decide
  refine ⟨_, by simp only [lens, hL, e, Option.bind_some, Option.bind_eq_bind, Option.pure_def]; rfl, (whole_line _ _ _).append h1, ?_, ?_, fun n hn => ?_⟩
  · rw [List.count_append, h2, count_line (by decide) hname (by decide), hkeys]
    cases L.kind <;> rfl
  · have : ("  lens (" ++ lensClass L.kind ++ "):").toList = "  lens (".toList ++ ((lensName L.kind).toList ++ "):".toList) := by
      cases L.kind <;> rfl
    rw [this]
    exact (hasLine_line (by decide) hname (by decide)).left _
  · rw [← hkeys] at hn
    obtain ⟨x, hx⟩ := lens_read hr l hn
    exact ⟨x, hx, (h3 n hn x hx).right (whole_line _ _ _)⟩

theorem mid_newline {a b : Text} (ha : '\n' ∉ a) (hb : '\n' ∉ b) : '\n' ∉ a ++ '×' :: b := by
  simp [ha, hb]

theorem proj_spec {s : St} (hr : Reach s) {p : ℕ} {P : PObj} (hP : s.projs p = some P) :
    ∃ r, proj s p = some r ∧ Whole r ∧ r.count '\n' = 4 ∧ HasLine r ("  intrinsic (" ++ projClass P.kind ++ "):").toList ∧
      HasNumber r "    f:\t\t" 1 (s.rd (.p p .fx)) " px" ∧
      (∃ t u, Shows 2 (s.rd (.p p .sw)) t ∧ Shows 2 (s.rd (.p p .sh)) u ∧
        HasLine r ("    sensor:\t".toList ++ (t ++ '×' :: u ++ " mm".toList))) ∧
      ∃ t u, ShowsInt (s.rd (.p p .iw)) t ∧ ShowsInt (s.rd (.p p .ih)) u ∧
        HasLine r ("    image:\t".toList ++ (t ++ '×' :: u ++ " px".toList)) := by
  have e1 := param_p hr hP .fx
  have e2 := param_p hr hP .sw
  have e3 := param_p hr hP .sh
  have e4 := param_p hr hP .iw
  have e5 := param_p hr hP .ih
  simp only [PField.name] at e1 e2 e3 e4 e5
  have hname : '\n' ∉ (projName P.kind).toList := by cases P.kind <;> decide
  have w := whole_line
  have n2 := mid_newline (num_newline 2 (s.rd (.p p .sw))) (num_newline 2 (s.rd (.p p .sh)))
  have n3 := mid_newline (int_newline (s.rd (.p p .iw))) (int_newline (s.rd (.p p .ih)))
  refine ⟨_, by simp only [proj, hP, e1, e2, e3, e4, e5, Option.bind_some, Option.bind_eq_bind, Option.pure_def]; rfl,
    (w _ _ _).append ((w _ _ _).append ((w _ _ _).append (w _ _ _))), ?_, ?_, ?_, ⟨_, _, num_shows _ _, num_shows _ _, ?_⟩,
    ⟨_, _, int_shows _, int_shows _, ?_⟩⟩
  · rw [List.count_append, List.count_append, List.count_append, count_line (by decide) hname (by decide), count_line (by decide) (num_newline _ _) (by decide),
      count_line (by decide) n2 (by decide), count_line (by decide) n3 (by decide)]
  · have : ("  intrinsic (" ++ projClass P.kind ++ "):").toList = "  intrinsic (".toList ++ ((projName P.kind).toList ++ "):".toList) := by
      cases P.kind <;> rfl
    rw [this]
    exact (hasLine_line (by decide) hname (by decide)).left _
  · exact ((hasNumber_line 1 _ (by decide) (by decide)).left _).right (w _ _ _)
  · exact (((hasLine_line (by decide) n2 (by decide)).left _).right (w _ _ _)).right (w _ _ _)
  · exact (((hasLine_line (by decide) n3 (by decide)).right (w _ _ _)).right (w _ _ _)).right (w _ _ _)

theorem orient_spec {s : St} (hr : Reach s) {o : ℕ} {O : OObj} (hO : s.orients o = some O) :
    ∃ r, orient s o = some r ∧ Whole r ∧ r.count '\n' = 8 ∧ HasLine r "  position:".toList ∧ HasLine r "  orientation:".toList ∧
      HasNumber r "    x:\t" 6 (s.rd (.o o .posX)) " m" ∧ HasNumber r "    y:\t" 6 (s.rd (.o o .posY)) " m" ∧
      HasNumber r "    h:\t" 6 (s.rd (.o o .elev)) " m" ∧
      (O.kind = .thr → HasNumber r "    tilt:\t\t" 6 (s.rd (.o o .ang)) "°" ∧ HasNumber r "    roll:\t\t" 6 (s.rd (.o o .roll)) "°" ∧
        HasNumber r "    heading:\t" 6 (s.rd (.o o .turn)) "°") ∧
      (O.kind = .ypr → HasNumber r "    yaw:\t\t" 6 (s.rd (.o o .ang)) "°" ∧ HasNumber r "    pitch:\t\t" 6 (s.rd (.o o .turn)) "°" ∧
        HasNumber r "    roll:\t" 6 (s.rd (.o o .roll)) "°") := by
  have e1 := param_o hr hO .posX
  have e2 := param_o hr hO .posY
  have e3 := param_o hr hO .elev
  have e4 := param_o hr hO .ang
  have e5 := param_o hr hO .roll
  have e6 := param_o hr hO .turn
  have w := whole_line
  have N : ∀ {a u : String} (x : ℝ), '\n' ∉ a.toList → '\n' ∉ u.toList → HasNumber (line a (num 6 x) u) a 6 x u :=
    fun x h1 h2 => hasNumber_line 6 x h1 h2
  have C : ∀ {a u : String} (x : ℝ), '\n' ∉ a.toList → '\n' ∉ u.toList → (line a (num 6 x) u).count '\n' = 1 :=
    fun x h1 h2 => count_line h1 (num_newline 6 x) h2
  have wp : ∀ a b c : Text, Whole (line "  position:" [] "" ++ (line "    x:\t" a " m" ++ (line "    y:\t" b " m" ++ line "    h:\t" c " m"))) :=
    fun a b c => (w _ _ _).append ((w _ _ _).append ((w _ _ _).append (w _ _ _)))
  have H1 : HasLine (line "  position:" [] "") "  position:".toList := by
    have := hasLine_line (a := "  position:") (u := "") (t := []) (by decide) (by decide) (by decide)
    simpa using this
  have H2 : HasLine (line "  orientation:" [] "") "  orientation:".toList := by
    have := hasLine_line (a := "  orientation:") (u := "") (t := []) (by decide) (by decide) (by decide)
    simpa using this
  have c1 : (line "  position:" [] "").count '\n' = 1 := by decide
  have c2 : (line "  orientation:" [] "").count '\n' = 1 := by decide
  cases hk : O.kind <;> rw [hk] at e1 e2 e3 e4 e5 e6 <;> simp only [OField.name] at e1 e2 e3 e4 e5 e6
  all_goals
    refine ⟨_, by simp only [orient, hO, hk, e1, e2, e3, e4, e5, e6, Option.bind_some, Option.bind_eq_bind, Option.pure_def]; rfl,
      (wp _ _ _).append ((w _ _ _).append ((w _ _ _).append ((w _ _ _).append (w _ _ _)))), ?_, (H1.left _).left _, (H2.left _).right (wp _ _ _),
      (((N _ (by decide) (by decide)).left _).right (w _ _ _)).left _,
      ((((N _ (by decide) (by decide)).left _).right (w _ _ _)).right (w _ _ _)).left _,
      ((((N _ (by decide) (by decide)).right (w _ _ _)).right (w _ _ _)).right (w _ _ _)).left _, ?_, ?_⟩
    · simp only [List.count_append]
      rw [c1, c2, C _ (by decide) (by decide), C _ (by decide) (by decide), C _ (by decide) (by decide), C _ (by decide) (by decide),
        C _ (by decide) (by decide), C _ (by decide) (by decide)]
    all_goals
      intro h
      first
      | exact absurd h (by decide)
      | exact ⟨(((N _ (by decide) (by decide)).left _).right (w _ _ _)).right (wp _ _ _),
          ((((N _ (by decide) (by decide)).left _).right (w _ _ _)).right (w _ _ _)).right (wp _ _ _),
          ((((N _ (by decide) (by decide)).right (w _ _ _)).right (w _ _ _)).right (w _ _ _)).right (wp _ _ _)⟩

end Print

namespace Print

/-- The numbers in the lens section are those of the projection of the lens. -/
theorem lens_extra {s : St} (hr : Reach s) {l : ℕ} {L : LObj} (hL : s.lenses l = some L) (hk : L.kind ≠ .none) {q : ℕ} (hq : L.proj = some q)
    {n : String} (hn : n ∈ lensExtra) : ∃ f : PField, n = f.name ∧ s.getattr (.lens l) n = some (some (s.rd (.p q f))) := by
  have : ∃ f : PField, n = f.name ∧ (s.dict (.lens l)).lookup n = some (.p q f) := by
    simp only [St.dict, hL, hq]
    simp only [lensExtra, List.mem_cons, List.not_mem_nil, or_false] at hn
    cases hk' : L.kind with
    | none => exact absurd hk' hk
    | brown =>
      rcases hn with rfl | rfl | rfl | rfl | rfl | rfl
      exacts [⟨.iw, rfl, rfl⟩, ⟨.ih, rfl, rfl⟩, ⟨.fx, rfl, rfl⟩, ⟨.fy, rfl, rfl⟩, ⟨.cx, rfl, rfl⟩, ⟨.cy, rfl, rfl⟩]
    | abc =>
      rcases hn with rfl | rfl | rfl | rfl | rfl | rfl
      exacts [⟨.iw, rfl, rfl⟩, ⟨.ih, rfl, rfl⟩, ⟨.fx, rfl, rfl⟩, ⟨.fy, rfl, rfl⟩, ⟨.cx, rfl, rfl⟩, ⟨.cy, rfl, rfl⟩]
  obtain ⟨f, h1, h2⟩ := this
  exact ⟨f, h1, by rw [getattr_eq (plain_lens _ _), h2, Option.map_some, read_rd hr]⟩

/-- The coefficients in the lens section are those of the camera. -/
theorem lens_coefficient {s : St} (hr : Reach s) {C : CObj} {L : LObj} (hL : s.lenses C.lens = some L)
    {n : String} (hn : n ∈ lensNames L.kind) : ∃ f : LField, L.kind ≠ .none ∧ n = f.name L.kind ∧ s.getattr (.lens C.lens) n = some (some (s.rd (.l C.lens f))) := by
  have : ∃ f : LField, L.kind ≠ .none ∧ n = f.name L.kind ∧ (s.dict (.lens C.lens)).lookup n = some (.l C.lens f) := by
    simp only [St.dict, hL]
    cases hk' : L.kind with
    | none => rw [hk'] at hn; simp [lensNames] at hn
    | brown =>
      rw [hk'] at hn
      simp only [lensNames, List.mem_cons, List.not_mem_nil, or_false] at hn
      rcases hn with rfl | rfl | rfl
      exacts [⟨.k1, by simp, rfl, rfl⟩, ⟨.k2, by simp, rfl, rfl⟩, ⟨.k3, by simp, rfl, rfl⟩]
    | abc =>
      rw [hk'] at hn
      simp only [lensNames, List.mem_cons, List.not_mem_nil, or_false] at hn
      rcases hn with rfl | rfl | rfl
      exacts [⟨.k1, by simp, rfl, rfl⟩, ⟨.k2, by simp, rfl, rfl⟩, ⟨.k3, by simp, rfl, rfl⟩]
  obtain ⟨f, h1, h2, h3⟩ := this
  exact ⟨f, h1, h2, by rw [getattr_eq (plain_lens _ _), h3, Option.map_some, read_rd hr]⟩

theorem cam_spec {s : St} (hr : Reach s) {c : ℕ} {C : CObj} (hC : s.cams c = some C) {P : PObj} (hP : s.projs C.proj = some P)
    {O : OObj} (hO : s.orients C.orient = some O) {L : LObj} (hL : s.lenses C.lens = some L) :
    ∃ tl tp tr t, lens s C.lens = some tl ∧ proj s C.proj = some tp ∧ orient s C.orient = some tr ∧ cam s c = some t ∧
      t = line "CameraTransform(" [] "" ++ (tl ++ (tp ++ (tr ++ [')']))) ∧ Whole tl ∧ Whole tp ∧ Whole tr := by
  obtain ⟨P', O', L', -, -, hL', -, hk⟩ := hr.dicts.cam c C hC
  rw [hL] at hL'; cases hL'
  obtain ⟨tl, l1, l2, -⟩ := lens_spec hr hL hk
  obtain ⟨tp, p1, p2, -⟩ := proj_spec hr hP
  obtain ⟨tr, o1, o2, -⟩ := orient_spec hr hO
  refine ⟨tl, tp, tr, _, l1, p1, o1, ?_, rfl, l2, p2, o2⟩
  simp only [cam, hC, l1, p1, o1, Option.bind_some, Option.bind_eq_bind, Option.pure_def]

end Print

open Print in
/-- **C128** The description of a camera can always be printed.  It has a line for the class of the lens and the class of the projection,
and lines for the focal length, the sensor and image sizes, the position and the angles; every number is the current value of the
attribute of the camera, rounded to the decimals that are shown (the image size is cut off).  There are no other lines than these and
the lines for the lens. -/
theorem C128_text {s : St} (hr : Reach s) {c : ℕ} {C : CObj} (hC : s.cams c = some C) {P : PObj} (hP : s.projs C.proj = some P)
    {O : OObj} (hO : s.orients C.orient = some O) {L : LObj} (hL : s.lenses C.lens = some L) :
    ∃ t, Print.cam s c = some t ∧
      (∀ e ∈ entries O.kind, ∃ x, s.getattr (.cam c) e.name = some (some x) ∧ HasNumber t e.label e.prec x e.unit) ∧
      (∃ x y u v, s.getattr (.cam c) "sensor_width_mm" = some (some x) ∧ s.getattr (.cam c) "sensor_height_mm" = some (some y) ∧
        Shows 2 x u ∧ Shows 2 y v ∧ HasLine t ("    sensor:\t".toList ++ (u ++ '×' :: v ++ " mm".toList))) ∧
      (∃ x y u v, s.getattr (.cam c) "image_width_px" = some (some x) ∧ s.getattr (.cam c) "image_height_px" = some (some y) ∧
        ShowsInt x u ∧ ShowsInt y v ∧ HasLine t ("    image:\t".toList ++ (u ++ '×' :: v ++ " px".toList))) ∧
      (∀ n ∈ lensNames L.kind, ∃ x, s.getattr (.cam c) n = some (some x) ∧ HasNumber t ("    " ++ n ++ ":\t\t") 3 x "") ∧
      (∀ h ∈ ["CameraTransform(", "  lens (" ++ lensClass L.kind ++ "):", "  intrinsic (" ++ projClass P.kind ++ "):", "  position:", "  orientation:"],
        HasLine t h.toList) ∧
      (∃ t', t = t' ++ ['\n', ')']) ∧ t.count '\n' = 14 + (if L.kind = .none then 0 else 9) := by
  obtain ⟨tl, tp, tr, t, l1, p1, o1, e, rfl, l2, p2, o2⟩ := cam_spec hr hC hP hO hL
  obtain ⟨P', O', L', -, -, hL', -, hk⟩ := hr.dicts.cam c C hC
  rw [hL] at hL'; cases hL'
  obtain ⟨_, l1', -, lc, lh, ln⟩ := lens_spec hr hL hk
  rw [l1] at l1'; cases l1'
  obtain ⟨_, p1', -, pc, ph, pf, ⟨u1, v1, ps1, ps2, ps3⟩, ⟨u2, v2, pi1, pi2, pi3⟩⟩ := proj_spec hr hP
  rw [p1] at p1'; cases p1'
  obtain ⟨_, o1', -, oc, oh1, oh2, ox, oy, oe, ot, oyp⟩ := orient_spec hr hO
  rw [o1] at o1'; cases o1'
  have w0 := whole_line "CameraTransform(" [] ""
  have gp : ∀ f : PField, s.getattr (.cam c) f.name = some (some (s.rd (.p C.proj f))) := fun f => by
    rw [getattr_eq (plain_cam _ _), cam_lookup_p hr.dicts hC, Option.map_some, read_rd hr]
  have go : ∀ f : OField, s.getattr (.cam c) (f.name O.kind) = some (some (s.rd (.o C.orient f))) := fun f => by
    rw [getattr_eq (plain_cam _ _), cam_lookup_o hr.dicts hC hO, Option.map_some, read_rd hr]
  have inL : ∀ {l u : String} {p : ℕ} {x : ℝ}, HasNumber tl l p x u → HasNumber (line "CameraTransform(" [] "" ++ (tl ++ (tp ++ (tr ++ [')'])))) l p x u :=
    fun h => (h.left _).right w0
  have inP : ∀ {l u : String} {p : ℕ} {x : ℝ}, HasNumber tp l p x u → HasNumber (line "CameraTransform(" [] "" ++ (tl ++ (tp ++ (tr ++ [')'])))) l p x u :=
    fun h => ((h.left _).right l2).right w0
  have inO : ∀ {l u : String} {p : ℕ} {x : ℝ}, HasNumber tr l p x u → HasNumber (line "CameraTransform(" [] "" ++ (tl ++ (tp ++ (tr ++ [')'])))) l p x u :=
    fun h => (((h.left _).right p2).right l2).right w0
  refine ⟨_, e, ?_, ⟨_, _, u1, v1, gp .sw, gp .sh, ps1, ps2, ((ps3.left _).right l2).right w0⟩,
    ⟨_, _, u2, v2, gp .iw, gp .ih, pi1, pi2, ((pi3.left _).right l2).right w0⟩, fun n hn => ?_, fun h hh => ?_, ?_, ?_⟩
  · cases hko : O.kind with
    | thr =>
      obtain ⟨a1, a2, a3⟩ := ot hko
      rw [hko] at go
      intro en hen
      simp only [entries, List.mem_cons, List.not_mem_nil, or_false] at hen
      rcases hen with rfl | rfl | rfl | rfl | rfl | rfl | rfl
      exacts [⟨_, gp .fx, inP pf⟩, ⟨_, go .posX, inO ox⟩, ⟨_, go .posY, inO oy⟩, ⟨_, go .elev, inO oe⟩, ⟨_, go .ang, inO a1⟩,
        ⟨_, go .roll, inO a2⟩, ⟨_, go .turn, inO a3⟩]
    | ypr =>
      obtain ⟨a1, a2, a3⟩ := oyp hko
      rw [hko] at go
      intro en hen
      simp only [entries, List.mem_cons, List.not_mem_nil, or_false] at hen
      rcases hen with rfl | rfl | rfl | rfl | rfl | rfl | rfl
      exacts [⟨_, gp .fx, inP pf⟩, ⟨_, go .posX, inO ox⟩, ⟨_, go .posY, inO oy⟩, ⟨_, go .elev, inO oe⟩, ⟨_, go .ang, inO a1⟩,
        ⟨_, go .turn, inO a2⟩, ⟨_, go .roll, inO a3⟩]
  · obtain ⟨f, f1, f2, f3⟩ := lens_coefficient hr hL hn
    obtain ⟨x, x1, x2⟩ := ln n (by rw [if_neg f1]; exact List.mem_append_left _ hn)
    rw [f3] at x1; cases x1
    exact ⟨_, by rw [f2, getattr_eq (plain_cam _ _), cam_lookup_l hr.dicts hC hL f1, Option.map_some, read_rd hr], inL x2⟩
  · simp only [List.mem_cons, List.not_mem_nil, or_false] at hh
    rcases hh with rfl | rfl | rfl | rfl | rfl
    · have := hasLine_line (a := "CameraTransform(") (u := "") (t := []) (by decide) (by decide) (by decide)
      have h2 : HasLine (line "CameraTransform(" [] "") "CameraTransform(".toList := by simpa using this
      exact h2.left _
    · exact (lh.left _).right w0
    · exact ((ph.left _).right l2).right w0
    · exact (((oh1.left _).right p2).right l2).right w0
    · exact (((oh2.left _).right p2).right l2).right w0
  · rcases o2 with rfl | ⟨a, rfl⟩
    · simp at oc
    · exact ⟨line "CameraTransform(" [] "" ++ (tl ++ (tp ++ a)), by simp⟩
  · simp only [List.count_append, lc, pc, oc]
    have : (line "CameraTransform(" [] "").count '\n' = 1 := by decide
    rw [this]
    split_ifs <;> rfl

example : ∃ (s : St) (C : CObj) (P : PObj) (O : OObj) (L : LObj), Reach s ∧ s.cams 0 = some C ∧ s.projs C.proj = some P ∧
    s.orients C.orient = some O ∧ s.lenses C.lens = some L ∧ L.kind ≠ .none ∧ L.proj = some C.proj := by
  obtain ⟨C, hC, hp, -, hl⟩ := Ex.s4_cams
  obtain ⟨P, O, L, h1, h2, h3, -⟩ := Ex.run4.reach.dicts.cam 0 C hC
  obtain ⟨L', e1, e2, e3⟩ := Ex.s4_lens
  rw [hl, e1] at h3; cases h3
  exact ⟨_, C, P, O, _, Ex.run4.reach, hC, h1, h2, by rw [hl]; exact e1, by rw [e2]; simp, by rw [hp]; exact e3⟩

open Print in
/-- **C128** The sections: lens, projection, position, orientation. -/
theorem C128_sections {s : St} (hr : Reach s) {c : ℕ} {C : CObj} (hC : s.cams c = some C) {P : PObj} (hP : s.projs C.proj = some P)
    {L : LObj} (hL : s.lenses C.lens = some L) :
    ∃ t1 t2 t3 t4, Print.cam s c = some (("CameraTransform(\n  lens (" ++ lensClass L.kind ++ "):\n").toList ++ (t1 ++
      (("  intrinsic (" ++ projClass P.kind ++ "):\n").toList ++ (t2 ++ ("  position:\n".toList ++ (t3 ++ ("  orientation:\n".toList ++ t4))))))) := by
  obtain ⟨P', O, L', -, hO, hL', -, hk⟩ := hr.dicts.cam c C hC
  rw [hL] at hL'; cases hL'
  obtain ⟨r, e, -⟩ := lensLines_spec s C.lens ((s.dict (.lens C.lens)).map Prod.fst)
    (by rw [lens_keys hL]; cases L.kind <;> cases L.proj <;> simp [lensNames, lensExtra]) (fun n hn => lens_read hr C.lens hn)
  obtain ⟨tl, tp, tr, t, l1, p1, o1, e', rfl, -⟩ := cam_spec hr hC hP hO hL
  have e1 := param_p hr hP .fx
  have e2 := param_p hr hP .sw
  have e3 := param_p hr hP .sh
  have e4 := param_p hr hP .iw
  have e5 := param_p hr hP .ih
  simp only [PField.name] at e1 e2 e3 e4 e5
  have f1 := param_o hr hO .posX
  have f2 := param_o hr hO .posY
  have f3 := param_o hr hO .elev
  have f4 := param_o hr hO .ang
  have f5 := param_o hr hO .roll
  have f6 := param_o hr hO .turn
  have hl : ∃ t1, tl = ("  lens (" ++ lensClass L.kind ++ "):\n").toList ++ t1 := by
    simp only [lens, hL, e, Option.bind_some, Option.bind_eq_bind, Option.pure_def, Option.some.injEq] at l1
    refine ⟨r, ?_⟩
    rw [← l1]
    cases L.kind <;> rfl
  have hp : ∃ t2, tp = ("  intrinsic (" ++ projClass P.kind ++ "):\n").toList ++ t2 := by
    simp only [proj, hP, e1, e2, e3, e4, e5, Option.bind_some, Option.bind_eq_bind, Option.pure_def, Option.some.injEq] at p1
    have hh : line "  intrinsic (" (projName P.kind).toList "):" = ("  intrinsic (" ++ projClass P.kind ++ "):\n").toList := by
      cases P.kind <;> rfl
    rw [hh] at p1
    exact ⟨_, p1.symm⟩
  have ho : ∃ t3 t4, tr = "  position:\n".toList ++ (t3 ++ ("  orientation:\n".toList ++ t4)) := by
    cases hko : O.kind <;> rw [hko] at f1 f2 f3 f4 f5 f6 <;> simp only [OField.name] at f1 f2 f3 f4 f5 f6 <;>
      simp only [orient, hO, hko, f1, f2, f3, f4, f5, f6, Option.bind_some, Option.bind_eq_bind, Option.pure_def, Option.some.injEq] at o1 <;>
      rw [List.append_assoc] at o1 <;> exact ⟨_, _, o1.symm⟩
  obtain ⟨t1, rfl⟩ := hl
  obtain ⟨t2, rfl⟩ := hp
  obtain ⟨t3, t4, rfl⟩ := ho
  refine ⟨t1, t2, t3, t4 ++ [')'], ?_⟩
  rw [e']
  simp [line, List.append_assoc]

open Print in
/-- **C128** (partial: see `C128_violated`) A distorting lens that is bound to the projection of the camera shows the image size, the
focal lengths and the centre of the camera. -/
theorem C128_lens_partial {s : St} (hr : Reach s) {c : ℕ} {C : CObj} (hC : s.cams c = some C) {L : LObj} (hL : s.lenses C.lens = some L)
    (hk : L.kind ≠ .none) (hp : L.proj = some C.proj) :
    ∃ t, Print.cam s c = some t ∧ ∀ n ∈ lensExtra, ∃ x, s.getattr (.cam c) n = some (some x) ∧ HasNumber t ("    " ++ n ++ ":\t\t") 3 x "" := by
  obtain ⟨P, O, L', hP, hO, hL', -, hk'⟩ := hr.dicts.cam c C hC
  rw [hL] at hL'; cases hL'
  obtain ⟨tl, tp, tr, t, l1, p1, o1, e, rfl, l2, p2, o2⟩ := cam_spec hr hC hP hO hL
  obtain ⟨_, l1', -, lc, lh, ln⟩ := lens_spec hr hL hk'
  rw [l1] at l1'; cases l1'
  refine ⟨_, e, fun n hn => ?_⟩
  obtain ⟨f, f1, f2⟩ := lens_extra hr hL hk hp hn
  obtain ⟨x, x1, x2⟩ := ln n (by rw [if_neg hk]; exact List.mem_append_right _ hn)
  rw [f2] at x1; cases x1
  exact ⟨_, by rw [f1, getattr_eq (plain_cam _ _), cam_lookup_p hr.dicts hC, Option.map_some, read_rd hr], (x2.left _).right (whole_line _ _ _)⟩

open Print in
/-- **C128 is violated** for lenses that are used twice: after a second camera was created with the lens, the lens section in the
description of the first camera shows the image size, the focal lengths and the centre of the second camera. -/
theorem C128_violated {s : St} (hr : Reach s) {c : ℕ} {C : CObj} (hC : s.cams c = some C) {L : LObj} (hL : s.lenses C.lens = some L)
    (hk : L.kind ≠ .none) {c' q o : ℕ} (hcc : c ≠ c') (hok : s.ok (.newCam c' q o C.lens)) :
    ∃ t, Print.cam (s.step (.newCam c' q o C.lens)) c = some t ∧ ∀ n ∈ lensExtra, ∃ x,
      (s.step (.newCam c' q o C.lens)).getattr (.cam c') n = some (some x) ∧ HasNumber t ("    " ++ n ++ ":\t\t") 3 x "" := by
  have hr' := hr.step hok
  obtain ⟨L', h1, h2, h3⟩ := setProjection_lens (p := q) hL
  set s' := s.step (.newCam c' q o C.lens) with hs'
  have hC' : s'.cams c = some C := by
    simp only [hs', St.step, St.newCam, Function.update_apply, if_neg hcc, setProjection_cams, hC]
  have hL' : s'.lenses C.lens = some L' := h1
  obtain ⟨P, O, L'', hP, hO, hL'', -, hk'⟩ := hr'.dicts.cam c C hC'
  rw [hL'] at hL''; cases hL''
  obtain ⟨tl, tp, tr, t, l1, p1, o1, e, rfl, l2, p2, o2⟩ := cam_spec hr' hC' hP hO hL'
  obtain ⟨_, l1', -, lc, lh, ln⟩ := lens_spec hr' hL' hk'
  rw [l1] at l1'; cases l1'
  have hk2 : L'.kind ≠ .none := by rw [h2]; exact hk
  obtain ⟨C2, hC2, e2⟩ : ∃ C2, s'.cams c' = some C2 ∧ C2.proj = q := by
    simp [hs', St.step, St.newCam]
  refine ⟨_, e, fun n hn => ?_⟩
  obtain ⟨f, f1, f2⟩ := lens_extra hr' hL' hk2 (h3 hk) hn
  obtain ⟨x, x1, x2⟩ := ln n (by rw [if_neg hk2]; exact List.mem_append_right _ hn)
  rw [f2] at x1; cases x1
  exact ⟨_, by rw [f1, getattr_eq (plain_cam _ _), cam_lookup_p hr'.dicts hC2, Option.map_some, read_rd hr', e2], (x2.left _).right (whole_line _ _ _)⟩

/-- A second camera with another projection and the same lens. -/
example : ∃ (s : St) (C : CObj) (L : LObj), Reach s ∧ s.cams 0 = some C ∧ s.lenses C.lens = some L ∧ L.kind ≠ .none ∧ (0 : ℕ) ≠ 1 ∧
    s.ok (.newCam 1 1 0 C.lens) ∧ s.rd (.p 1 .fx) ≠ s.rd (.p C.proj .fx) := by
  obtain ⟨C, hC, hp, -, hl⟩ := Ex.s4_cams
  obtain ⟨L, h1, h2, -⟩ := Group.s6_lenses0
  refine ⟨Ex.s6, C, L, Ex.reachX6.reach, by rw [Ex.s6_cams]; exact hC, by rw [hl]; exact h1, by rw [h2]; simp, by simp,
    ⟨Group.s6_projs1', Group.s6_orients0, by rw [hl]; exact Group.s6_lenses0'⟩, ?_⟩
  rw [hp, Ex.s6_fx1, Ex.s6_fx0]; norm_num
