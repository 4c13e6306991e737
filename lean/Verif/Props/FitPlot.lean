import Verif.Spec.FitPlot
import Verif.Props.CameraLens
import Verif.Props.Terms

/-! # The plot of the fit information (C129) -/

open Classical Camera Terms Num

namespace FitPlot

theorem image_same {c : Cam} (hl : Respects c.lens) {n : V3 Num} {P : V3 ℝ} (hn : n.Is P) (hs : OffSeam c P) (hide : Bool) :
    V2.SameN (imageFromSpace c P.num hide) (imageFromSpace c n hide) := by
  have h1 := cameraFromSpace_is c (V3.is_num P)
  have h2 := cameraFromSpace_is c hn
  have h2' : (Spatial.cameraFromSpace c.orient.mat n).Is ((camR c P).mulS 1) := h2.congr (by ext <;> simp)
  have hs' : c.kind = .rectilinear ∨ ¬ ((camR c P).x = 0 ∧ 0 < (camR c P).z) := by
    rcases hs with h | h
    · exact Or.inl h
    · right; intro hh; exact h ⟨_, h1, hh⟩
  refine hl _ _ (Projection.imageFromCamera_same c.kind c.intr one_pos h1 h2' ?_ hs' hide).sameN
  by_cases hz : |(camR c P).z| < Projection.minDepth
  · exact Or.inl ⟨hz, rfl⟩
  · right; simp only [V3.mulS_z, mul_one, and_self]; exact not_lt.1 hz

theorem ground {c : Cam} (hc : c.Proper) {P : V3 ℝ} {q : V2 Num} (h : Sees c P q) {Z : ℝ} (hP : P.z = Z) (hZ : c.orient.pos.z ≠ Z) :
    ∃ F : V3 Num, spaceFromImage c q { Z := some (.fin Z) } = .ok F ∧ F.Is P := by
  obtain ⟨h1, h2, rfl⟩ := h
  subst hP
  exact C07_space_image_space_lens c hc P _ (V3.is_num _) h1 2 hZ.symm true h2 (fin P.z) rfl

theorem forall₂_map {α : Type} (l : List α) (f g : α → V2 Num) (h : ∀ x ∈ l, V2.SameN (f x) (g x)) :
    List.Forall₂ V2.SameN (l.map f) (l.map g) := by
  induction l with
  | nil => exact .nil
  | cons x l ih => exact .cons (h x (by simp)) (ih fun y hy => h y (by simp [hy]))

theorem mapM_forall {α β : Type} (l : List α) (f : α → Except PyErr β) (p : α → β → Prop) (h : ∀ x ∈ l, ∃ y, f x = .ok y ∧ p x y) :
    ∃ r, l.mapM f = .ok r ∧ List.Forall₂ p l r := by
  induction l with
  | nil => exact ⟨[], rfl, .nil⟩
  | cons x l ih =>
    obtain ⟨y, h1, h2⟩ := h x (by simp)
    obtain ⟨r, h3, h4⟩ := ih fun y hy => h y (by simp [hy])
    refine ⟨y :: r, ?_, .cons h2 h4⟩
    rw [List.mapM_cons, h1, h3]; rfl

theorem mapM_error {α β : Type} (l : List α) (f : α → Except PyErr β) (x : α) (hx : x ∈ l) (h : ∀ y, f x ≠ .ok y) :
    ∀ d, l.mapM f ≠ .ok d := by
  induction l with
  | nil => simp at hx
  | cons a l ih =>
    intro d hd
    rw [List.mapM_cons] at hd
    cases ha : f a with
    | error e => simp [ha, bind, Except.bind] at hd
    | ok b =>
      rcases List.mem_cons.1 hx with rfl | hx
      · exact h b ha
      · cases hl : l.mapM f with
        | error e => simp [ha, hl, bind, Except.bind] at hd
        | ok r => exact ih hx r hl

end FitPlot

open FitPlot

theorem FitPlot.headPoint_true {c : Cam} (hc : c.Proper) (hl : Respects c.lens) {r : HeightRow} (h : Standing c r) :
    ∃ q, headPoint c r = .ok q ∧ V2.SameN r.head q := by
  obtain ⟨x, y, s1, s2, s3, s4⟩ := h
  obtain ⟨F, f1, f2⟩ := ground hc s1 (Z := 0) rfl s4
  have h1 : headPoint c r = .ok (imageFromSpace c ⟨F.x, F.y, F.z + .fin r.height⟩) := by
    unfold headPoint
    rw [f1]
    rfl
  have h2 : V3.Is ⟨F.x, F.y, F.z + .fin r.height⟩ ⟨x, y, r.height⟩ :=
    ⟨f2.1, f2.2.1, (f2.2.2.add (is_fin r.height)).congr (zero_add _)⟩
  have h3 := image_same hl h2 s3 true
  rw [← s2] at h3
  exact ⟨_, h1, h3⟩

/-- **C129** Objects that stand upright on the ground: the circles for the heads are at the markers of the heads. -/
theorem C129_heights (c : Cam) (hc : c.Proper) (hl : Respects c.lens) (rows : List HeightRow) (h : ∀ r ∈ rows, Standing c r) :
    ∃ d, FitPlot.heights c rows = .ok d ∧ d.base = rows.map HeightRow.feet ∧ d.observed = rows.map HeightRow.head ∧ d.Agrees := by
  obtain ⟨p, h1, h2⟩ := mapM_forall rows (headPoint c) (fun r q => V2.SameN r.head q) fun r hr => headPoint_true hc hl (h r hr)
  refine ⟨_, by simp only [FitPlot.heights, h1, bind, Except.bind, pure, Except.pure]; rfl, rfl, rfl, ?_⟩
  exact List.forall₂_map_left_iff.2 h2

theorem FitPlot.dist_rev (A B : V3 ℝ) : V3.dist A B = (B - A).norm := by
  unfold V3.dist V3.norm V3.normSq
  congr 1
  simp only [V3.sub_x, V3.sub_y, V3.sub_z]
  ring

theorem FitPlot.norm_sub_ne {A B : V3 ℝ} (h : A ≠ B) : (B - A).norm ≠ 0 := by
  intro h0
  have := V3.norm_eq_zero.1 h0
  rw [V3.ext_iff] at this
  simp only [V3.sub_x, V3.sub_y, V3.sub_z, sub_eq_zero] at this
  exact h (V3.ext this.1.symm this.2.1.symm this.2.2.symm)

/-- **C129** (partial: one length for all objects, see `C129_lengths_violated`) The circle for the back of a flat object is the image of
the point `D` in the direction of the back that has the given distance from the front. -/
theorem C129_predicted_back_partial (c : Cam) (hc : c.Proper) (hl : Respects c.lens) (Z l : ℝ) (len : Length)
    (hlen : len = .number l ∨ len = .array [l]) (r : V2 Num × V2 Num) (A B D : V3 ℝ) (hA : Sees c A r.1) (hB : Sees c B r.2)
    (zA : A.z = Z) (zB : B.z = Z) (hZ : c.orient.pos.z ≠ Z) (hAB : A ≠ B) (t : ℝ) (hD : D = A + (B - A).mulS t)
    (ht : t * V3.dist A B = l) (hs : OffSeam c D) :
    ∃ q, backPoint c Z len r = .ok q ∧ V2.SameN (imageFromSpace c D.num) q := by
  obtain ⟨F, f1, f2⟩ := ground hc hA zA hZ
  obtain ⟨G, g1, g2⟩ := ground hc hB zB hZ
  have hd : ∀ x : V3 Num, len.times x = .ok (x.mulS (.fin l)) := by
    intro x; rcases hlen with rfl | rfl <;> rfl
  have hne : (B - A).norm ≠ 0 := norm_sub_ne hAB
  refine ⟨_, by simp only [backPoint, f1, g1, hd, bind, Except.bind, pure, Except.pure]; rfl, ?_⟩
  have h1 := ((g2.sub f2).divS (g2.sub f2).normN hne).mulS (is_fin l)
  refine image_same hl ((f2.add h1).congr ?_) hs true
  rw [hD, ← ht, dist_rev]
  ext <;> simp <;> field_simp

/-- **C129** (partial: one length for all objects, see `C129_lengths_violated`) Flat objects: the circles for the backs are at the markers
of the backs. -/
theorem C129_lengths_partial (c : Cam) (hc : c.Proper) (hl : Respects c.lens) (rows : List (V2 Num × V2 Num)) (Z l : ℝ) (len : Length)
    (hlen : len = .number l ∨ len = .array [l]) (h : ∀ r ∈ rows, Lying c Z l r) :
    ∃ d, FitPlot.lengths c rows Z len = .ok d ∧ d.base = rows.map Prod.fst ∧ d.observed = rows.map Prod.snd ∧ d.Agrees := by
  obtain ⟨p, h1, h2⟩ := mapM_forall rows (backPoint c Z len) (fun r q => V2.SameN r.2 q) fun r hr => by
    obtain ⟨A, B, a1, a2, a3, a4, a5, a6, a7, a8⟩ := h r hr
    obtain ⟨q, q1, q2⟩ := C129_predicted_back_partial c hc hl Z l len hlen r A B B a1 a2 a3 a4 a8 a5 1 (by ext <;> simp) (by simpa using a6) a7
    exact ⟨q, q1, by rw [a2.2.2]; exact q2⟩
  refine ⟨_, by simp only [FitPlot.lengths, h1, bind, Except.bind, pure, Except.pure]; rfl, rfl, rfl, ?_⟩
  exact List.forall₂_map_left_iff.2 h2

/-- **C129 is violated** for an array of lengths: with two, or more than three, objects nothing can be drawn at all. -/
theorem C129_lengths_violated (c : Cam) (rows : List (V2 Num × V2 Num)) (Z : ℝ) (ls : List ℝ) (h1 : ls.length = rows.length) (h2 : 2 ≤ rows.length)
    (h3 : rows.length ≠ 3) (before after : List FitPlot.Info) : ∀ d, plotFitInformation c (before ++ .lengths rows Z (.array ls) :: after) ≠ .ok d := by
  intro d hd
  have hb : ∀ r q, backPoint c Z (.array ls) r ≠ .ok q := by
    intro r q hq
    have ht : ∀ x, Length.times x (.array ls) = .error .valueError := by
      intro x
      match ls, h1 with
      | [], h1 => rfl
      | [_], h1 => simp at h1; omega
      | [_, _], _ => rfl
      | [_, _, _], h1 => simp at h1; omega
      | _ :: _ :: _ :: _ :: _, _ => rfl
    unfold backPoint at hq
    cases hA : spaceFromImage c r.1 { Z := some (.fin Z) } <;> cases hB : spaceFromImage c r.2 { Z := some (.fin Z) } <;>
      simp [hA, hB, ht, bind, Except.bind] at hq
  obtain ⟨r, hr⟩ : ∃ r, r ∈ rows := List.exists_mem_of_length_pos (by omega)
  have hl : ∀ e, FitPlot.lengths c rows Z (.array ls) ≠ .ok e := by
    intro e he
    unfold FitPlot.lengths at he
    cases hm : rows.mapM (backPoint c Z (.array ls)) with
    | ok m => exact mapM_error rows _ r hr (hb r) m hm
    | error _ => simp [hm, bind, Except.bind] at he
  unfold plotFitInformation at hd
  cases hm : (before ++ .lengths rows Z (.array ls) :: after).mapM (FitPlot.Info.draw c) with
  | ok m => exact mapM_error _ _ (.lengths rows Z (.array ls)) (by simp) hl m hm
  | error _ => simp [hm, bind, Except.bind] at hd

/-- **C129** Landmarks: the circles are at the markers of the pixels. -/
theorem C129_landmarks (c : Cam) (hl : Respects c.lens) (ls : List Landmark)
    (h : ∀ l ∈ ls, ∃ P : V3 ℝ, l.pos.Is P ∧ l.pixel = imageFromSpace c P.num ∧ OffSeam c P) :
    (FitPlot.landmarks c ls).observed = ls.map Landmark.pixel ∧ (FitPlot.landmarks c ls).Agrees := by
  refine ⟨rfl, forall₂_map _ _ _ fun l hm => ?_⟩
  obtain ⟨P, h1, h2, h3⟩ := h l hm
  rw [h2]
  exact image_same hl h1 h3 true

/-- **C129** Points on the horizon: the circles are at the markers, and the dashed line is the horizon of the camera in all columns of the
image. -/
theorem C129_horizon (c : Cam) (ps : List (V2 ℝ)) (h : ∀ p ∈ ps, ∃ y : ℕ, View.horizonRow c p.x = .ok (some y) ∧ p.y = y) :
    ∃ d, FitPlot.horizon c ps = .ok d ∧ d.observed = ps.map V2.num ∧ d.Agrees ∧ d.dashed.length = ⌈c.intr.w⌉₊ ∧
      (∀ (x : ℕ) (y : ℕ), x < ⌈c.intr.w⌉₊ → View.horizonRow c x = .ok (some y) → d.dashed[x]? = some (V2.num ⟨x, y⟩)) ∧
      ∀ x : ℕ, x < ⌈c.intr.w⌉₊ → View.horizonRow c x = .ok none → d.dashed[x]? = some ⟨.fin x, .nan⟩ := by
  obtain ⟨row, h1, h2⟩ := C81_all_x c (some (ps.map V2.x))
  obtain ⟨row', k1, k2⟩ := C81_all_x c (some ((List.range ⌈c.intr.w⌉₊).map fun (x : ℕ) => (x : ℝ)))
  refine ⟨_, by simp only [FitPlot.horizon, h2, k2, bind, Except.bind, pure, Except.pure]; rfl, rfl, ?_, by simp, ?_, ?_⟩
  · simp only [Drawing.Agrees, List.map_map]
    refine forall₂_map _ _ _ fun p hp => ?_
    obtain ⟨y, y1, y2⟩ := h p hp
    have := (h1 p.x).symm.trans y1
    simp only [Except.ok.injEq] at this
    simp only [Function.comp_apply, horizonPoint, this]
    have : p.num = ⟨.fin p.x, .fin y⟩ := by simp [V2.num, y2]
    rw [this]
    exact ⟨Or.inl rfl, Or.inl rfl⟩
  · intro x y hx hy
    have := (k1 x).symm.trans hy
    simp only [Except.ok.injEq] at this
    simp [hx, horizonPoint, this, V2.num]
  · intro x hx hy
    have := (k1 x).symm.trans hy
    simp only [Except.ok.injEq] at this
    simp [hx, horizonPoint, this]


theorem FitPlot.connect_eq (a b : List (V2 Num)) : connect a b = (List.zipWith (fun p q => [p, q, V2.nan]) a b).flatten := by
  unfold connect
  induction a generalizing b with
  | nil => simp
  | cons x a ih => cases b <;> simp [ih]

/-- **C129** (partial: one length for all flat objects, see `C129_lengths_violated`) For information that is exactly what the camera sees,
`plotFitInformation` succeeds; each drawing shows what was observed and its circles are at these pixels; the lines go from the observed
pixels (for flat objects from the front) to the circles; the limits are those of the image, with y downwards. -/
theorem C129_infos_partial (c : Cam) (hc : c.Proper) (hl : Respects c.lens) (infos : List FitPlot.Info) (h : ∀ i ∈ infos, i.True c) :
    ∃ ds, plotFitInformation c infos = .ok (ds, (0, c.intr.w), (c.intr.h, 0)) ∧
      List.Forall₂ (fun (i : FitPlot.Info) d => d.observed = i.observations ∧ d.Agrees ∧ d.LinesFrom i.starts) infos ds := by
  obtain ⟨ds, h1, h2⟩ := mapM_forall infos (FitPlot.Info.draw c)
    (fun i d => d.observed = i.observations ∧ d.Agrees ∧ d.LinesFrom i.starts) fun i hi => by
      have hi := h i hi
      cases i with
      | heights rows =>
        obtain ⟨d, d1, -, d2, d3⟩ := C129_heights c hc hl rows hi
        refine ⟨d, d1, d2, d3, ?_⟩
        unfold FitPlot.heights at d1
        cases hm : rows.mapM (headPoint c) with
        | error e => simp [hm, bind, Except.bind] at d1
        | ok m =>
          simp only [hm, bind, Except.bind, pure, Except.pure, Except.ok.injEq] at d1
          subst d1
          exact connect_eq _ _
      | lengths rows Z l =>
        obtain ⟨x, hx, hr⟩ := hi
        obtain ⟨d, d1, -, d2, d3⟩ := C129_lengths_partial c hc hl rows Z x l hx hr
        refine ⟨d, d1, d2, d3, ?_⟩
        unfold FitPlot.lengths at d1
        cases hm : rows.mapM (backPoint c Z l) with
        | error e => simp [hm, bind, Except.bind] at d1
        | ok m =>
          simp only [hm, bind, Except.bind, pure, Except.pure, Except.ok.injEq] at d1
          subst d1
          exact connect_eq _ _
      | landmarks ls =>
        obtain ⟨d2, d3⟩ := C129_landmarks c hl ls hi
        exact ⟨_, rfl, d2, d3, connect_eq _ _⟩
      | horizon ps =>
        obtain ⟨d, d1, d2, d3, -⟩ := C129_horizon c ps hi
        refine ⟨d, d1, d2, d3, ?_⟩
        unfold FitPlot.horizon at d1
        obtain ⟨row, -, k2⟩ := C81_all_x c (some (ps.map V2.x))
        obtain ⟨row', -, k3⟩ := C81_all_x c (some ((List.range ⌈c.intr.w⌉₊).map fun (x : ℕ) => (x : ℝ)))
        simp only [k2, k3, bind, Except.bind, pure, Except.pure, Except.ok.injEq] at d1
        subst d1
        exact connect_eq _ _
  exact ⟨ds, by simp only [plotFitInformation, h1, bind, Except.bind, pure, Except.pure], h2⟩

/-- **C129 is violated** also for three objects with an array of three lengths: the circle is the image of a point that is displaced by the
first length in x and the second in y, whichever object it is for. -/
theorem C129_three_violated (c : Cam) (hc : c.Proper) (hl : Respects c.lens) (Z l m n : ℝ) (r : V2 Num × V2 Num) (A B : V3 ℝ)
    (hA : Sees c A r.1) (hB : Sees c B r.2) (zA : A.z = Z) (zB : B.z = Z) (hZ : c.orient.pos.z ≠ Z) (hAB : A ≠ B)
    (hs : OffSeam c ⟨A.x + l * (B.x - A.x) / V3.dist A B, A.y + m * (B.y - A.y) / V3.dist A B, Z⟩) :
    ∃ q, backPoint c Z (.array [l, m, n]) r = .ok q ∧
      V2.SameN (imageFromSpace c (V3.num ⟨A.x + l * (B.x - A.x) / V3.dist A B, A.y + m * (B.y - A.y) / V3.dist A B, Z⟩)) q := by
  obtain ⟨F, f1, f2⟩ := ground hc hA zA hZ
  obtain ⟨G, g1, g2⟩ := ground hc hB zB hZ
  have hne : (B - A).norm ≠ 0 := norm_sub_ne hAB
  rw [dist_rev] at hs ⊢
  refine ⟨_, by simp only [backPoint, f1, g1, Length.times, bind, Except.bind, pure, Except.pure]; rfl, ?_⟩
  have h1 := (g2.sub f2).divS (g2.sub f2).normN hne
  refine image_same hl (f2.add (p' := ⟨_, _, _⟩) (q' := ⟨(B.x - A.x) / (B - A).norm * l, (B.y - A.y) / (B - A).norm * m, 0⟩)
    ⟨h1.1.mul (is_fin l), h1.2.1.mul (is_fin m), (h1.2.2.mul (is_fin n)).congr (by simp [zA, zB])⟩ |>.congr ?_) hs true
  ext
  · simp; ring
  · simp; ring
  · simp [zA]

theorem FitPlot.run_fold {I : Type} (ops : List (Op I)) (l : List I × List I) (h : .clear ∉ ops) :
    (ops.foldl Op.run l).2 = l.2 ++ given ops := by
  induction ops generalizing l with
  | nil => simp [given]
  | cons o t ih =>
    have ht : .clear ∉ t := fun h' => h (List.mem_cons_of_mem _ h')
    rw [List.foldl_cons, ih _ ht]
    match o with
    | .add i true => simp [Op.run, given, ht]
    | .add i false => simp [Op.run, given, ht]
    | .custom i => simp [Op.run, given]
    | .clear => simp at h

/-- **C129** (partial: without `clearLogProbability`) All given information is drawn once, in the order of the calls, whether it is used for
fitting or `only_plot`. -/
theorem C129_shown_partial {I : Type} (ops : List (Op I)) (h : .clear ∉ ops) : (ops.foldl Op.run ([], [])).2 = given ops := by
  simpa using run_fold ops ([], []) h

/-- **C129 is violated** by `clearLogProbability`: it removes the terms, but everything is still drawn. -/
theorem C129_clear_violated {I : Type} (ops : List (Op I)) (h : .clear ∉ ops) :
    ((ops ++ [Op.clear]).foldl Op.run ([], [])).1 = [] ∧ ((ops ++ [Op.clear]).foldl Op.run ([], [])).2 = given ops ∧ given (ops ++ [Op.clear]) = [] := by
  refine ⟨by simp [Op.run], by simpa [Op.run] using C129_shown_partial ops h, ?_⟩
  induction ops with
  | nil => rfl
  | cons o t ih =>
    have ih := ih fun h' => h (List.mem_cons_of_mem _ h')
    cases o <;> simp [given] <;> exact ih

/-- **C129** The terms that are used for fitting are those given since the last `clearLogProbability`, without the ones that are only
plotted, in the order of the calls. -/
theorem C129_terms {I : Type} (ops : List (Op I)) : (ops.foldl Op.run ([], [])).1 = used ops := by
  have key : ∀ (ops : List (Op I)) (l : List I × List I), (ops.foldl Op.run l).1 = if .clear ∈ ops then used ops else l.1 ++ used ops := by
    intro ops
    induction ops with
    | nil => intro l; simp [used]
    | cons o t ih =>
      intro l
      rw [List.foldl_cons, ih]
      match o with
      | .add i true => by_cases h : Op.clear ∈ t <;> simp [Op.run, used, h]
      | .add i false => by_cases h : Op.clear ∈ t <;> simp [Op.run, used, h]
      | .custom i => by_cases h : Op.clear ∈ t <;> simp [Op.run, used, h]
      | .clear => by_cases h : Op.clear ∈ t <;> simp [Op.run, used, h]
  rw [key]
  simp

/-! Examples that meet the hypotheses. -/

theorem FitPlot.respects_none {L : Camera.Lens} (h : L = Camera.noDistortion) : Respects L := by
  subst h
  intro a b hab
  exact hab

theorem FitPlot.exampleStanding : Standing exampleCam
    ⟨imageFromSpace exampleCam (V3.num ⟨1, 2, 0⟩), imageFromSpace exampleCam (V3.num ⟨1, 2, 3⟩), 3⟩ :=
  ⟨1, 2, ⟨exampleCam_visible _ (by norm_num), exactFor_none rfl _ _, rfl⟩, rfl, Or.inl rfl, by simp [exampleCam, Orient.pos]⟩

theorem FitPlot.exampleLying : Lying exampleCam 0 (V3.dist ⟨1, 2, 0⟩ ⟨4, 6, 0⟩)
    (imageFromSpace exampleCam (V3.num ⟨1, 2, 0⟩), imageFromSpace exampleCam (V3.num ⟨4, 6, 0⟩)) :=
  ⟨⟨1, 2, 0⟩, ⟨4, 6, 0⟩, ⟨exampleCam_visible _ (by norm_num), exactFor_none rfl _ _, rfl⟩,
    ⟨exampleCam_visible _ (by norm_num), exactFor_none rfl _ _, rfl⟩, rfl, rfl, by simp [V3.ext_iff], rfl, Or.inl rfl,
    by simp [exampleCam, Orient.pos]⟩

example : ∃ d, FitPlot.heights exampleCam
      [⟨imageFromSpace exampleCam (V3.num ⟨1, 2, 0⟩), imageFromSpace exampleCam (V3.num ⟨1, 2, 3⟩), 3⟩] = .ok d ∧ d.Agrees := by
  obtain ⟨d, h1, -, -, h2⟩ := C129_heights exampleCam exampleCam_proper (respects_none rfl)
    [⟨imageFromSpace exampleCam (V3.num ⟨1, 2, 0⟩), imageFromSpace exampleCam (V3.num ⟨1, 2, 3⟩), 3⟩] (by simpa using exampleStanding)
  exact ⟨d, h1, h2⟩

example : ∃ d, FitPlot.lengths exampleCam [(imageFromSpace exampleCam (V3.num ⟨1, 2, 0⟩), imageFromSpace exampleCam (V3.num ⟨4, 6, 0⟩))] 0
      (.number (V3.dist ⟨1, 2, 0⟩ ⟨4, 6, 0⟩)) = .ok d ∧ d.Agrees := by
  obtain ⟨d, h1, -, -, h2⟩ := C129_lengths_partial exampleCam exampleCam_proper (respects_none rfl)
    [(imageFromSpace exampleCam (V3.num ⟨1, 2, 0⟩), imageFromSpace exampleCam (V3.num ⟨4, 6, 0⟩))] 0 _ _ (Or.inl rfl)
    (by intro r hr; rw [List.mem_singleton] at hr; subst hr; exact exampleLying)
  exact ⟨d, h1, h2⟩

/-- The expected back of an object that seems to be twice as long as it should be is in its middle. -/
example : ∃ q, backPoint exampleCam 0 (.number (1 / 2 * V3.dist ⟨1, 2, 0⟩ ⟨4, 6, 0⟩))
      (imageFromSpace exampleCam (V3.num ⟨1, 2, 0⟩), imageFromSpace exampleCam (V3.num ⟨4, 6, 0⟩)) = .ok q ∧
      V2.SameN (imageFromSpace exampleCam (V3.num ⟨5 / 2, 4, 0⟩)) q :=
  C129_predicted_back_partial exampleCam exampleCam_proper (respects_none rfl) 0 _ _ (Or.inl rfl) _ ⟨1, 2, 0⟩ ⟨4, 6, 0⟩ _
    ⟨exampleCam_visible _ (by norm_num), exactFor_none rfl _ _, rfl⟩ ⟨exampleCam_visible _ (by norm_num), exactFor_none rfl _ _, rfl⟩
    rfl rfl (by simp [exampleCam, Orient.pos]) (by simp [V3.ext_iff]) (1 / 2) (by ext <;> simp <;> norm_num) rfl (Or.inl rfl)

example : ∃ q, backPoint exampleCam 0 (.array [5, 6, 7])
      (imageFromSpace exampleCam (V3.num ⟨1, 2, 0⟩), imageFromSpace exampleCam (V3.num ⟨4, 6, 0⟩)) = .ok q ∧
      V2.SameN (imageFromSpace exampleCam (V3.num ⟨1 + 5 * (4 - 1) / V3.dist ⟨1, 2, 0⟩ ⟨4, 6, 0⟩,
        2 + 6 * (6 - 2) / V3.dist ⟨1, 2, 0⟩ ⟨4, 6, 0⟩, 0⟩)) q :=
  C129_three_violated exampleCam exampleCam_proper (respects_none rfl) 0 5 6 7 _ ⟨1, 2, 0⟩ ⟨4, 6, 0⟩
    ⟨exampleCam_visible _ (by norm_num), exactFor_none rfl _ _, rfl⟩ ⟨exampleCam_visible _ (by norm_num), exactFor_none rfl _ _, rfl⟩
    rfl rfl (by simp [exampleCam, Orient.pos]) (by simp [V3.ext_iff]) (Or.inl rfl)

example (q : V2 Num) : ∀ d, plotFitInformation exampleCam ([] ++ .lengths [(q, q), (q, q)] 0 (.array [1, 2]) :: []) ≠ .ok d :=
  C129_lengths_violated exampleCam [(q, q), (q, q)] 0 [1, 2] rfl (by simp) (by simp) [] []

example : ∃ ds, plotFitInformation exampleCam
      [.heights [⟨imageFromSpace exampleCam (V3.num ⟨1, 2, 0⟩), imageFromSpace exampleCam (V3.num ⟨1, 2, 3⟩), 3⟩],
        .landmarks [⟨imageFromSpace exampleCam (V3.num ⟨1, 2, 3⟩), V3.num ⟨1, 2, 3⟩, ⟨1, 1, 1⟩⟩]] =
      .ok (ds, (0, exampleCam.intr.w), (exampleCam.intr.h, 0)) := by
  obtain ⟨ds, h, -⟩ := C129_infos_partial exampleCam exampleCam_proper (respects_none rfl) 
      [.heights [⟨imageFromSpace exampleCam (V3.num ⟨1, 2, 0⟩), imageFromSpace exampleCam (V3.num ⟨1, 2, 3⟩), 3⟩],
        .landmarks [⟨imageFromSpace exampleCam (V3.num ⟨1, 2, 3⟩), V3.num ⟨1, 2, 3⟩, ⟨1, 1, 1⟩⟩]] (by
    intro i hi
    simp only [List.mem_cons, List.not_mem_nil, or_false] at hi
    rcases hi with rfl | rfl
    · intro r hr
      rw [List.mem_singleton] at hr
      subst hr
      exact exampleStanding
    · intro l hl
      rw [List.mem_singleton] at hl
      subst hl
      exact ⟨⟨1, 2, 3⟩, V3.is_num _, rfl, Or.inl rfl⟩)
  exact ⟨ds, h⟩

example : (([.add 1 false, .custom 2, .add 3 true] : List (Op ℕ)).foldl Op.run ([], [])).2 = [1, 3] :=
  (C129_shown_partial _ (by simp)).trans (by simp [given])

/-- The row of the horizon of the example camera in column 3 and the points on it. -/
example : ∃ (y : ℕ) (d : Drawing), FitPlot.horizon exampleCam [⟨3, y⟩] = .ok d ∧ d.Agrees := by
  obtain ⟨-, y, h, -⟩ := C81_horizon_real exampleCam exampleCam_proper 3 (by simp [exampleCam, Orient.pos]) (by simp [exampleCam])
    fun y _ => ⟨⟨3, y⟩, V2.is_num _⟩
  obtain ⟨d, h1, -, h2, -⟩ := C129_horizon exampleCam [⟨3, y⟩] (by
    intro p hp; rw [List.mem_singleton] at hp; subst hp; exact ⟨y, h, rfl⟩)
  exact ⟨y, d, h1, h2⟩

/-- **C129** (partial: any number of landmarks but two) Landmarks given by gps coordinates with heights are drawn like landmarks at the
positions that `spaceFromGPS` gives for each of them alone. -/
theorem C129_gps_partial (c : Cam) (lat lon : ℝ) (ls : List (GpsLandmark × Num)) (h : ∀ q ∈ ls, q.1.geo.h = some q.2) (hN : ls.length ≠ 2) :
    ∃ pos : GpsLandmark → V3 Num, (∀ q ∈ ls, Gps.cameraSpaceFromGPS lat lon (.one q.1.geo) = .ok [pos q.1]) ∧
      gpsLandmarks c lat lon (ls.map Prod.fst) = .ok (FitPlot.landmarks c (ls.map fun q => ⟨q.1.pixel, pos q.1, q.1.sigma⟩)) := by
  refine ⟨fun l => Gps.spaceRow ⟨fin lat, fin lon, none⟩ l.geo (l.geo.h.getD .nan), fun q hq => ?_, ?_⟩
  · have := h q hq
    simp [Gps.cameraSpaceFromGPS, Gps.spaceFromGPS, Gps.heights, Gps.Arr.len, Gps.Arr.rows, this, Gps.Pt.col2, bind, Except.bind,
      pure, Except.pure]
  · have hm : (ls.map fun q => q.1.geo).mapM Gps.Pt.col2 = .ok (ls.map Prod.snd) := by
      have := Gps.mapM_heights (ls.map fun q => (q.1.geo, q.2)) (by
        intro q hq
        obtain ⟨r, hr, rfl⟩ := List.mem_map.1 hq
        exact h r hr)
      simpa [List.map_map, Function.comp_def] using this
    unfold gpsLandmarks
    simp only [Gps.cameraSpaceFromGPS, Gps.spaceFromGPS, Gps.heights, Gps.Arr.len, Gps.Arr.rows, List.length_map, hN, if_false,
      List.map_map, Function.comp_def, hm, bind, Except.bind, pure, Except.pure]
    congr 2
    clear hm hN
    induction ls with
    | nil => rfl
    | cons a ls ih =>
      simp only [List.map_cons, List.zip_cons_cons, List.cons.injEq, h a (by simp), Option.getD_some, true_and]
      exact ih fun q hq => h q (by simp [hq])

/-- **C129 is violated** for two landmarks given by gps coordinates: they are drawn like landmarks on the ground. -/
theorem C129_gps_violated (c : Cam) (lat lon : ℝ) (l m : GpsLandmark) (a b : Num) (hl : l.geo.h = some a) (hm : m.geo.h = some b) :
    ∃ s t : V3 Num, Gps.cameraSpaceFromGPS lat lon (.one l.geo) = .ok [s] ∧ Gps.cameraSpaceFromGPS lat lon (.one m.geo) = .ok [t] ∧
      s.z = a ∧ t.z = b ∧ gpsLandmarks c lat lon [l, m] =
        .ok (FitPlot.landmarks c [⟨l.pixel, ⟨s.x, s.y, .fin 0⟩, l.sigma⟩, ⟨m.pixel, ⟨t.x, t.y, .fin 0⟩, m.sigma⟩]) := by
  obtain ⟨s, t, h1, h2, h3, h4, h5⟩ := C44_violated ⟨fin lat, fin lon, none⟩ l.geo m.geo a b hl hm
  refine ⟨s, t, h1, h2, h3, h4, ?_⟩
  unfold gpsLandmarks
  simp only [Gps.cameraSpaceFromGPS, List.map_cons, List.map_nil, h5, bind, Except.bind, pure, Except.pure]
  rfl

example (c : Cam) : ∃ pos : GpsLandmark → V3 Num,
    gpsLandmarks c 52 13 [⟨V2.num ⟨1, 2⟩, ⟨.fin 52, .fin 13, some (.fin 5)⟩, ⟨3, 3, 5⟩⟩] =
      .ok (FitPlot.landmarks c [⟨V2.num ⟨1, 2⟩, pos ⟨V2.num ⟨1, 2⟩, ⟨.fin 52, .fin 13, some (.fin 5)⟩, ⟨3, 3, 5⟩⟩, ⟨3, 3, 5⟩⟩]) := by
  obtain ⟨pos, -, h⟩ := C129_gps_partial c 52 13
    [(⟨V2.num ⟨1, 2⟩, ⟨.fin 52, .fin 13, some (.fin 5)⟩, ⟨3, 3, 5⟩⟩, .fin 5)] (by simp) (by simp)
  exact ⟨pos, h⟩

example (c : Cam) (l : GpsLandmark) (h : l.geo.h = some (.fin 100)) : ∃ s t : V3 Num, s.z = .fin 100 ∧
    gpsLandmarks c 52 13 [l, l] =
      .ok (FitPlot.landmarks c [⟨l.pixel, ⟨s.x, s.y, .fin 0⟩, l.sigma⟩, ⟨l.pixel, ⟨t.x, t.y, .fin 0⟩, l.sigma⟩]) := by
  obtain ⟨s, t, -, -, h3, -, h5⟩ := C129_gps_violated c 52 13 l l _ _ h h
  exact ⟨s, t, h3, h5⟩
