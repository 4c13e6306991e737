import Verif.Spec.Terms
import Verif.Proofs.TermsLandmark
import Verif.Props.View
import Verif.Props.Gps

/-! # Properties of the information terms (C105-C111) -/

open Classical Num Camera Terms

attribute [local irreducible] landmarkValues spread

/-! ### C105, C106, C107: heights and lengths -/

theorem Terms.log_density (m x : ℝ) {s : ℝ} (hs : 0 < s) : Real.log (density m s x) = top s - ((x - m) / s) ^ 2 / 2 := by
  have hp : 0 < Real.sqrt (2 * Real.pi) := Real.sqrt_pos.2 (by positivity)
  unfold density top
  rw [Real.log_div (Real.exp_ne_zero _) (mul_pos hs hp).ne', Real.log_exp, Real.log_mul hs.ne' hp.ne']
  field_simp
  ring

theorem Terms.scale_ok {v : Variation} {s : ℝ} (h : v = .number s ∨ v = .stochastic s) : v.scale = .ok s := by
  rcases h with rfl | rfl <;> rfl

theorem Terms.sum_is {α : Type} (l : List α) (f : α → Num) (g : α → ℝ) (h : ∀ x ∈ l, Num.Is (f x) (g x)) :
    Num.Is (Stat.npsum (l.map f)) (l.map g).sum := by
  induction l with
  | nil => simp [Stat.npsum]
  | cons x l ih => exact (h x (by simp)).add (ih fun y hy => h y (by simp [hy]))

/-- **C105** The height information adds up the logarithms of the normal densities at the measured heights. -/
theorem C105_height_density (c : Cam) (rows : List HeightRow) (v : Variation) (s : ℝ) (hs : 0 < s)
    (hv : v = .number s ∨ v = .stochastic s) (H : HeightRow → ℝ)
    (hH : ∀ r ∈ rows, ∃ h, getObjectHeight c r.feet r.head = .ok h ∧ Num.Is h (H r)) :
    ∃ t, heightTerm c rows v = .ok t ∧ Num.Is t (rows.map fun r => Real.log (density r.height s (H r))).sum := by
  refine ⟨_, heightTerm_eq c rows (scale_ok hv), sum_is _ _ _ fun r hr => ?_⟩
  obtain ⟨h, h1, h2⟩ := hH r hr
  rw [h1, log_density _ _ hs]
  exact logpdf_is (is_fin _) h2 hs

/-- **C105** The height information: there is a best value, no camera gets more, and a camera gets it exactly if it
measures the given heights. -/
theorem C105_height_best (rows : List HeightRow) (v : Variation) (s : ℝ) (hs : 0 < s)
    (hv : v = .number s ∨ v = .stochastic s) :
    ∃ best : ℝ, ∀ c : Cam, ∃ t, heightTerm c rows v = .ok t ∧ (t = .nan ∨ t ≤ .fin best) ∧
      (Num.Is t best ↔ ∀ r ∈ rows, ∃ H, getObjectHeight c r.feet r.head = .ok H ∧ Num.Is H r.height) := by
  refine ⟨(rows.map fun _ => top s).sum, fun c => ⟨_, heightTerm_eq c rows (scale_ok hv), ?_, ?_⟩⟩
  · exact npsum_below rows _ _ fun r _ => logpdf_below (is_fin _) hs _
  · rw [npsum_attains rows _ (fun _ => top s) fun r _ => logpdf_below (is_fin _) hs _]
    refine forall₂_congr fun r _ => ?_
    rw [logpdf_top (is_fin _) hs]
    exact ⟨fun h => ⟨_, height_ok c _ _ _, h⟩, fun ⟨H, h1, h2⟩ => by rw [h1]; exact h2⟩

theorem Terms.upright_fits (c : Cam) (hc : c.Proper) (r : HeightRow) (h : Upright c r) :
    ∃ H, getObjectHeight c r.feet r.head = .ok H ∧ Num.Is H r.height := by
  obtain ⟨x, y, ⟨v1, e1, p1⟩, ⟨v2, e2, p2⟩, hz, hx, hy⟩ := h
  have := C18_object_height_lens_partial c hc x y 0 r.height v1 (by rwa [zero_add]) hz.symm hx.symm hy.symm true e1
    (by rwa [zero_add])
  rw [zero_add] at this
  rw [p1, p2]
  exact this

/-- **C105** (partial: the objects differ from the camera in x and in y) A camera that sees upright objects of the given
heights gets at least as much as any other camera. -/
theorem C105_true_camera_partial (rows : List HeightRow) (v : Variation) (s : ℝ) (hs : 0 < s)
    (hv : v = .number s ∨ v = .stochastic s) (c : Cam) (hc : c.Proper) (h : ∀ r ∈ rows, Upright c r) :
    ∃ (t : Num) (b : ℝ), heightTerm c rows v = .ok t ∧ Num.Is t b ∧
      ∀ c' : Cam, ∃ t', heightTerm c' rows v = .ok t' ∧ (t' = .nan ∨ t' ≤ t) := by
  obtain ⟨best, hb⟩ := C105_height_best rows v s hs hv
  obtain ⟨t, h1, -, h3⟩ := hb c
  have ht : Num.Is t best := h3.2 fun r hr => upright_fits c hc r (h r hr)
  refine ⟨t, best, h1, ht, fun c' => ?_⟩
  obtain ⟨t', k1, k2, -⟩ := hb c'
  refine ⟨t', k1, k2.imp id fun k => ?_⟩
  by_cases hr : ∃ r, Num.Is t' r
  · obtain ⟨r, hr⟩ := hr
    exact (hr.le_iff ht).2 ((hr.le_iff (is_fin best)).1 k)
  · rcases not_fin_cases hr with rfl | rfl | rfl
    · exact absurd (Or.inr k) (not_below_pinf best)
    · refine ⟨by simp, ?_, ?_⟩
      · rintro rfl; exact ht
      · cases t <;> simp_all [Num.Is, Num.ext]
    · exact absurd rfl k.1

/-- **C105 violated** One object with the same x or the same y as the camera makes the term nan and the log probability
of the true camera minus infinity. -/
theorem C105_violated (c : Cam) (hc : c.Proper) (x y h : ℝ) (hfeet : Visible c ⟨x, y, 0⟩) (hhead : Visible c ⟨x, y, h⟩)
    (hL1 : ExactFor c ⟨x, y, 0⟩ true) (hL2 : ExactFor c ⟨x, y, h⟩ true) (hZ : c.orient.pos.z ≠ 0)
    (hxy : x = c.orient.pos.x ∨ y = c.orient.pos.y) (rows : List HeightRow) (v : Variation) (s : ℝ)
    (hv : v = .number s ∨ v = .stochastic s)
    (hr : ⟨imageFromSpace c (V3.num ⟨x, y, 0⟩), imageFromSpace c (V3.num ⟨x, y, h⟩), h⟩ ∈ rows) (others : List Num) :
    heightTerm c rows v = .ok .nan ∧ Stat.logProbability (.nan :: others) = .ninf := by
  have := C18_violated c hc x y 0 h hfeet (by rwa [zero_add]) hZ.symm hxy true hL1 (by rwa [zero_add])
  rw [zero_add] at this
  constructor
  · rw [heightTerm_eq c rows (scale_ok hv), npsum_nan]
    rw [List.mem_map]
    refine ⟨_, hr, ?_⟩
    simp only
    have e : getObjectHeight c (imageFromSpace c (V3.num ⟨x, y, 0⟩)) (imageFromSpace c (V3.num ⟨x, y, h⟩)) = .ok .nan := this
    rw [e]
    exact logpdf_nan _ _
  · unfold Stat.logProbability
    rw [npsum_nan (by simp)]
    simp

theorem Terms.exampleUpright : Upright exampleCam
    ⟨imageFromSpace exampleCam (V3.num ⟨1, 2, 0⟩), imageFromSpace exampleCam (V3.num ⟨1, 2, 3⟩), 3⟩ :=
  ⟨1, 2, ⟨exampleCam_visible _ (by norm_num), exactFor_none rfl _ _, rfl⟩,
    ⟨exampleCam_visible _ (by norm_num), exactFor_none rfl _ _, rfl⟩, by simp [exampleCam, Orient.pos],
    by simp [exampleCam, Orient.pos], by simp [exampleCam, Orient.pos]⟩

example : ∃ (t : Num) (b : ℝ), heightTerm exampleCam
      [⟨imageFromSpace exampleCam (V3.num ⟨1, 2, 0⟩), imageFromSpace exampleCam (V3.num ⟨1, 2, 3⟩), 3⟩] (.number 1) = .ok t ∧
      Num.Is t b ∧ ∀ c' : Cam, ∃ t', heightTerm c'
        [⟨imageFromSpace exampleCam (V3.num ⟨1, 2, 0⟩), imageFromSpace exampleCam (V3.num ⟨1, 2, 3⟩), 3⟩] (.number 1) = .ok t' ∧
          (t' = .nan ∨ t' ≤ t) :=
  C105_true_camera_partial _ _ 1 one_pos (Or.inl rfl) exampleCam exampleCam_proper (by simpa using exampleUpright)

/-- An object straight ahead of the example camera. -/
example : heightTerm exampleCam
    [⟨imageFromSpace exampleCam (V3.num ⟨0, 2, 0⟩), imageFromSpace exampleCam (V3.num ⟨0, 2, 3⟩), 3⟩] (.number 1) = .ok .nan :=
  (C105_violated exampleCam exampleCam_proper 0 2 3 (exampleCam_visible _ (by norm_num)) (exampleCam_visible _ (by norm_num))
    (exactFor_none rfl _ _) (exactFor_none rfl _ _) (by simp [exampleCam, Orient.pos]) (by simp [exampleCam, Orient.pos])
    _ _ 1 (Or.inl rfl) (by simp) []).1

/-- **C106** (partial: numbers and parameters only) A number and a parameter with the same value give the same terms. -/
theorem C106_variation_partial (c : Cam) (rows : List HeightRow) (flat : List LengthRow) (Z s : ℝ) :
    ∃ t u, heightTerm c rows (.number s) = .ok t ∧ heightTerm c rows (.stochastic s) = .ok t ∧
      lengthTerm c flat Z (.number s) = .ok u ∧ lengthTerm c flat Z (.stochastic s) = .ok u :=
  ⟨_, _, heightTerm_eq c rows rfl, heightTerm_eq c rows rfl, lengthTerm_eq c flat Z rfl, lengthTerm_eq c flat Z rfl⟩

/-- **C106 violated** Every array of standard deviations, a documented argument, makes the evaluation of the term raise an
AttributeError. -/
theorem C106_violated (c : Cam) (rows : List HeightRow) (flat : List LengthRow) (Z : ℝ) (s : List ℝ) :
    heightTerm c rows (.array s) = .error .attributeError ∧ lengthTerm c flat Z (.array s) = .error .attributeError :=
  ⟨rfl, rfl⟩

/-- **C107** The length information adds up the logarithms of the normal densities at the measured lengths. -/
theorem C107_length_density (c : Cam) (rows : List LengthRow) (Z : ℝ) (v : Variation) (s : ℝ) (hs : 0 < s)
    (hv : v = .number s ∨ v = .stochastic s) (L : LengthRow → ℝ)
    (hL : ∀ r ∈ rows, ∃ l, getObjectLength c r.front r.back (.fin Z) = .ok l ∧ Num.Is l (L r)) :
    ∃ t, lengthTerm c rows Z v = .ok t ∧ Num.Is t (rows.map fun r => Real.log (density r.length s (L r))).sum := by
  refine ⟨_, lengthTerm_eq c rows Z (scale_ok hv), sum_is _ _ _ fun r hr => ?_⟩
  obtain ⟨h, h1, h2⟩ := hL r hr
  rw [h1, log_density _ _ hs]
  exact logpdf_is (is_fin _) h2 hs

/-- **C107** The length information: there is a best value, no camera gets more, and a camera gets it exactly if it
measures the given lengths. -/
theorem C107_length_best (rows : List LengthRow) (Z : ℝ) (v : Variation) (s : ℝ) (hs : 0 < s)
    (hv : v = .number s ∨ v = .stochastic s) :
    ∃ best : ℝ, ∀ c : Cam, ∃ t, lengthTerm c rows Z v = .ok t ∧ (t = .nan ∨ t ≤ .fin best) ∧
      (Num.Is t best ↔ ∀ r ∈ rows, ∃ L, getObjectLength c r.front r.back (.fin Z) = .ok L ∧ Num.Is L r.length) := by
  refine ⟨(rows.map fun _ => top s).sum, fun c => ⟨_, lengthTerm_eq c rows Z (scale_ok hv), ?_, ?_⟩⟩
  · exact npsum_below rows _ _ fun r _ => logpdf_below (is_fin _) hs _
  · rw [npsum_attains rows _ (fun _ => top s) fun r _ => logpdf_below (is_fin _) hs _]
    refine forall₂_congr fun r _ => ?_
    rw [logpdf_top (is_fin _) hs]
    exact ⟨fun h => ⟨_, length_ok c _ _ _, h⟩, fun ⟨H, h1, h2⟩ => by rw [h1]; exact h2⟩

theorem Terms.flat_fits (c : Cam) (hc : c.Proper) (Z : ℝ) (r : LengthRow) (h : Flat c Z r) :
    ∃ L, getObjectLength c r.front r.back (.fin Z) = .ok L ∧ Num.Is L r.length := by
  obtain ⟨A, B, ⟨v1, e1, p1⟩, ⟨v2, e2, p2⟩, hA, hB, hd, hz⟩ := h
  rw [p1, p2, ← hd]
  exact C19_object_length_lens c hc A B Z hA hB hz.symm v1 v2 true e1 e2

/-- **C107** A camera that sees flat objects of the given lengths reaches the best value. -/
theorem C107_true_camera (rows : List LengthRow) (Z : ℝ) (v : Variation) (s : ℝ) (hs : 0 < s)
    (hv : v = .number s ∨ v = .stochastic s) (c : Cam) (hc : c.Proper) (h : ∀ r ∈ rows, Flat c Z r) :
    ∃ (t : Num) (best : ℝ), lengthTerm c rows Z v = .ok t ∧ Num.Is t best ∧
      ∀ c' : Cam, ∃ t', lengthTerm c' rows Z v = .ok t' ∧ (t' = .nan ∨ t' ≤ .fin best) := by
  obtain ⟨best, hb⟩ := C107_length_best rows Z v s hs hv
  obtain ⟨t, h1, -, h3⟩ := hb c
  refine ⟨t, best, h1, h3.2 fun r hr => flat_fits c hc Z r (h r hr), fun c' => ?_⟩
  obtain ⟨t', k1, k2, -⟩ := hb c'
  exact ⟨t', k1, k2⟩

theorem Terms.exampleFlat : Flat exampleCam 0
    ⟨imageFromSpace exampleCam (V3.num ⟨1, 2, 0⟩), imageFromSpace exampleCam (V3.num ⟨4, 6, 0⟩), V3.dist ⟨1, 2, 0⟩ ⟨4, 6, 0⟩⟩ :=
  ⟨⟨1, 2, 0⟩, ⟨4, 6, 0⟩, ⟨exampleCam_visible _ (by norm_num), exactFor_none rfl _ _, rfl⟩,
    ⟨exampleCam_visible _ (by norm_num), exactFor_none rfl _ _, rfl⟩, rfl, rfl, rfl, by simp [exampleCam, Orient.pos]⟩

example : ∃ (t : Num) (best : ℝ), lengthTerm exampleCam [⟨imageFromSpace exampleCam (V3.num ⟨1, 2, 0⟩),
      imageFromSpace exampleCam (V3.num ⟨4, 6, 0⟩), V3.dist ⟨1, 2, 0⟩ ⟨4, 6, 0⟩⟩] 0 (.number 1) = .ok t ∧ Num.Is t best := by
  obtain ⟨t, b, h1, h2, -⟩ := C107_true_camera (Z := 0) (v := .number 1) (s := 1) one_pos (Or.inl rfl) (c := exampleCam) exampleCam_proper
    (rows := [⟨imageFromSpace exampleCam (V3.num ⟨1, 2, 0⟩), imageFromSpace exampleCam (V3.num ⟨4, 6, 0⟩),
      V3.dist ⟨1, 2, 0⟩ ⟨4, 6, 0⟩⟩]) (by simpa using exampleFlat)
  exact ⟨t, b, h1, h2⟩

/-! ### C108: landmarks -/

/-- The unit direction of the ray of a pixel, and the vector it comes from. -/
theorem Terms.ray_unit (c : Cam) (hc : c.Proper) {q : V2 Num} {p : V2 ℝ} (hp : (c.lens.imageFromDistorted q).Is p) :
    (getRay c q true).2.Is ((dirR c p).mulS (1 / (dirR c p).norm)) ∧ (getRay c q).2.Is (dirR c p) ∧
      ((dirR c p).mulS (1 / (dirR c p).norm)).norm = 1 := by
  obtain ⟨s, h0, -, h2, h3⟩ := getRay_dir c hc.1 hc.2 hp true
  obtain ⟨s', -, k1, -, k3⟩ := getRay_dir c hc.1 hc.2 hp false
  have hn := dirR_norm_pos c p
  refine ⟨h2 rfl ▸ h3, k3.congr (by rw [k1 rfl]; ext <;> simp), ?_⟩
  have : ((dirR c p).mulS (1 / (dirR c p).norm)).normSq = 1 := by
    have e := V3.norm_sq (dirR c p)
    have : ((dirR c p).mulS (1 / (dirR c p).norm)).normSq = (dirR c p).normSq * (1 / (dirR c p).norm) ^ 2 := by
      simp only [V3.normSq, V3.mulS_x, V3.mulS_y, V3.mulS_z]; ring
    rw [this, ← e]; field_simp
  rw [V3.norm, this, Real.sqrt_one]

theorem Terms.miss_zero {C D P : V3 ℝ} (hD : 0 < D.norm) :
    (miss C (D.mulS (1 / D.norm)) P).normSq = 0 ↔ ∃ u : ℝ, 0 ≤ u ∧ P = D.mulS u + C := by
  rw [V3.normSq_eq_zero]
  constructor
  · intro h
    refine ⟨|(D.mulS (1 / D.norm)).dot (P - C)| / D.norm, by positivity, ?_⟩
    have hx := congrArg V3.x h; have hy := congrArg V3.y h; have hz := congrArg V3.z h
    simp only [miss, V3.sub_x, V3.sub_y, V3.sub_z, V3.add_x, V3.add_y, V3.add_z, V3.mulS_x, V3.mulS_y, V3.mulS_z] at hx hy hz
    ext
    · simp only [V3.add_x, V3.mulS_x]; rw [sub_eq_zero] at hx; rw [hx]; ring_nf
    · simp only [V3.add_y, V3.mulS_y]; rw [sub_eq_zero] at hy; rw [hy]; ring_nf
    · simp only [V3.add_z, V3.mulS_z]; rw [sub_eq_zero] at hz; rw [hz]; ring_nf
  · rintro ⟨u, hu, rfl⟩
    have e := V3.norm_sq D
    have : (D.mulS (1 / D.norm)).dot (D.mulS u + C - C) = u * D.norm := by
      have : (D.mulS (1 / D.norm)).dot (D.mulS u + C - C) = D.normSq * u / D.norm := by
        simp only [V3.dot, V3.normSq, V3.sub_x, V3.sub_y, V3.sub_z, V3.add_x, V3.add_y, V3.add_z, V3.mulS_x, V3.mulS_y, V3.mulS_z]
        ring
      rw [this, ← e]; field_simp
    unfold miss
    rw [this, abs_of_nonneg (by positivity)]
    ext <;> simp <;> field_simp <;> ring

/-- The value of a landmark with the same uncertainty in all directions. -/
theorem Terms.landmark_round {C d P : V3 ℝ} {s : ℝ} (h1 : d.norm = 1) (offset : ℝ) :
    landmarkReal C d P ⟨s, s, s⟩ offset =
      1000 * (3 * top s - (miss C d P).normSq / s ^ 2 / 2) - spread offset / s ^ 2 / 2 := by
  have e := V3.norm_sq d
  rw [h1] at e
  unfold landmarkReal
  simp only [div_pow]
  have : d.x ^ 2 / s ^ 2 + d.y ^ 2 / s ^ 2 + d.z ^ 2 / s ^ 2 = 1 / s ^ 2 := by
    rw [← add_div, ← add_div]; congr 1; simp only [V3.normSq] at e; linarith
  rw [this]
  have : (miss C d P).x ^ 2 / s ^ 2 + (miss C d P).y ^ 2 / s ^ 2 + (miss C d P).z ^ 2 / s ^ 2 = (miss C d P).normSq / s ^ 2 := by
    rw [← add_div, ← add_div]; rfl
  rw [this]; ring

/-- What one landmark with the same uncertainty in all directions can reach. -/
theorem Terms.landmark_one (l : Landmark) (hl : Round l) (offset : ℝ) :
    ∃ best : ℝ, ∀ c : Cam, c.Proper → Sighted c l.pixel →
      (.nan ∈ landmarkValues c offset l ∧ ¬ ∃ P : V3 ℝ, l.pos.Is P ∧ OnSight c l.pixel P) ∨
      ∃ v : ℝ, Num.Is (Stat.npsum (landmarkValues c offset l)) v ∧ v ≤ best ∧
        (v = best ↔ ∃ P : V3 ℝ, l.pos.Is P ∧ OnSight c l.pixel P) := by
  obtain ⟨⟨P, hP⟩, s, hs, es⟩ := hl
  refine ⟨1000 * (3 * top s) - spread offset / s ^ 2 / 2, fun c hc hq => ?_⟩
  rcases hq with ⟨p, hp⟩ | hq
  · right
    obtain ⟨r1, r2, r3⟩ := ray_unit c hc hp
    have key := landmarkValues_is c offset l r1 r3 hP (by rw [es]; exact hs) (by rw [es]; exact hs) (by rw [es]; exact hs)
    rw [es, landmark_round r3] at key
    refine ⟨_, key, ?_, ?_⟩
    · have := V3.normSq_nonneg (miss c.orient.pos ((dirR c p).mulS (1 / (dirR c p).norm)) P)
      have : 0 ≤ (miss c.orient.pos ((dirR c p).mulS (1 / (dirR c p).norm)) P).normSq / s ^ 2 := by positivity
      linarith
    · have hm := miss_zero (C := c.orient.pos) (P := P) (dirR_norm_pos c p)
      constructor
      · intro h
        have h0 : (miss c.orient.pos ((dirR c p).mulS (1 / (dirR c p).norm)) P).normSq / s ^ 2 = 0 := by linarith
        have h0 : (miss c.orient.pos ((dirR c p).mulS (1 / (dirR c p).norm)) P).normSq = 0 := by
          rcases div_eq_zero_iff.1 h0 with h | h
          · exact h
          · exact absurd h (by positivity)
        exact ⟨P, hP, _, r2, hm.1 h0⟩
      · rintro ⟨P', hP', d, hd, u, hu, e⟩
        have hPP : P' = P := hP'.unique hP
        have hdd : d = dirR c p := hd.unique r2
        subst hPP hdd
        rw [hm.2 ⟨u, hu, e⟩]; ring
  · left
    refine ⟨landmarkValues_nan c offset l hq, ?_⟩
    rintro ⟨P', -, d, hd, -⟩
    have : (getRay c l.pixel).2 = V3.nan := by
      unfold getRay
      rw [hq]
      have : Projection.getRay c.kind c.intr V2.nan false = V3.nan ∨ (Projection.getRay c.kind c.intr V2.nan false).x = .nan := by
        right
        cases c.kind <;>
          simp [Projection.getRay, Projection.getRayRect, Projection.getRayCyl, Projection.getRayEqui, Projection.normRay,
            V2.nan, Num.sin, Num.cos, Num.tan]
      rcases this with this | this
      · rw [this]; simp [Spatial.spaceFromCamera, V3.nan, M3.apply, V3.dot]
      · simp [Spatial.spaceFromCamera, V3.nan, M3.apply, V3.dot, this]
    rw [this] at hd
    exact hd.1

/-- **C108** (partial: the same uncertainty in all directions) The landmark information: there is a best value, no camera
gets more, and a camera gets it exactly if all landmarks lie on the rays of their pixels, in the direction of view. -/
theorem C108_landmark_best_partial (ls : List Landmark) (hl : ∀ l ∈ ls, Round l) :
    ∃ best : ℝ, ∀ c : Cam, c.Proper → (∀ l ∈ ls, Sighted c l.pixel) →
      (landmarkTerm c ls = .nan ∨ landmarkTerm c ls ≤ .fin best) ∧
      (Num.Is (landmarkTerm c ls) best ↔ ∀ l ∈ ls, ∃ P : V3 ℝ, l.pos.Is P ∧ OnSight c l.pixel P) := by
  unfold landmarkTerm
  generalize maxSigma (ls.map Landmark.sigma) = offset
  choose! best hb using fun (l : Landmark) (h : Round l) => landmark_one l h offset
  refine ⟨(ls.map best).sum, fun c hc hs => ?_⟩
  by_cases hn : ∃ l ∈ ls, .nan ∈ landmarkValues c offset l ∧ ¬ ∃ P : V3 ℝ, l.pos.Is P ∧ OnSight c l.pixel P
  · obtain ⟨l, h1, h2, h3⟩ := hn
    rw [npsum_nan (List.mem_flatMap.2 ⟨l, h1, h2⟩)]
    exact ⟨Or.inl rfl, fun h => h.elim, fun h => absurd (h l h1) h3⟩
  · have hv : ∀ l, ∃ v : ℝ, l ∈ ls → Num.Is (Stat.npsum (landmarkValues c offset l)) v ∧ v ≤ best l ∧
        (v = best l ↔ ∃ P : V3 ℝ, l.pos.Is P ∧ OnSight c l.pixel P) := by
      intro l
      by_cases h : l ∈ ls
      · rcases hb l (hl l h) c hc (hs l h) with k | ⟨v, k⟩
        · exact absurd ⟨l, h, k⟩ hn
        · exact ⟨v, fun _ => k⟩
      · exact ⟨0, fun k => absurd k h⟩
    choose v hv using hv
    have key := npsum_flatMap ls (landmarkValues c offset) v fun l h => (hv l h).1
    obtain ⟨h1, h2⟩ := sum_attains ls v best fun l h => (hv l h).2.1
    refine ⟨below_is key h1, ?_⟩
    have : Num.Is (Stat.npsum (ls.flatMap (landmarkValues c offset))) (ls.map best).sum ↔ (ls.map v).sum = (ls.map best).sum :=
      ⟨fun h => key.unique h, fun h => key.congr h⟩
    rw [this, h2]
    exact forall₂_congr fun l h => (hv l h).2.2

/-- **C108** The points tried on the rays reach, on both sides, twice the largest of all the uncertainties. -/
theorem C108_reach (ls : List Landmark) (hne : ls ≠ []) :
    ∃ M, IsGreatest {x : ℝ | ∃ l ∈ ls, x = l.sigma.x ∨ x = l.sigma.y ∨ x = l.sigma.z} M ∧
      (∀ c, landmarkTerm c ls = Stat.npsum (ls.flatMap (landmarkValues c M))) ∧ sampled M 0 = -2 * M ∧ sampled M 999 = 2 * M := by
  have key : ∀ ss : List (V3 ℝ), ss ≠ [] → IsGreatest {x : ℝ | ∃ s ∈ ss, x = s.x ∨ x = s.y ∨ x = s.z} (maxSigma ss) := by
    intro ss
    induction ss with
    | nil => intro h; exact absurd rfl h
    | cons s t ih =>
      intro _
      have h3 : max s.x (max s.y s.z) = s.x ∨ max s.x (max s.y s.z) = s.y ∨ max s.x (max s.y s.z) = s.z := by
        rcases max_choice s.x (max s.y s.z) with h | h
        · exact Or.inl h
        · rcases max_choice s.y s.z with h' | h'
          · exact Or.inr (Or.inl (h.trans h'))
          · exact Or.inr (Or.inr (h.trans h'))
      have hle : ∀ x, (x = s.x ∨ x = s.y ∨ x = s.z) → x ≤ max s.x (max s.y s.z) := by
        rintro x (rfl | rfl | rfl) <;> simp
      cases t with
      | nil =>
        refine ⟨⟨s, by simp, h3⟩, ?_⟩
        rintro x ⟨s', hs', hx⟩
        rw [List.mem_singleton] at hs'
        subst hs'
        exact hle x hx
      | cons s' t' =>
        obtain ⟨i1, i2⟩ := ih (by simp)
        show IsGreatest _ (max (max s.x (max s.y s.z)) (maxSigma (s' :: t')))
        constructor
        · rcases max_choice (max s.x (max s.y s.z)) (maxSigma (s' :: t')) with h | h
          · rw [h]; exact ⟨s, by simp, h3⟩
          · rw [h]
            obtain ⟨r, hr, e⟩ := i1
            exact ⟨r, List.mem_cons_of_mem _ hr, e⟩
        · rintro x ⟨r, hr, hx⟩
          rcases List.mem_cons.1 hr with rfl | hr
          · exact (hle x hx).trans (le_max_left _ _)
          · exact (i2 ⟨r, hr, hx⟩).trans (le_max_right _ _)
  refine ⟨maxSigma (ls.map Landmark.sigma), ?_, fun c => rfl, by simp [sampled], by unfold sampled; push_cast; ring⟩
  have := key (ls.map Landmark.sigma) (by simpa using hne)
  simpa using this

example : ∃ ls : List Landmark, ls ≠ [] := ⟨[⟨⟨.fin 0, .fin 0⟩, ⟨.fin 0, .fin 0, .fin 0⟩, ⟨1, 2, 3⟩⟩], by simp⟩

theorem Terms.sees_onSight (c : Cam) (hc : c.Proper) {P : V3 ℝ} {q : V2 Num} (h : Sees c P q) : OnSight c q P := by
  obtain ⟨h1, h2, rfl⟩ := h
  obtain ⟨p, k1, k2⟩ := space_of_image c hc (V3.is_num P) h1 true
  obtain ⟨u, hu, e, hd⟩ := k2 (h2 p k1)
  exact ⟨_, hd, u, hu.le, e⟩

theorem Terms.sees_sighted (c : Cam) (hc : c.Proper) {P : V3 ℝ} {q : V2 Num} (h : Sees c P q) : Sighted c q := by
  obtain ⟨h1, h2, rfl⟩ := h
  obtain ⟨p, k1, -⟩ := space_of_image c hc (V3.is_num P) h1 true
  exact Or.inl ⟨p, h2 p k1 _ k1⟩

/-- **C108** (partial: the same uncertainty in all directions) A camera that sees the landmarks in their pixels reaches the
best value. -/
theorem C108_true_camera_partial (ls : List Landmark) (hl : ∀ l ∈ ls, Round l) (c : Cam) (hc : c.Proper)
    (h : ∀ l ∈ ls, ∃ P : V3 ℝ, l.pos.Is P ∧ Sees c P l.pixel) :
    ∃ best : ℝ, Num.Is (landmarkTerm c ls) best ∧
      ∀ c' : Cam, c'.Proper → (∀ l ∈ ls, Sighted c' l.pixel) → landmarkTerm c' ls = .nan ∨ landmarkTerm c' ls ≤ .fin best := by
  obtain ⟨best, hb⟩ := C108_landmark_best_partial ls hl
  exact ⟨best, (hb c hc fun l k => let ⟨_, _, q⟩ := h l k; sees_sighted c hc q).2.2 fun l k => (h l k).imp fun P q => ⟨q.1, sees_onSight c hc q.2⟩, fun c' h1 h2 => (hb c' h1 h2).1⟩

/-- A camera that looks east, seen in the pixel `q`. -/
noncomputable def Terms.eastCam (q : V2 ℝ) (C : V3 ℝ) : Cam :=
  ⟨.rectilinear, ⟨1, 1, q.x, q.y, 1, 1⟩, .thr ⟨C.z, 90, 0, 90, C.x, C.y⟩, noDistortion⟩

/-- A camera that looks straight down in the pixel `q`. -/
noncomputable def Terms.downCam (q : V2 ℝ) (C : V3 ℝ) : Cam :=
  ⟨.rectilinear, ⟨1, 1, q.x, q.y, 1, 1⟩, .thr ⟨C.z, 0, 0, 0, C.x, C.y⟩, noDistortion⟩

theorem Terms.eastCam_dir (q : V2 ℝ) (C : V3 ℝ) : dirR (eastCam q C) q = ⟨1, 0, 0⟩ ∧ (eastCam q C).orient.pos = C := by
  have hw : Spatial.wrap360 90 = 90 := by norm_num [Spatial.wrap360]
  have hr : Spatial.rad 0 = 0 := by simp [Spatial.rad]
  have hr' : Spatial.rad 90 = Real.pi / 2 := by unfold Spatial.rad; ring
  refine ⟨?_, rfl⟩
  ext <;> simp [dirR, eastCam, Orient.mat, Spatial.initCameraMatrix, Spatial.matrices, hw, hr, hr', Projection.rayR,
    M3.applyR, V3.dot, Spatial.rotation, M3.mul, M3.rowMul, M3.T, Spatial.R_roll, Spatial.R_tilt, Spatial.R_head]

theorem Terms.downCam_dir (q : V2 ℝ) (C : V3 ℝ) : dirR (downCam q C) q = ⟨0, 0, -1⟩ ∧ (downCam q C).orient.pos = C := by
  have hw : Spatial.wrap360 0 = 0 := by simp [Spatial.wrap360]
  have hr : Spatial.rad 0 = 0 := by simp [Spatial.rad]
  refine ⟨?_, rfl⟩
  ext <;> simp [dirR, downCam, Orient.mat, Spatial.initCameraMatrix, Spatial.matrices, hw, hr, Projection.rayR,
    M3.applyR, V3.dot, Spatial.rotation, M3.mul, M3.rowMul, M3.T, Spatial.R_roll, Spatial.R_tilt, Spatial.R_head]

theorem Terms.landmarkTerm_one (c : Cam) (l : Landmark) :
    landmarkTerm c [l] = Stat.npsum (landmarkValues c (max l.sigma.x (max l.sigma.y l.sigma.z)) l) := by
  simp [landmarkTerm, maxSigma]

/-- **C108 violated** For every landmark with a larger uncertainty in z than in x (as the documented [3, 3, 5]), a camera
that sees the landmark exactly in its pixel gets less than some camera that does not. -/
theorem C108_violated (l : Landmark) (q : V2 ℝ) (P : V3 ℝ) (hq : l.pixel.Is q) (hP : l.pos.Is P) (sx : 0 < l.sigma.x)
    (sy : 0 < l.sigma.y) (hxz : l.sigma.x < l.sigma.z) :
    ∃ c c' : Cam, c.Proper ∧ c'.Proper ∧ OnSight c l.pixel P ∧ ¬ OnSight c' l.pixel P ∧
      landmarkTerm c [l] < landmarkTerm c' [l] := by
  have sz : 0 < l.sigma.z := sx.trans hxz
  set o := max l.sigma.x (max l.sigma.y l.sigma.z) with ho
  have hS := spread_pos (o := o) (lt_of_lt_of_le sx (le_max_left _ _))
  set k := 1 / l.sigma.x ^ 2 - 1 / l.sigma.z ^ 2 with hk
  have hk0 : 0 < k := by
    have h1 : l.sigma.x ^ 2 < l.sigma.z ^ 2 := by nlinarith
    have := one_div_lt_one_div_of_lt (by positivity : (0 : ℝ) < l.sigma.x ^ 2) h1
    rw [hk]; linarith
  set e := Real.sqrt (spread o * k * l.sigma.x ^ 2 / 2000) with he
  have he0 : 0 < e := Real.sqrt_pos.2 (by positivity)
  have he2 : e ^ 2 = spread o * k * l.sigma.x ^ 2 / 2000 := Real.sq_sqrt (by positivity)
  set C : V3 ℝ := ⟨P.x - 10, P.y, P.z⟩ with hC
  set C' : V3 ℝ := ⟨P.x + e, P.y, P.z + 10⟩ with hC'
  have p1 : (eastCam q C).Proper := ⟨one_ne_zero, one_ne_zero⟩
  have p2 : (downCam q C').Proper := ⟨one_ne_zero, one_ne_zero⟩
  obtain ⟨d1, o1⟩ := eastCam_dir q C
  obtain ⟨d2, o2⟩ := downCam_dir q C'
  obtain ⟨r1, r2, r3⟩ := ray_unit (eastCam q C) p1 (show ((eastCam q C).lens.imageFromDistorted l.pixel).Is q from hq)
  obtain ⟨t1, t2, t3⟩ := ray_unit (downCam q C') p2 (show ((downCam q C').lens.imageFromDistorted l.pixel).Is q from hq)
  rw [d1] at r1 r2 r3
  rw [d2] at t1 t2 t3
  have n1 : (⟨1, 0, 0⟩ : V3 ℝ).norm = 1 := by simp [V3.norm, V3.normSq]
  have n2 : (⟨0, 0, -1⟩ : V3 ℝ).norm = 1 := by simp [V3.norm, V3.normSq]
  have u1 : (⟨1, 0, 0⟩ : V3 ℝ).mulS (1 / (⟨1, 0, 0⟩ : V3 ℝ).norm) = ⟨1, 0, 0⟩ := by rw [n1]; ext <;> simp
  have u2 : (⟨0, 0, -1⟩ : V3 ℝ).mulS (1 / (⟨0, 0, -1⟩ : V3 ℝ).norm) = ⟨0, 0, -1⟩ := by rw [n2]; ext <;> simp
  rw [u1] at r1 r3
  rw [u2] at t1 t3
  have v1 := landmarkValues_is (eastCam q C) o l r1 r3 hP sx sy sz
  have v2 := landmarkValues_is (downCam q C') o l t1 t3 hP sx sy sz
  rw [o1] at v1
  rw [o2] at v2
  have m1 : miss C ⟨1, 0, 0⟩ P = ⟨0, 0, 0⟩ := by
    ext <;> simp [miss, hC, V3.dot]
  have m2 : miss C' ⟨0, 0, -1⟩ P = ⟨-e, 0, 0⟩ := by
    ext <;> simp [miss, hC', V3.dot]
  refine ⟨eastCam q C, downCam q C', p1, p2, ⟨_, r2, 10, by norm_num, ?_⟩, ?_, ?_⟩
  · rw [o1]; ext <;> simp [hC]
  · rintro ⟨d, hd, u, -, hu⟩
    have := hd.unique t2
    subst this
    rw [o2] at hu
    have := congrArg V3.x hu
    simp [hC'] at this
    exact he0.ne' this
  · rw [landmarkTerm_one, landmarkTerm_one, ← ho, v1.lt_iff v2]
    unfold landmarkReal
    rw [m1, m2]
    simp only [zero_div, ne_eq, OfNat.ofNat_ne_zero, not_false_eq_true, zero_pow, div_pow, neg_sq, he2, one_pow]
    have h3 : spread o * k * l.sigma.x ^ 2 / 2000 / l.sigma.x ^ 2 = spread o * k / 2000 := by field_simp
    rw [h3]
    have : 0 < spread o * k := by positivity
    have e1 : spread o * (1 / l.sigma.x ^ 2) = spread o * k + spread o * (1 / l.sigma.z ^ 2) := by rw [hk]; ring
    simp only [add_zero, zero_add]
    linarith

/-- The uncertainties of the documentation. -/
example : ∃ c c' : Cam, c.Proper ∧ c'.Proper ∧ OnSight c (V2.num ⟨50, 25⟩) ⟨1, 2, 3⟩ ∧ ¬ OnSight c' (V2.num ⟨50, 25⟩) ⟨1, 2, 3⟩ ∧
    landmarkTerm c [⟨V2.num ⟨50, 25⟩, V3.num ⟨1, 2, 3⟩, ⟨3, 3, 5⟩⟩] < landmarkTerm c' [⟨V2.num ⟨50, 25⟩, V3.num ⟨1, 2, 3⟩, ⟨3, 3, 5⟩⟩] :=
  C108_violated ⟨V2.num ⟨50, 25⟩, V3.num ⟨1, 2, 3⟩, ⟨3, 3, 5⟩⟩ _ _ (V2.is_num _) (V3.is_num _) (by norm_num) (by norm_num) (by norm_num)

/-! ### C109: landmarks given by gps coordinates -/

/-- **C109** (partial: any number of landmarks but two) Landmarks given by gps coordinates with heights count like landmarks
at the positions that `spaceFromGPS` gives for each of them alone. -/
theorem C109_gps_landmarks_partial (c : Cam) (lat lon : ℝ) (ls : List (GpsLandmark × Num))
    (h : ∀ q ∈ ls, q.1.geo.h = some q.2) (hN : ls.length ≠ 2) :
    ∃ pos : GpsLandmark → V3 Num,
      (∀ q ∈ ls, Gps.cameraSpaceFromGPS lat lon (.one q.1.geo) = .ok [pos q.1]) ∧
      gpsLandmarkTerm c lat lon (ls.map Prod.fst) =
        .ok (landmarkTerm c (ls.map fun q => ⟨q.1.pixel, pos q.1, q.1.sigma⟩)) := by
  refine ⟨fun l => Gps.spaceRow ⟨fin lat, fin lon, none⟩ l.geo (l.geo.h.getD .nan), fun q hq => ?_, ?_⟩
  · have := h q hq
    simp [Gps.cameraSpaceFromGPS, Gps.spaceFromGPS, Gps.heights, Gps.Arr.len, Gps.Arr.rows, this, Gps.Pt.col2, bind, Except.bind,
      pure, Except.pure]
  · have hm : (ls.map fun q => q.1.geo).mapM Gps.Pt.col2 = .ok (ls.map Prod.snd) := by
      have := Gps.mapM_heights (ls.map fun q => (q.1.geo, q.2)) (by
        intro q hq
        obtain ⟨r, hr, rfl⟩ := List.mem_map.1 hq
        exact h r hr)
      simpa [List.map_map, Function.comp_def] using this
    unfold gpsLandmarkTerm
    simp only [Gps.cameraSpaceFromGPS, Gps.spaceFromGPS, Gps.heights, Gps.Arr.len, Gps.Arr.rows, List.length_map, hN, if_false,
      List.map_map, Function.comp_def, hm, bind, Except.bind, pure, Except.pure]
    congr 2
    clear hm hN
    induction ls with
    | nil => rfl
    | cons a ls ih =>
      simp only [List.map_cons, List.zip_cons_cons, List.cons.injEq, h a (by simp), Option.getD_some, true_and]
      exact ih fun q hq => h q (by simp [hq])

/-- **C109 violated** The heights of two landmarks are ignored: they count like landmarks on the ground, whatever heights
are given. -/
theorem C109_violated (c : Cam) (lat lon : ℝ) (l m : GpsLandmark) (a b : Num) (hl : l.geo.h = some a) (hm : m.geo.h = some b) :
    ∃ s t : V3 Num, Gps.cameraSpaceFromGPS lat lon (.one l.geo) = .ok [s] ∧ Gps.cameraSpaceFromGPS lat lon (.one m.geo) = .ok [t] ∧
      s.z = a ∧ t.z = b ∧
      gpsLandmarkTerm c lat lon [l, m] =
        .ok (landmarkTerm c [⟨l.pixel, ⟨s.x, s.y, .fin 0⟩, l.sigma⟩, ⟨m.pixel, ⟨t.x, t.y, .fin 0⟩, m.sigma⟩]) := by
  obtain ⟨s, t, h1, h2, h3, h4, h5⟩ := C44_violated ⟨fin lat, fin lon, none⟩ l.geo m.geo a b hl hm
  refine ⟨s, t, h1, h2, h3, h4, ?_⟩
  unfold gpsLandmarkTerm
  simp only [Gps.cameraSpaceFromGPS, List.map_cons, List.map_nil, h5, bind, Except.bind, pure, Except.pure]
  rfl

example (c : Cam) : ∃ pos : GpsLandmark → V3 Num,
    gpsLandmarkTerm c 52 13 [⟨V2.num ⟨1, 2⟩, ⟨.fin 52, .fin 13, some (.fin 5)⟩, ⟨3, 3, 5⟩⟩] =
      .ok (landmarkTerm c [⟨V2.num ⟨1, 2⟩, pos ⟨V2.num ⟨1, 2⟩, ⟨.fin 52, .fin 13, some (.fin 5)⟩, ⟨3, 3, 5⟩⟩, ⟨3, 3, 5⟩⟩]) := by
  obtain ⟨pos, -, h⟩ := C109_gps_landmarks_partial c 52 13
    [(⟨V2.num ⟨1, 2⟩, ⟨.fin 52, .fin 13, some (.fin 5)⟩, ⟨3, 3, 5⟩⟩, .fin 5)] (by simp) (by simp)
  exact ⟨pos, h⟩

example (c : Cam) (l : GpsLandmark) (h : l.geo.h = some (.fin 100)) : ∃ s : V3 Num, s.z = .fin 100 ∧
    gpsLandmarkTerm c 52 13 [l, l] =
      .ok (landmarkTerm c [⟨l.pixel, ⟨s.x, s.y, .fin 0⟩, l.sigma⟩, ⟨l.pixel, ⟨s.x, s.y, .fin 0⟩, l.sigma⟩]) := by
  obtain ⟨s, t, h1, h2, h3, -, h5⟩ := C109_violated c 52 13 l l _ _ h h
  have : s = t := by rw [h1] at h2; simpa using h2
  subst this
  exact ⟨s, h3, h5⟩

/-! ### C110: the horizon -/

theorem Terms.horizonTerm_eq (c : Cam) (ps : List (V2 ℝ)) (u : ℝ) :
    ∃ row : ℝ → Option ℕ, (∀ x, View.horizonRow c x = .ok (row x)) ∧
      horizonTerm c ps u = .ok (Stat.npsum (ps.map fun p => logpdf (.fin 0) u (match row p.x with
        | some y => Num.fin p.y - .fin (y : ℝ)
        | none => .nan))) := by
  obtain ⟨row, h1, h2⟩ := C81_all_x c (some (ps.map V2.x))
  refine ⟨row, h1, ?_⟩
  unfold horizonTerm
  rw [h2]
  simp only [bind, Except.bind, pure, Except.pure]
  congr 2
  clear h2
  induction ps with
  | nil => rfl
  | cons p ps ih => simp only [List.map_cons, List.zipWith_cons_cons, ih]; cases row p.x <;> rfl

/-- **C110** The horizon information: there is a best value, no camera gets more, and a camera gets it exactly if
`getImageHorizon` gives the observed rows. -/
theorem C110_horizon_best (ps : List (V2 ℝ)) (u : ℝ) (hu : 0 < u) :
    ∃ best : ℝ, ∀ c : Cam, ∃ t, horizonTerm c ps u = .ok t ∧ (t = .nan ∨ t ≤ .fin best) ∧
      (Num.Is t best ↔ ∀ p ∈ ps, ∃ y : ℕ, View.horizonRow c p.x = .ok (some y) ∧ p.y = y) := by
  refine ⟨(ps.map fun _ => top u).sum, fun c => ?_⟩
  obtain ⟨row, h1, h2⟩ := horizonTerm_eq c ps u
  refine ⟨_, h2, ?_, ?_⟩
  · exact npsum_below ps _ _ fun p _ => logpdf_below (is_fin 0) hu _
  · rw [npsum_attains ps _ (fun _ => top u) fun p _ => logpdf_below (is_fin 0) hu _]
    refine forall₂_congr fun p _ => ?_
    rw [logpdf_top (is_fin 0) hu, h1]
    cases hr : row p.x with
    | none => simp [Num.Is]
    | some y =>
      simp only [Except.ok.injEq, Option.some.injEq]
      have hs := (is_fin p.y).sub (is_fin (y : ℝ))
      constructor
      · intro h
        exact ⟨y, rfl, by have := hs.unique h; linarith⟩
      · rintro ⟨y', rfl, e⟩
        exact hs.congr (by rw [e]; ring)

/-- **C110** The sum of the logarithms of the normal densities at the deviations. -/
theorem C110_horizon_density (c : Cam) (ps : List (V2 ℝ)) (u : ℝ) (hu : 0 < u) (y : ℝ → ℕ)
    (hy : ∀ p ∈ ps, View.horizonRow c p.x = .ok (some (y p.x))) :
    ∃ t, horizonTerm c ps u = .ok t ∧ Num.Is t (ps.map fun p => Real.log (density (y p.x) u p.y)).sum := by
  obtain ⟨row, h1, h2⟩ := horizonTerm_eq c ps u
  refine ⟨_, h2, sum_is _ _ _ fun p hp => ?_⟩
  have : row p.x = some (y p.x) := by
    have := hy p hp
    rw [h1] at this
    exact Except.ok.inj this
  rw [this, log_density _ _ hu]
  simp only
  exact (logpdf_is (is_fin 0) ((is_fin p.y).sub (is_fin ((y p.x : ℕ) : ℝ))) hu).congr (by simp)

/-- **C110** Cameras below the ground (but not deeper than the radius of the earth) are impossible. -/
theorem C110_below_ground (c : Cam) (h1 : -View.rEarth < c.orient.pos.z) (h2 : c.orient.pos.z < 0) (p : V2 ℝ) (ps : List (V2 ℝ))
    (u : ℝ) (others : List Num) :
    horizonTerm c (p :: ps) u = .ok .nan ∧ Stat.logProbability (.nan :: others) = .ninf := by
  constructor
  · obtain ⟨row, k1, k2⟩ := horizonTerm_eq c (p :: ps) u
    have hr : row p.x = none := by
      obtain ⟨P, r, e1, e2, e3⟩ := C81_horizon_row c p.x
      have hz : ∀ y, (P y).z = .nan := by
        intro y
        have := e1 y
        rw [C80_below_ground _ h1 h2] at this
        have := Except.ok.inj (show Except.ok (pointAt _ _ _) = Except.ok (P y) from this)
        rw [← this]
        unfold pointAt
        rw [if_neg (not_nan_lt _)]
        show _ * nan + _ = nan
        simp
      rw [k1] at e2
      rw [Except.ok.inj e2]
      exact (e3 fun y _ => by rw [hz]; simp [IsInf]).1.2 fun y _ => hz y
    rw [k2, List.map_cons, hr, logpdf_nan]
    rw [npsum_nan (by simp)]
  · unfold Stat.logProbability
    rw [npsum_nan (by simp)]
    simp

example : ∃ best : ℝ, ∀ c : Cam, ∃ t, horizonTerm c [⟨50, 3⟩] 10 = .ok t ∧ (t = .nan ∨ t ≤ .fin best) := by
  obtain ⟨b, h⟩ := C110_horizon_best [⟨50, 3⟩] 10 (by norm_num)
  refine ⟨b, fun c => ?_⟩
  obtain ⟨t, h1, h2, -⟩ := h c
  exact ⟨t, h1, h2⟩

/-! ### C111: the true camera -/

theorem Terms.info_best (i : Info) (hi : i.Valid) :
    ∃ best : ℝ, ∀ c : Cam, c.Proper → i.Sighted c → ∃ t, i.term c = .ok t ∧ Below t best ∧ (Num.Is t best ↔ i.Fits c) := by
  cases i with
  | heights rows v =>
    obtain ⟨s, hs, hv⟩ := hi
    obtain ⟨b, h⟩ := C105_height_best rows v s hs hv
    exact ⟨b, fun c _ _ => h c⟩
  | lengths rows Z v =>
    obtain ⟨s, hs, hv⟩ := hi
    obtain ⟨b, h⟩ := C107_length_best rows Z v s hs hv
    exact ⟨b, fun c _ _ => h c⟩
  | landmarks ls =>
    obtain ⟨b, h⟩ := C108_landmark_best_partial ls hi
    exact ⟨b, fun c hc hs => ⟨_, rfl, h c hc hs⟩⟩
  | horizon ps u =>
    obtain ⟨b, h⟩ := C110_horizon_best ps u hi
    exact ⟨b, fun c _ _ => h c⟩

theorem Terms.true_fits (c : Cam) (hc : c.Proper) (i : Info) (h : i.True c) : i.Fits c ∧ i.Sighted c := by
  cases i with
  | heights rows v => exact ⟨fun r hr => upright_fits c hc r (h r hr), trivial⟩
  | lengths rows Z v => exact ⟨fun r hr => flat_fits c hc Z r (h r hr), trivial⟩
  | landmarks ls =>
    exact ⟨fun l hl => (h l hl).imp fun P q => ⟨q.1, sees_onSight c hc q.2⟩, fun l hl => let ⟨_, _, q⟩ := h l hl; sees_sighted c hc q⟩
  | horizon ps u => exact ⟨h, trivial⟩

theorem Terms.le_of_below {t : Num} {b : ℝ} (h : Below t b) : (if t = .nan then .ninf else t) ≤ .fin b := by
  split_ifs with hn
  · rcases below_ninf b with h | h
    · cases h
    · exact h
  · exact h.resolve_left hn

/-- **C111** (partial: landmarks with the same uncertainty in all directions) Any information about a scene has a best log
probability.  No camera has more, and exactly the cameras that measure what was given have it. -/
theorem C111_best_partial (infos : List Info) (hi : ∀ i ∈ infos, i.Valid) :
    ∃ best : ℝ, ∀ c : Cam, c.Proper → (∀ i ∈ infos, i.Sighted c) →
      ∃ terms, infos.mapM (Info.term c) = .ok terms ∧ Stat.logProbability terms ≤ .fin best ∧
        (Num.Is (Stat.logProbability terms) best ↔ ∀ i ∈ infos, i.Fits c) := by
  choose! best hb using fun i (h : Info.Valid i) => info_best i h
  refine ⟨(infos.map best).sum, fun c hc hs => ?_⟩
  have ht : ∀ i, ∃ t, i ∈ infos → i.term c = .ok t ∧ Below t (best i) ∧ (Num.Is t (best i) ↔ i.Fits c) := by
    intro i
    by_cases h : i ∈ infos
    · obtain ⟨t, k⟩ := hb i (hi i h) c hc (hs i h)
      exact ⟨t, fun _ => k⟩
    · exact ⟨.nan, fun k => absurd k h⟩
  choose t ht using ht
  refine ⟨infos.map t, mapM_ok _ _ _ fun i h => (ht i h).1, le_of_below (npsum_below _ _ _ fun i h => (ht i h).2.1), ?_⟩
  have key := npsum_attains infos t best fun i h => (ht i h).2.1
  have e : Num.Is (Stat.logProbability (infos.map t)) (infos.map best).sum ↔ Num.Is (Stat.npsum (infos.map t)) (infos.map best).sum := by
    unfold Stat.logProbability
    simp only
    split_ifs with hn
    · rw [hn]; simp [Num.Is]
    · rfl
  rw [e, key]
  exact forall₂_congr fun i h => (ht i h).2.2

/-- **C111** (partial, see `C105_violated` and `C108_violated`) The camera with which the information was recorded has the
highest log probability. -/
theorem C111_true_camera_partial (infos : List Info) (hi : ∀ i ∈ infos, i.Valid) (c : Cam) (hc : c.Proper)
    (h : ∀ i ∈ infos, i.True c) :
    ∃ terms best, infos.mapM (Info.term c) = .ok terms ∧ Num.Is (Stat.logProbability terms) best ∧
      ∀ c' : Cam, c'.Proper → (∀ i ∈ infos, i.Sighted c') →
        ∃ terms', infos.mapM (Info.term c') = .ok terms' ∧ Stat.logProbability terms' ≤ .fin best := by
  obtain ⟨best, hb⟩ := C111_best_partial infos hi
  obtain ⟨terms, h1, -, h3⟩ := hb c hc fun i k => (true_fits c hc i (h i k)).2
  refine ⟨terms, best, h1, h3.2 fun i k => (true_fits c hc i (h i k)).1, fun c' hc' hs => ?_⟩
  obtain ⟨ts, k1, k2, -⟩ := hb c' hc' hs
  exact ⟨ts, k1, k2⟩

/-- A scene with an upright object, a flat object and a landmark. -/
example : ∃ terms best, ([.heights [⟨imageFromSpace exampleCam (V3.num ⟨1, 2, 0⟩), imageFromSpace exampleCam (V3.num ⟨1, 2, 3⟩), 3⟩]
      (.number 1), .lengths [⟨imageFromSpace exampleCam (V3.num ⟨1, 2, 0⟩), imageFromSpace exampleCam (V3.num ⟨4, 6, 0⟩),
        V3.dist ⟨1, 2, 0⟩ ⟨4, 6, 0⟩⟩] 0 (.stochastic 2),
      .landmarks [⟨imageFromSpace exampleCam (V3.num ⟨1, 2, 3⟩), V3.num ⟨1, 2, 3⟩, ⟨3, 3, 3⟩⟩]] : List Info).mapM
        (Info.term exampleCam) = .ok terms ∧ Num.Is (Stat.logProbability terms) best := by
  obtain ⟨t, b, h1, h2, -⟩ := C111_true_camera_partial
    [.heights [⟨imageFromSpace exampleCam (V3.num ⟨1, 2, 0⟩), imageFromSpace exampleCam (V3.num ⟨1, 2, 3⟩), 3⟩]
      (.number 1), .lengths [⟨imageFromSpace exampleCam (V3.num ⟨1, 2, 0⟩), imageFromSpace exampleCam (V3.num ⟨4, 6, 0⟩),
        V3.dist ⟨1, 2, 0⟩ ⟨4, 6, 0⟩⟩] 0 (.stochastic 2),
      .landmarks [⟨imageFromSpace exampleCam (V3.num ⟨1, 2, 3⟩), V3.num ⟨1, 2, 3⟩, ⟨3, 3, 3⟩⟩]]
    (by
      intro i hi
      simp only [List.mem_cons, List.not_mem_nil, or_false] at hi
      rcases hi with rfl | rfl | rfl
      · exact ⟨1, one_pos, Or.inl rfl⟩
      · exact ⟨2, two_pos, Or.inr rfl⟩
      · intro l hl
        rw [List.mem_singleton] at hl
        subst hl
        exact ⟨⟨_, V3.is_num _⟩, 3, by norm_num, rfl⟩) exampleCam exampleCam_proper (by
      intro i hi
      simp only [List.mem_cons, List.not_mem_nil, or_false] at hi
      rcases hi with rfl | rfl | rfl
      · intro r hr
        rw [List.mem_singleton] at hr
        subst hr
        exact exampleUpright
      · intro r hr
        rw [List.mem_singleton] at hr
        subst hr
        exact exampleFlat
      · intro l hl
        rw [List.mem_singleton] at hl
        subst hl
        exact ⟨⟨1, 2, 3⟩, V3.is_num _, exampleCam_visible _ (by norm_num), exactFor_none rfl _ _, rfl⟩)
  exact ⟨t, b, h1, h2⟩
