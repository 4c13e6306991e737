import Verif.Proofs.Lens
import Verif.Props.Camera

/-! # Properties of lenses (C20-C23) -/

open Classical Num LensModel LensSpec

/-- A function that has the assumed properties of scipy's spline exists. -/
theorem LensSpec.goodSpline_exists : ∃ s : Spline, GoodSpline s := by
  refine ⟨fun ys xs => if ys.Pairwise (· < ·) then some fun n =>
    if h : ∃ (x : ℝ) (i : ℕ) (y : ℝ), ys[i]? = some y ∧ xs[i]? = some x ∧ Num.Is n y then fin h.choose else n
    else none, ?_, ?_, ?_, ?_⟩
  · intro ys xs _ _ h; simp [h]
  · intro ys xs f hf i y x hy hx n hn
    split_ifs at hf with hp
    · simp only [Option.some.injEq] at hf
      subst hf
      have hex : ∃ (x : ℝ) (i : ℕ) (y : ℝ), ys[i]? = some y ∧ xs[i]? = some x ∧ Num.Is n y := ⟨x, i, y, hy, hx, hn⟩
      simp only
      rw [dif_pos hex]
      obtain ⟨i', y', h1, h2, h3⟩ := hex.choose_spec
      generalize hex.choose = x' at h2 ⊢
      have ey := h3.unique hn
      subst ey
      have ei : i' = i := by
        rw [List.getElem?_eq_some_iff] at h1 hy
        obtain ⟨b1, h1⟩ := h1
        obtain ⟨b2, hy⟩ := hy
        rcases lt_trichotomy i' i with h | h | h
        · have := List.pairwise_iff_getElem.1 hp _ _ b1 b2 h; linarith
        · exact h
        · have := List.pairwise_iff_getElem.1 hp _ _ b2 b1 h; linarith
      subst ei
      rw [hx] at h2
      simp only [Option.some.injEq] at h2
      exact h2.symm
  · intro ys f hf n r hn
    split_ifs at hf with hp
    · simp only [Option.some.injEq] at hf
      subst hf
      simp only
      split_ifs with hex
      · obtain ⟨i', y', h1, h2, h3⟩ := hex.choose_spec
        generalize hex.choose = x' at h2 ⊢
        rw [h1] at h2
        simp only [Option.some.injEq] at h2
        exact h2.symm.trans (h3.unique hn)
      · exact hn
  · intro ys xs h; simp [h]

/-- **C20** Undistorting a distorted point gives the point back, for both lens models, wherever the inverse
radius function is exact; the distorted radius has to be positive. -/
theorem C20_undistort_distort (L : Radial) (hx : L.scale.x ≠ 0) (hy : L.scale.y ≠ 0) (g : ℝ → ℝ)
    (hg : ∀ n r, Num.Is n r → Num.Is (L.conv n) (g r)) (p : V2 ℝ)
    (hr : radius L.scale L.offset p ≠ 0) (hpos : 0 < g (radius L.scale L.offset p))
    (hinv : ∀ n, Num.Is n (g (radius L.scale L.offset p)) → Num.Is (L.inv n) (radius L.scale L.offset p)) :
    L.lens.ExactAt p :=
  fun _ hn => transform_transform hn hx hy hr hpos (fun m hm => hg m _ hm) hinv

example : (⟨⟨100, 100⟩, ⟨50, 25⟩, id, id⟩ : Radial).lens.ExactAt ⟨80, 65⟩ := by
  have h : radius ⟨100, 100⟩ ⟨50, 25⟩ ⟨80, 65⟩ ≠ 0 := by
    unfold radius; norm_num
  exact C20_undistort_distort ⟨⟨100, 100⟩, ⟨50, 25⟩, id, id⟩ (by norm_num) (by norm_num) id (fun _ _ h => h) ⟨80, 65⟩ h
    (lt_of_le_of_ne (radius_nonneg _ _ _) (Ne.symm h)) fun _ h => h

/-- **C20** The other direction: distorting an undistorted point gives the point back. -/
theorem C20_distort_undistort (L : Radial) (hx : L.scale.x ≠ 0) (hy : L.scale.y ≠ 0) (g : ℝ → ℝ)
    (hg : ∀ n r, Num.Is n r → Num.Is (L.conv n) (g r)) (p : V2 ℝ) (n : V2 Num) (hn : n.Is p)
    (hr : radius L.scale L.offset p ≠ 0) (r' : ℝ) (hpos : 0 < r')
    (hinv : ∀ n, Num.Is n (radius L.scale L.offset p) → Num.Is (L.inv n) r')
    (hexact : g r' = radius L.scale L.offset p) :
    (L.lens.distortedFromImage (L.lens.imageFromDistorted n)).Is p :=
  transform_transform hn hx hy hr hpos hinv (fun m hm => (hg m _ hm).congr hexact)

example : ((⟨⟨100, 100⟩, ⟨50, 25⟩, id, id⟩ : Radial).lens.distortedFromImage
    ((⟨⟨100, 100⟩, ⟨50, 25⟩, id, id⟩ : Radial).lens.imageFromDistorted (V2.num ⟨80, 65⟩))).Is ⟨80, 65⟩ := by
  have h : radius ⟨100, 100⟩ ⟨50, 25⟩ ⟨80, 65⟩ ≠ 0 := by
    unfold radius; norm_num
  exact C20_distort_undistort ⟨⟨100, 100⟩, ⟨50, 25⟩, id, id⟩ (by norm_num) (by norm_num) id (fun _ _ h => h) ⟨80, 65⟩ _ (V2.is_num _) h
    (radius ⟨100, 100⟩ ⟨50, 25⟩ ⟨80, 65⟩) (lt_of_le_of_ne (radius_nonneg _ _ _) (Ne.symm h)) (fun _ h => h) rfl

/-- **C20** For a Brown lens with non-negative coefficients the inverse is exact at every sampled radius
(multiples of 0.1 below 2), so the round trip is exact for all points at these radii. -/
theorem C20_brown_exact_at_knots (s : Spline) (hs : GoodSpline s) (I : Projection.Intr) (hfx : I.fx ≠ 0)
    (hfy : I.fy ≠ 0) (k1 k2 k3 : ℝ) (h1 : 0 ≤ k1) (h2 : 0 ≤ k2) (h3 : 0 ≤ k3) (p : V2 ℝ) (j : ℕ) (hj : 0 < j)
    (hj' : j < 20) (hp : radius ⟨I.fx, I.fy⟩ ⟨I.cx, I.cy⟩ p = j / 10) :
    (brown s I k1 k2 k3).lens.ExactAt p := by
  have hj0 : (0:ℝ) < j := by exact_mod_cast hj
  have hne : radius ⟨I.fx, I.fy⟩ ⟨I.cx, I.cy⟩ p ≠ 0 := by rw [hp]; positivity
  refine C20_undistort_distort (brown s I k1 k2 k3) hfx hfy (brownPoly k1 k2 k3) (fun n r h => brownRadius_is h) p hne ?_ ?_
  · exact lt_of_lt_of_le (lt_of_le_of_ne (radius_nonneg _ _ _) (Ne.symm hne)) (brownPoly_ge h1 h2 h3 (radius_nonneg _ _ _))
  · intro n hn
    simp only [brown] at hn ⊢
    rw [hp] at hn ⊢
    exact invertFunction_knots hs (fun n r h => brownRadius_is h)
      (fun a ha b _ hab => brownPoly_mono h1 h2 h3 a b ha.1 hab) hj' n hn

/-- **C20** The round trip of a whole camera with a Brown lens: space to image to space. -/
theorem C20_camera_round_trip (s : Spline) (hs : GoodSpline s) (c : Camera.Cam) (hc : c.Proper)
    (k1 k2 k3 : ℝ) (h1 : 0 ≤ k1) (h2 : 0 ≤ k2) (h3 : 0 ≤ k3) (hl : c.lens = (brown s c.intr k1 k2 k3).lens)
    (P : V3 ℝ) (hv : Camera.Visible c P) (i : Fin 3) (hi : P.get i ≠ c.orient.pos.get i) (hide : Bool)
    (hknot : ∀ p : V2 ℝ, (Projection.imageFromCamera c.kind c.intr (Spatial.cameraFromSpace c.orient.mat P.num) hide).Is p →
      ∃ j : ℕ, 0 < j ∧ j < 20 ∧ radius ⟨c.intr.fx, c.intr.fy⟩ ⟨c.intr.cx, c.intr.cy⟩ p = j / 10) :
    ∃ Q : V3 Num, Camera.spaceFromImage c (Camera.imageFromSpace c P.num hide) (Camera.coord i (fin (P.get i))) = .ok Q ∧
      Q.Is P := by
  refine C07_space_image_space_lens c hc P P.num (V3.is_num P) hv i hi hide ?_ _ rfl
  intro p hp
  obtain ⟨j, hj, hj', e⟩ := hknot p hp
  rw [hl]
  exact C20_brown_exact_at_knots s hs c.intr hc.1 hc.2 k1 k2 k3 h1 h2 h3 p j hj hj' e

example : radius ⟨100, 100⟩ ⟨50, 25⟩ ⟨80, 65⟩ = ((5 : ℕ) : ℝ) / 10 := by
  unfold radius
  rw [show ((80 - 50) / 100 : ℝ) ^ 2 + ((65 - 25) / 100) ^ 2 = (5 / 10) ^ 2 by norm_num, Real.sqrt_sq (by norm_num)]
  norm_num

/-- **C21** is violated: every Brown lens and every ABC lens maps the optical centre to nan, in both
directions, whatever the coefficients. -/
theorem C21_violated (s : Spline) (I : Projection.Intr) (a b c : ℝ) (n : V2 Num) (hn : n.Is ⟨I.cx, I.cy⟩) :
    (I.fx ≠ 0 → I.fy ≠ 0 → (brown s I a b c).lens.distortedFromImage n = V2.nan ∧
      (brown s I a b c).lens.imageFromDistorted n = V2.nan) ∧
    (0 < I.w → 0 < I.h → (abc s I a b c).lens.distortedFromImage n = V2.nan ∧
      (abc s I a b c).lens.imageFromDistorted n = V2.nan) := by
  constructor
  · intro hx hy
    exact ⟨transform_centre (L := brown s I a b c) hn hx hy, transform_centre (L := brown s I a b c) hn hx hy⟩
  · intro hw hh
    have h0 : min I.w I.h / 2 ≠ 0 := by have := lt_min hw hh; positivity
    exact ⟨transform_centre (L := abc s I a b c) hn h0 h0, transform_centre (L := abc s I a b c) hn h0 h0⟩

/-- **C21** (partial) Without distortion the centre, like every other point, is a fixed point. -/
theorem C21_no_distortion_partial (n : V2 Num) :
    Camera.noDistortion.distortedFromImage n = n ∧ Camera.noDistortion.imageFromDistorted n = n := ⟨rfl, rfl⟩

/-- **C22** Zero coefficients leave every point off the centre unchanged, in both directions. -/
theorem C22_zero_coefficients (s : Spline) (hs : GoodSpline s) (I : Projection.Intr) (p : V2 ℝ) (n : V2 Num)
    (hn : n.Is p) (hp : p ≠ ⟨I.cx, I.cy⟩) :
    (I.fx ≠ 0 → I.fy ≠ 0 → ((brown s I 0 0 0).lens.distortedFromImage n).Is p ∧
      ((brown s I 0 0 0).lens.imageFromDistorted n).Is p) ∧
    (0 < I.w → 0 < I.h → ((abc s I 0 0 0).lens.distortedFromImage n).Is p ∧
      ((abc s I 0 0 0).lens.imageFromDistorted n).Is p) := by
  have key : ∀ (L : Radial) (f : Num → Num), L.offset = ⟨I.cx, I.cy⟩ → L.scale.x ≠ 0 → L.scale.y ≠ 0 →
      (∀ m r, Num.Is m r → Num.Is (f m) r) → (transform L f n).Is p := by
    intro L f ho hx hy hf
    have hr : radius L.scale L.offset p ≠ 0 := by
      intro h0
      unfold radius at h0
      rw [Real.sqrt_eq_zero (by positivity)] at h0
      have e1 : (p.x - L.offset.x) / L.scale.x = 0 := by nlinarith [sq_nonneg ((p.x - L.offset.x) / L.scale.x), sq_nonneg ((p.y - L.offset.y) / L.scale.y)]
      have e2 : (p.y - L.offset.y) / L.scale.y = 0 := by nlinarith [sq_nonneg ((p.x - L.offset.x) / L.scale.x), sq_nonneg ((p.y - L.offset.y) / L.scale.y)]
      rw [div_eq_zero_iff] at e1 e2
      apply hp
      rw [ho] at e1 e2
      ext
      · have := e1.resolve_right hx; simp at this ⊢; linarith
      · have := e2.resolve_right hy; simp at this ⊢; linarith
    refine (transform_is hn hx hy hr (fun m hm => hf m _ hm)).congr ?_
    ext <;> simp [div_self hr]
  constructor
  · intro hx hy
    have hb : ∀ m r, Num.Is m r → Num.Is (brownRadius 0 0 0 m) r := fun m r h =>
      (brownRadius_is h).congr (by unfold brownPoly; ring)
    exact ⟨key (brown s I 0 0 0) _ rfl hx hy hb,
      key (brown s I 0 0 0) _ rfl hx hy (fun m r h => invertFunction_id hs hb m r h)⟩
  · intro hw hh
    have h0 : min I.w I.h / 2 ≠ 0 := by have := lt_min hw hh; positivity
    have hb : ∀ m r, Num.Is m r → Num.Is (abcRadius 0 0 0 m) r := fun m r h =>
      (abcRadius_is h).congr (by unfold abcPoly; ring)
    exact ⟨key (abc s I 0 0 0) _ rfl h0 h0 hb,
      key (abc s I 0 0 0) _ rfl h0 h0 (fun m r h => invertFunction_id hs hb m r h)⟩

example : ∃ (s : Spline) (I : Projection.Intr) (p : V2 ℝ), GoodSpline s ∧ p ≠ ⟨I.cx, I.cy⟩ ∧ I.fx ≠ 0 ∧ I.fy ≠ 0 ∧ 0 < I.w ∧ 0 < I.h := by
  obtain ⟨s, hs⟩ := goodSpline_exists
  exact ⟨s, ⟨100, 100, 50, 25, 100, 50⟩, ⟨80, 65⟩, hs, fun h => by have := congrArg V2.x h; norm_num at this, by norm_num, by norm_num,
    by norm_num, by norm_num⟩

/-- **C23** A Brown lens with non-negative coefficients moves every point away from the centre on the line
through the centre: the factor is at least 1, and the new normalised radius is the polynomial of the
documentation. -/
theorem C23_radial (s : Spline) (I : Projection.Intr) (hfx : I.fx ≠ 0) (hfy : I.fy ≠ 0) (k1 k2 k3 : ℝ)
    (h1 : 0 ≤ k1) (h2 : 0 ≤ k2) (h3 : 0 ≤ k3) (p : V2 ℝ) (n : V2 Num) (hn : n.Is p) (hp : p ≠ ⟨I.cx, I.cy⟩) :
    ∃ (q : V2 ℝ) (c : ℝ), ((brown s I k1 k2 k3).lens.distortedFromImage n).Is q ∧ 1 ≤ c ∧
      Stretched ⟨I.cx, I.cy⟩ c p q ∧
      radius ⟨I.fx, I.fy⟩ ⟨I.cx, I.cy⟩ q = brownPoly k1 k2 k3 (radius ⟨I.fx, I.fy⟩ ⟨I.cx, I.cy⟩ p) := by
  have hr : radius ⟨I.fx, I.fy⟩ ⟨I.cx, I.cy⟩ p ≠ 0 := by
    intro h0
    unfold radius at h0
    rw [Real.sqrt_eq_zero (by positivity)] at h0
    have e1 : (p.x - I.cx) / I.fx = 0 := by nlinarith [sq_nonneg ((p.x - I.cx) / I.fx), sq_nonneg ((p.y - I.cy) / I.fy)]
    have e2 : (p.y - I.cy) / I.fy = 0 := by nlinarith [sq_nonneg ((p.x - I.cx) / I.fx), sq_nonneg ((p.y - I.cy) / I.fy)]
    rw [div_eq_zero_iff] at e1 e2
    exact hp (V2.ext (by have := e1.resolve_right hfx; linarith) (by have := e2.resolve_right hfy; linarith))
  have hr0 : 0 < radius ⟨I.fx, I.fy⟩ ⟨I.cx, I.cy⟩ p := lt_of_le_of_ne (radius_nonneg _ _ _) (Ne.symm hr)
  have h := transform_is (L := brown s I k1 k2 k3) hn hfx hfy hr
    (fun m hm => brownRadius_is (k1 := k1) (k2 := k2) (k3 := k3) hm)
  simp only [brown] at h
  set r := radius ⟨I.fx, I.fy⟩ ⟨I.cx, I.cy⟩ p with hrd
  have hge := brownPoly_ge h1 h2 h3 hr0.le
  refine ⟨_, brownPoly k1 k2 k3 r / r, h, ?_, ⟨?_, ?_⟩, ?_⟩
  · rw [le_div_iff₀ hr0]; linarith
  · simp
  · simp
  · have hc : 0 ≤ brownPoly k1 k2 k3 r / r := by
      apply div_nonneg _ hr0.le
      linarith
    have := radius_stretched (s := ⟨I.fx, I.fy⟩) (o := ⟨I.cx, I.cy⟩) (p := p) hc
    simp only at this
    rw [this, ← hrd]; field_simp

/-- **C23** The order of the normalised radii is kept. -/
theorem C23_order_preserving (s : Spline) (I : Projection.Intr) (hfx : I.fx ≠ 0) (hfy : I.fy ≠ 0) (k1 k2 k3 : ℝ)
    (h1 : 0 ≤ k1) (h2 : 0 ≤ k2) (h3 : 0 ≤ k3) (p p' q q' : V2 ℝ) (hp : p ≠ ⟨I.cx, I.cy⟩)
    (hp' : p' ≠ ⟨I.cx, I.cy⟩) (hq : ((brown s I k1 k2 k3).lens.distortedFromImage p.num).Is q)
    (hq' : ((brown s I k1 k2 k3).lens.distortedFromImage p'.num).Is q') :
    radius ⟨I.fx, I.fy⟩ ⟨I.cx, I.cy⟩ q < radius ⟨I.fx, I.fy⟩ ⟨I.cx, I.cy⟩ q' ↔
      radius ⟨I.fx, I.fy⟩ ⟨I.cx, I.cy⟩ p < radius ⟨I.fx, I.fy⟩ ⟨I.cx, I.cy⟩ p' := by
  obtain ⟨Q, c, hQ, -, -, e⟩ := C23_radial s I hfx hfy k1 k2 k3 h1 h2 h3 p p.num (V2.is_num p) hp
  obtain ⟨Q', c', hQ', -, -, e'⟩ := C23_radial s I hfx hfy k1 k2 k3 h1 h2 h3 p' p'.num (V2.is_num p') hp'
  rw [hq.unique hQ, hq'.unique hQ', e, e']
  constructor
  · intro h
    by_contra hc
    rcases lt_or_eq_of_le (not_lt.1 hc) with h' | h'
    · exact absurd (brownPoly_mono h1 h2 h3 _ _ (radius_nonneg _ _ _) h') (not_lt.2 h.le)
    · rw [h'] at h; exact lt_irrefl _ h
  · exact brownPoly_mono h1 h2 h3 _ _ (radius_nonneg _ _ _)

example : (⟨80, 65⟩ : V2 ℝ) ≠ ⟨50, 25⟩ := by
  intro h; have := congrArg V2.x h; norm_num at this

/-! ### C87: lenses that fold -/

/-- **C87** (partial: radius functions that increase over the whole sampled range) Both lens models undistort
exactly at every sampled radius, also with negative coefficients. -/
theorem C87_exact_at_knots_partial (s : Spline) (hs : GoodSpline s) (I : Projection.Intr) (k1 k2 k3 : ℝ) (p : V2 ℝ)
    (j : ℕ) (hj : 0 < j) (hj' : j < 20) :
    (I.fx ≠ 0 → I.fy ≠ 0 → StrictMonoOn (brownPoly k1 k2 k3) (Set.Ico 0 2) →
      radius ⟨I.fx, I.fy⟩ ⟨I.cx, I.cy⟩ p = j / 10 → (brown s I k1 k2 k3).lens.ExactAt p) ∧
    (0 < I.w → 0 < I.h → StrictMonoOn (abcPoly k1 k2 k3) (Set.Ico 0 2) →
      radius ⟨min I.w I.h / 2, min I.w I.h / 2⟩ ⟨I.cx, I.cy⟩ p = j / 10 → (abc s I k1 k2 k3).lens.ExactAt p) := by
  have hj0 : (0:ℝ) < j := by exact_mod_cast hj
  have hj2 : (j : ℝ) < 20 := by exact_mod_cast hj'
  have key : ∀ (L : Radial) (g : ℝ → ℝ), L.scale.x ≠ 0 → L.scale.y ≠ 0 → (∀ n r, Num.Is n r → Num.Is (L.conv n) (g r)) →
      L.inv = invertFunction s knots L.conv → g 0 = 0 → StrictMonoOn g (Set.Ico 0 2) →
      radius L.scale L.offset p = j / 10 → L.lens.ExactAt p := by
    intro L g hx hy hg hinv h0 hm hp
    have hne : radius L.scale L.offset p ≠ 0 := by rw [hp]; positivity
    refine C20_undistort_distort L hx hy g hg p hne ?_ ?_
    · rw [hp, ← h0]
      exact hm ⟨le_rfl, by norm_num⟩ ⟨by positivity, by linarith⟩ (by positivity)
    · intro n hn
      rw [hp] at hn ⊢
      rw [hinv]
      exact invertFunction_knots hs hg hm hj' n hn
  constructor
  · intro hx hy hm hp
    exact key (brown s I k1 k2 k3) _ hx hy (fun n r h => brownRadius_is h) rfl (by simp [brownPoly]) hm hp
  · intro hw hh hm hp
    have h0 : min I.w I.h / 2 ≠ 0 := by have := lt_min hw hh; positivity
    exact key (abc s I k1 k2 k3) _ h0 h0 (fun n r h => abcRadius_is h) rfl (by simp [abcPoly]) hm hp

/-- **C87** is violated: if the radius function rises again after it has fallen, without exceeding an earlier
value (knots `a < b`, both kept because the function rises there), the spline raises, and the fallback of
`invert_function` makes `imageFromDistorted` the identity: nothing is undistorted, not even near the
centre. -/
theorem C87_violated (s : Spline) (hs : GoodSpline s) (I : Projection.Intr) (hfx : I.fx ≠ 0) (hfy : I.fy ≠ 0)
    (k1 k2 k3 : ℝ) (y : ℕ → ℝ) (hy : ∀ j, y j = brownPoly k1 k2 k3 (j / 10)) (a b : ℕ) (hab : a < b) (hb : b < 20)
    (hrise : a = 0 ∨ y (a - 1) ≤ y a) (hrise' : y (b - 1) ≤ y b) (hlow : y b ≤ y a)
    (p : V2 ℝ) (n : V2 Num) (hn : n.Is p) (hp : p ≠ ⟨I.cx, I.cy⟩) :
    ((brown s I k1 k2 k3).lens.imageFromDistorted n).Is p := by
  have hne : ¬ ((rising (knots.map fun r => (r, (brownRadius k1 k2 k3 (.fin r)).rv))).map Prod.snd).Pairwise (· < ·) := by
    have e : (knots.map fun r => (r, (brownRadius k1 k2 k3 (.fin r)).rv)) =
        (List.range 20).map fun j : ℕ => ((j : ℝ) / 10, y j) := by
      unfold knots
      rw [List.map_map]
      apply List.map_congr_left
      intro j _
      simp only [Function.comp, (brownRadius_is (is_fin _)).rv_eq, hy]
    rw [e]
    intro hpw
    have hsub := (sublist_rising y (fun j => (j : ℝ) / 10) 19 a b hab hb hrise hrise').map Prod.snd
    have := hpw.sublist hsub
    simp at this
    linarith
  have hr : radius ⟨I.fx, I.fy⟩ ⟨I.cx, I.cy⟩ p ≠ 0 := by
    intro h0
    unfold radius at h0
    rw [Real.sqrt_eq_zero (by positivity)] at h0
    have e1 : (p.x - I.cx) / I.fx = 0 := by nlinarith [sq_nonneg ((p.x - I.cx) / I.fx), sq_nonneg ((p.y - I.cy) / I.fy)]
    have e2 : (p.y - I.cy) / I.fy = 0 := by nlinarith [sq_nonneg ((p.x - I.cx) / I.fx), sq_nonneg ((p.y - I.cy) / I.fy)]
    rw [div_eq_zero_iff] at e1 e2
    exact hp (V2.ext (by have := e1.resolve_right hfx; linarith) (by have := e2.resolve_right hfy; linarith))
  have h := transform_is (L := brown s I k1 k2 k3) (f := (brown s I k1 k2 k3).inv) hn hfx hfy hr
    (R := radius ⟨I.fx, I.fy⟩ ⟨I.cx, I.cy⟩ p) (by
      intro m hm
      simp only [brown, invertFunction_fallback hs hne]
      exact hm)
  refine V2.Is.congr h ?_
  simp only [brown]
  ext <;> simp [div_self hr]

/-- The coefficients k1 = -1, k2 = 0.3 fold like this: the function rises up to 0.6, falls, and rises again
from 1.3 on, below the value at 0.6. -/
example : let y := fun j : ℕ => brownPoly (-1) (3 / 10) 0 (j / 10)
    y 5 ≤ y 6 ∧ y 12 > y 13 ∧ y 13 ≤ y 14 ∧ y 14 ≤ y 6 ∧ y 6 < 6 / 10 := by
  norm_num [brownPoly]
