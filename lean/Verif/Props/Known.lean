import Verif.Props.Landmarks

/-! # A known length or height fixes the elevation: C177 -/

open Classical Num Camera Terms Measure

namespace Known

/-- The direction in which a camera sees a point. -/
theorem sees_dir {c : Cam} (hc : c.Proper) {P : V3 ℝ} {q : V2 Num} (h : Sees c P q) :
    ∃ p : V2 ℝ, (c.lens.imageFromDistorted q).Is p ∧ ∃ u : ℝ, 0 ≤ u ∧ P = (dirR c p).mulS u + c.orient.pos :=
  Landmarks.sight_dir hc (sees_sighted c hc h) (sees_onSight c hc h)

/-- The factor of the point of a ray at the height `Z`. -/
theorem k0_of {e Z u : ℝ} {f P : V3 ℝ} (hP : P.z = Z) (he : e - Z ≠ 0) (h : P.z = f.z * u + e) (hu : 0 ≤ u) : f.z ≠ 0 ∧ k0 (e - Z) f = u ∧ 0 < u := by
  have fz : f.z ≠ 0 := by
    intro h0; rw [h0, zero_mul, zero_add, hP] at h; exact he (by rw [h]; ring)
  have hk : k0 (e - Z) f = u := by
    unfold k0
    rw [div_eq_iff fz]; linarith
  refine ⟨fz, hk, lt_of_le_of_ne hu fun h0 => ?_⟩
  rw [← h0, mul_zero, zero_add, hP] at h
  exact he (by rw [h]; ring)

/-- The length measured by a camera at another place, height and heading. -/
theorem length_any (c : Cam) (hc : c.Proper) (o o' : Spatial.Params) (ho : c.orient = .thr o) (ht : o'.tilt_deg = o.tilt_deg)
    (hr : o'.roll_deg = o.roll_deg) (Z s : ℝ) (he : o'.elevation_m - Z = s * (o.elevation_m - Z)) (r : LengthRow) (h : Flat c Z r) :
    (0 ≤ s → ∃ L, getObjectLength { c with orient := .thr o' } r.front r.back (fin Z) = .ok L ∧ Num.Is L (s * r.length)) ∧
    (s < 0 → getObjectLength { c with orient := .thr o' } r.front r.back (fin Z) = .ok .nan) := by
  obtain ⟨A, B, sA, sB, hA, hB, hd, hz⟩ := h
  obtain ⟨p, hp, u, hu, eA⟩ := sees_dir hc sA
  obtain ⟨q, hq, w, hw, eB⟩ := sees_dir hc sB
  set c' : Cam := { c with orient := .thr o' } with hc'
  have hf' : (getRay c' r.front).2.Is (dirR c' p) := getRay_real c' hc hp
  have hg' : (getRay c' r.back).2.Is (dirR c' q) := getRay_real c' hc hq
  set θ := Spatial.rad (o'.heading_deg - o.heading_deg)
  have ef : dirR c' p = Geo.clockwise θ (dirR c p) := dir_turned c o o' ho ht hr p
  have eg : dirR c' q = Geo.clockwise θ (dirR c q) := dir_turned c o o' ho ht hr q
  rw [ef] at hf'
  rw [eg] at hg'
  set f := dirR c p
  set g := dirR c q
  have z0 : c.orient.pos.z = o.elevation_m := by rw [ho]; rfl
  have z1 : c'.orient.pos.z = o'.elevation_m := rfl
  have he0 : o.elevation_m - Z ≠ 0 := by rw [← z0]; exact sub_ne_zero.2 hz
  obtain ⟨fz, kf, pf⟩ := k0_of (f := f) (P := A) hA he0 (by rw [← z0]; exact congrArg V3.z eA) hu
  obtain ⟨gz, kg, pg⟩ := k0_of (f := g) (P := B) hB he0 (by rw [← z0]; exact congrArg V3.z eB) hw
  obtain ⟨a, b⟩ := length_eq c' hf' hg' fz gz Z
  rw [z1, he] at a b
  have kf' : k0 (s * (o.elevation_m - Z)) (Geo.clockwise θ f) = s * u := (k0_scale _ _ _).trans (by rw [← kf]; rfl)
  have kg' : k0 (s * (o.elevation_m - Z)) (Geo.clockwise θ g) = s * w := (k0_scale _ _ _).trans (by rw [← kg]; rfl)
  rw [kf', kg'] at a b
  refine ⟨fun hs => ?_, fun hs => b (.inl (mul_neg_of_neg_of_pos hs pf))⟩
  obtain ⟨L, e1, i1⟩ := a (mul_nonneg hs hu) (mul_nonneg hs hw)
  refine ⟨L, e1, i1.congr ?_⟩
  have e : (Geo.clockwise θ f).mulS (s * u) - (Geo.clockwise θ g).mulS (s * w) = (Geo.clockwise θ (A - B)).mulS s := by
    rw [eA, eB]
    ext <;> simp [Geo.clockwise] <;> ring
  rw [e, ← hd]
  unfold V3.dist V3.norm
  have : ((Geo.clockwise θ (A - B)).mulS s).normSq = s ^ 2 * (A - B).normSq := by
    simp only [V3.normSq, Geo.clockwise, V3.mulS_x, V3.mulS_y, V3.mulS_z]
    set w := A - B
    linear_combination s ^ 2 * (w.x ^ 2 + w.y ^ 2) * Real.sin_sq_add_cos_sq θ
  rw [this, Real.sqrt_mul (sq_nonneg s), Real.sqrt_sq hs]

/-- The height measured by a camera at another place and height, with the same angles. -/
theorem height_any (c : Cam) (hc : c.Proper) (o o' : Spatial.Params) (ho : c.orient = .thr o) (ht : o'.tilt_deg = o.tilt_deg)
    (hr : o'.roll_deg = o.roll_deg) (hh : o'.heading_deg = o.heading_deg) (s : ℝ) (he : o'.elevation_m = s * o.elevation_m) (r : HeightRow) (h : Upright c r) :
    (0 ≤ s → ∃ H, getObjectHeight { c with orient := .thr o' } r.feet r.head = .ok H ∧ Num.Is H (s * r.height)) ∧
    (s < 0 → getObjectHeight { c with orient := .thr o' } r.feet r.head = .ok .nan) := by
  obtain ⟨x, y, sA, sB, hz, hx, hy⟩ := h
  obtain ⟨p, hp, u, hu, eA⟩ := sees_dir hc sA
  obtain ⟨q, hq, w, hw, eB⟩ := sees_dir hc sB
  set c' : Cam := { c with orient := .thr o' } with hc'
  have hf' : (getRay c' r.feet).2.Is (dirR c' p) := getRay_real c' hc hp
  have hg' : (getRay c' r.head).2.Is (dirR c' q) := getRay_real c' hc hq
  have same : ∀ w : V3 ℝ, Geo.clockwise (Spatial.rad (o'.heading_deg - o.heading_deg)) w = w := by
    intro w; rw [hh, sub_self]; ext <;> simp [Geo.clockwise, Spatial.rad]
  have ef : dirR c' p = dirR c p := (dir_turned c o o' ho ht hr p).trans (same _)
  have eg : dirR c' q = dirR c q := (dir_turned c o o' ho ht hr q).trans (same _)
  rw [ef] at hf'
  rw [eg] at hg'
  set f := dirR c p
  set g := dirR c q
  have z0 : c.orient.pos.z = o.elevation_m := by rw [ho]; rfl
  have z1 : c'.orient.pos.z = o'.elevation_m := rfl
  have he0 : o.elevation_m - 0 ≠ 0 := by rw [← z0, sub_zero]; exact hz
  obtain ⟨fz, kf, pf⟩ := k0_of (f := f) (P := ⟨x, y, 0⟩) rfl he0 (by rw [← z0]; exact congrArg V3.z eA) hu
  have ax := congrArg V3.x eA
  have ay := congrArg V3.y eA
  have bx := congrArg V3.x eB
  have by' := congrArg V3.y eB
  have bz := congrArg V3.z eB
  simp only [V3.add_x, V3.add_y, V3.add_z, V3.mulS_x, V3.mulS_y, V3.mulS_z] at ax ay bx by' bz
  have gx : g.x ≠ 0 := by
    intro h0; rw [h0, zero_mul, zero_add] at bx; exact hx bx.symm
  have gy : g.y ≠ 0 := by
    intro h0; rw [h0, zero_mul, zero_add] at by'; exact hy by'.symm
  obtain ⟨a, -, b⟩ := height_eq c' hf' hg' fz gx gy 0
  have ee : o'.elevation_m - 0 = s * (o.elevation_m - 0) := by rw [sub_zero, sub_zero, he]
  rw [z1, ee] at a b
  have q0 : k0 (s * (o.elevation_m - 0)) f = s * u := (k0_scale _ _ _).trans (by rw [kf])
  have q1 : k1 (s * (o.elevation_m - 0)) f g = s * w := by
    unfold k1; rw [q0]
    have : u * f.y = w * g.y := by linarith
    rw [mul_div_assoc', div_eq_iff gy]
    linear_combination s * this
  have q2 : k2 (s * (o.elevation_m - 0)) f g = s * w := by
    unfold k2; rw [q0]
    have : u * f.x = w * g.x := by linarith
    rw [mul_div_assoc', div_eq_iff gx]
    linear_combination s * this
  rw [q0, q1, q2] at a
  rw [q0] at b
  refine ⟨fun hs => ?_, fun hs => b (mul_neg_of_neg_of_pos hs pf)⟩
  obtain ⟨H, e1, i1⟩ := a (mul_nonneg hs hu) (mul_nonneg hs hw) (mul_nonneg hs hw)
  refine ⟨H, e1, i1.congr ?_⟩
  rw [z0] at bz
  rw [bz]
  ring

end Known

open Known

/-- **C177** If a camera has seen flat objects of known lengths, at least one of them longer than 0, then of all cameras with its tilt and roll exactly
those with its elevation have the largest value of the term of `addObjectLengthInformation`, wherever they are and in whichever direction they look. -/
theorem C177_length (c : Cam) (hc : c.Proper) (o : Spatial.Params) (ho : c.orient = .thr o) (Z : ℝ) (rows : List LengthRow) (v : Variation) (σ : ℝ)
    (hσ : 0 < σ) (hv : v = .number σ ∨ v = .stochastic σ) (h : ∀ r ∈ rows, Flat c Z r) {r0 : LengthRow} (m : r0 ∈ rows) (hl : r0.length ≠ 0) :
    ∃ best : ℝ, ∀ o' : Spatial.Params, o'.tilt_deg = o.tilt_deg → o'.roll_deg = o.roll_deg →
      ∃ t, lengthTerm { c with orient := .thr o' } rows Z v = .ok t ∧ (t = .nan ∨ t ≤ .fin best) ∧ (Num.Is t best ↔ o'.elevation_m = o.elevation_m) := by
  obtain ⟨best, hb⟩ := C107_length_best rows Z v σ hσ hv
  refine ⟨best, fun o' ht hr => ?_⟩
  obtain ⟨t, h1, h2, h3⟩ := hb { c with orient := .thr o' }
  refine ⟨t, h1, h2, h3.trans ?_⟩
  have hz : o.elevation_m - Z ≠ 0 := by
    obtain ⟨A, B, -, -, -, -, -, hz⟩ := h r0 m
    rw [ho] at hz
    exact sub_ne_zero.2 hz
  have he : o'.elevation_m - Z = (o'.elevation_m - Z) / (o.elevation_m - Z) * (o.elevation_m - Z) := (div_mul_cancel₀ _ hz).symm
  set s := (o'.elevation_m - Z) / (o.elevation_m - Z) with hs
  constructor
  · intro hall
    obtain ⟨L, e1, i1⟩ := hall r0 m
    obtain ⟨a, b⟩ := length_any c hc o o' ho ht hr Z s he r0 (h r0 m)
    rcases lt_or_ge s 0 with hn | hn
    · rw [b hn] at e1
      cases e1
      simp at i1
    · obtain ⟨L', e2, i2⟩ := a hn
      rw [e2] at e1
      cases e1
      have h1 : s * r0.length = 1 * r0.length := by rw [one_mul]; exact i2.unique i1
      have := mul_right_cancel₀ hl h1
      rw [this, one_mul] at he
      linarith
  · intro hel r hr'
    have s1 : s = 1 := by rw [hs, hel, div_self hz]
    obtain ⟨L, e1, i1⟩ := (length_any c hc o o' ho ht hr Z s he r (h r hr')).1 (by rw [s1]; norm_num)
    rw [s1, one_mul] at i1
    exact ⟨L, e1, i1⟩

/-- **C177** The same for upright objects of known heights, for all cameras with the same three angles (with other headings the
measured heights change, see C174). -/
theorem C177_height (c : Cam) (hc : c.Proper) (o : Spatial.Params) (ho : c.orient = .thr o) (rows : List HeightRow) (v : Variation) (σ : ℝ)
    (hσ : 0 < σ) (hv : v = .number σ ∨ v = .stochastic σ) (h : ∀ r ∈ rows, Upright c r) {r0 : HeightRow} (m : r0 ∈ rows) (hl : r0.height ≠ 0) :
    ∃ best : ℝ, ∀ o' : Spatial.Params, o'.tilt_deg = o.tilt_deg → o'.roll_deg = o.roll_deg → o'.heading_deg = o.heading_deg →
      ∃ t, heightTerm { c with orient := .thr o' } rows v = .ok t ∧ (t = .nan ∨ t ≤ .fin best) ∧ (Num.Is t best ↔ o'.elevation_m = o.elevation_m) := by
  obtain ⟨best, hb⟩ := C105_height_best rows v σ hσ hv
  refine ⟨best, fun o' ht hr hh => ?_⟩
  obtain ⟨t, h1, h2, h3⟩ := hb { c with orient := .thr o' }
  refine ⟨t, h1, h2, h3.trans ?_⟩
  have hz : o.elevation_m ≠ 0 := by
    obtain ⟨x, y, -, -, hz, -, -⟩ := h r0 m
    rw [ho] at hz
    exact hz
  have he : o'.elevation_m = o'.elevation_m / o.elevation_m * o.elevation_m := (div_mul_cancel₀ _ hz).symm
  set s := o'.elevation_m / o.elevation_m with hs
  constructor
  · intro hall
    obtain ⟨L, e1, i1⟩ := hall r0 m
    obtain ⟨a, b⟩ := height_any c hc o o' ho ht hr hh s he r0 (h r0 m)
    rcases lt_or_ge s 0 with hn | hn
    · rw [b hn] at e1
      cases e1
      simp at i1
    · obtain ⟨L', e2, i2⟩ := a hn
      rw [e2] at e1
      cases e1
      have h1 : s * r0.height = 1 * r0.height := by rw [one_mul]; exact i2.unique i1
      have := mul_right_cancel₀ hl h1
      rw [this, one_mul] at he
      exact he
  · intro hel r hr'
    have s1 : s = 1 := by rw [hs, hel, div_self hz]
    obtain ⟨L, e1, i1⟩ := (height_any c hc o o' ho ht hr hh s he r (h r hr')).1 (by rw [s1]; norm_num)
    rw [s1, one_mul] at i1
    exact ⟨L, e1, i1⟩

/-- **C177** Objects of known lengths say nothing more: for every position and heading at this elevation the term is the same. -/
theorem C177_open (c : Cam) (hc : c.Proper) (o : Spatial.Params) (ho : c.orient = .thr o) (Z : ℝ) (rows : List LengthRow) (v : Variation) (σ : ℝ)
    (hσ : 0 < σ) (hv : v = .number σ ∨ v = .stochastic σ) (h : ∀ r ∈ rows, Flat c Z r) (heading x y : ℝ) :
    ∃ t t' best, lengthTerm c rows Z v = .ok t ∧ Num.Is t best ∧
      lengthTerm { c with orient := .thr { o with heading_deg := heading, pos_x_m := x, pos_y_m := y } } rows Z v = .ok t' ∧ Num.Is t' best := by
  obtain ⟨best, hb⟩ := C107_length_best rows Z v σ hσ hv
  obtain ⟨t, h1, -, h3⟩ := hb c
  obtain ⟨t', h1', -, h3'⟩ := hb { c with orient := .thr { o with heading_deg := heading, pos_x_m := x, pos_y_m := y } }
  refine ⟨t, t', best, h1, h3.2 fun r hr => flat_fits c hc Z r (h r hr), h1', h3'.2 fun r hr => ?_⟩
  obtain ⟨L, e1, i1⟩ := (length_any c hc o { o with heading_deg := heading, pos_x_m := x, pos_y_m := y } ho rfl rfl Z 1 (by rw [one_mul]) r (h r hr)).1 zero_le_one
  rw [one_mul] at i1
  exact ⟨L, e1, i1⟩

/-- An object of length 5 on the ground and one of height 3. -/
example : ∃ best : ℝ, ∀ o' : Spatial.Params, o'.tilt_deg = 0 → o'.roll_deg = 0 →
    ∃ t, lengthTerm { exampleCam with orient := .thr o' } [⟨imageFromSpace exampleCam (V3.num ⟨1, 2, 0⟩), imageFromSpace exampleCam (V3.num ⟨4, 6, 0⟩),
      V3.dist ⟨1, 2, 0⟩ ⟨4, 6, 0⟩⟩] 0 (.number 1) = .ok t ∧ (t = .nan ∨ t ≤ .fin best) ∧ (Num.Is t best ↔ o'.elevation_m = 10) :=
  C177_length exampleCam exampleCam_proper ⟨10, 0, 0, 0, 0, 0⟩ rfl 0 _ _ 1 one_pos (.inl rfl) (by simpa using exampleFlat) (List.mem_singleton.2 rfl)
    (by
      have : V3.dist ⟨1, 2, 0⟩ ⟨4, 6, 0⟩ = 5 := by
        unfold V3.dist V3.norm
        rw [Real.sqrt_eq_iff_mul_self_eq (by simp only [V3.normSq]; positivity) (by norm_num)]
        norm_num [V3.normSq]
      rw [this]; norm_num)

example : ∃ best : ℝ, ∀ o' : Spatial.Params, o'.tilt_deg = 0 → o'.roll_deg = 0 → o'.heading_deg = 0 →
    ∃ t, heightTerm { exampleCam with orient := .thr o' } [⟨imageFromSpace exampleCam (V3.num ⟨1, 2, 0⟩), imageFromSpace exampleCam (V3.num ⟨1, 2, 3⟩), 3⟩]
      (.number 1) = .ok t ∧ (t = .nan ∨ t ≤ .fin best) ∧ (Num.Is t best ↔ o'.elevation_m = 10) :=
  C177_height exampleCam exampleCam_proper ⟨10, 0, 0, 0, 0, 0⟩ rfl _ _ 1 one_pos (.inl rfl) (by simpa using exampleUpright) (List.mem_singleton.2 rfl)
    (by norm_num)

example (heading x y : ℝ) : ∃ t t' best, lengthTerm exampleCam [⟨imageFromSpace exampleCam (V3.num ⟨1, 2, 0⟩), imageFromSpace exampleCam (V3.num ⟨4, 6, 0⟩),
      V3.dist ⟨1, 2, 0⟩ ⟨4, 6, 0⟩⟩] 0 (.number 1) = .ok t ∧ Num.Is t best ∧
    lengthTerm { exampleCam with orient := .thr ⟨10, 0, 0, heading, x, y⟩ } [⟨imageFromSpace exampleCam (V3.num ⟨1, 2, 0⟩), imageFromSpace exampleCam (V3.num ⟨4, 6, 0⟩),
      V3.dist ⟨1, 2, 0⟩ ⟨4, 6, 0⟩⟩] 0 (.number 1) = .ok t' ∧ Num.Is t' best :=
  C177_open exampleCam exampleCam_proper ⟨10, 0, 0, 0, 0, 0⟩ rfl 0 _ _ 1 one_pos (.inl rfl) (by simpa using exampleFlat) heading x y
