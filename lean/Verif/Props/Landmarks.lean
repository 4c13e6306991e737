import Verif.Props.Measure
import Verif.Props.Stereo

/-! # What landmarks determine: C176 -/

open Classical Num Camera Terms

namespace Landmarks

/-- A ray with a direction belongs to a pixel. -/
theorem sight_dir {c : Cam} (hc : c.Proper) {q : V2 Num} (hs : Sighted c q) {P : V3 ℝ} (h : OnSight c q P) :
    ∃ p : V2 ℝ, (c.lens.imageFromDistorted q).Is p ∧ ∃ u : ℝ, 0 ≤ u ∧ P = (dirR c p).mulS u + c.orient.pos := by
  obtain ⟨d, hd, u, hu, e⟩ := h
  rcases hs with ⟨p, hp⟩ | hq
  · exact ⟨p, hp, u, hu, by rw [e, hd.unique (getRay_real c hc hp)]⟩
  · exfalso
    have : (getRay c q).2 = V3.nan := by
      unfold getRay
      rw [hq]
      have : Projection.getRay c.kind c.intr V2.nan false = V3.nan ∨ (Projection.getRay c.kind c.intr V2.nan false).x = .nan := by
        right
        cases c.kind <;>
          simp [Projection.getRay, Projection.getRayRect, Projection.getRayCyl, Projection.getRayEqui, Projection.normRay,
            V2.nan, Num.sin, Num.cos, Num.tan]
      rcases this with this | this
      · rw [this]; simp [Spatial.spaceFromCamera, V3.nan, M3.apply, V3.dot]
      · simp [Spatial.spaceFromCamera, V3.nan, M3.apply, V3.dot, this]
    rw [this] at hd
    exact hd.1

theorem turn_z (a : ℝ) (v : V3 ℝ) : (Geo.clockwise a v).z = v.z := rfl

theorem turn_mulS (a : ℝ) (v : V3 ℝ) (s : ℝ) : Geo.clockwise a (v.mulS s) = (Geo.clockwise a v).mulS s := by
  ext <;> simp [Geo.clockwise] <;> ring

theorem turn_sub (a : ℝ) (v w : V3 ℝ) : Geo.clockwise a (v - w) = Geo.clockwise a v - Geo.clockwise a w := by
  ext <;> simp [Geo.clockwise] <;> ring

/-- A turn that leaves a horizontal direction as it is leaves everything as it is. -/
theorem turn_fixed {a x y : ℝ} (h : x ≠ 0 ∨ y ≠ 0) (e1 : Real.cos a * x + Real.sin a * y = x) (e2 : -Real.sin a * x + Real.cos a * y = y) :
    Real.cos a = 1 ∧ Real.sin a = 0 := by
  have hr : 0 < x ^ 2 + y ^ 2 := by
    rcases h with h | h <;> positivity
  have hc : (Real.cos a - 1) * (x ^ 2 + y ^ 2) = 0 := by linear_combination x * e1 + y * e2
  have hs : Real.sin a * (x ^ 2 + y ^ 2) = 0 := by linear_combination y * e1 - x * e2
  exact ⟨by linarith [(mul_eq_zero.1 hc).resolve_right hr.ne'], (mul_eq_zero.1 hs).resolve_right hr.ne'⟩

theorem same_of_turn {h h' : ℝ} (e : Real.cos (Spatial.rad (h' - h)) = 1 ∧ Real.sin (Spatial.rad (h' - h)) = 0) : SameAngle h' h := by
  obtain ⟨n, hn⟩ := Stereo.sameAngle_of (θ := Spatial.rad (h' - h)) (a := 0) (by simpa using e.1) (by simpa using e.2)
  refine ⟨n, ?_⟩
  unfold Spatial.rad at hn
  have hp := Real.pi_pos
  have : (h' - h) * Real.pi = 360 * n * Real.pi := by
    field_simp at hn
    linear_combination hn
  have := mul_right_cancel₀ hp.ne' this
  linarith

/-- The family of cameras that differ in heading and position. -/
structure Family (c : Cam) (o o' : Spatial.Params) : Prop where
  orient : c.orient = .thr o
  tilt : o'.tilt_deg = o.tilt_deg
  roll : o'.roll_deg = o.roll_deg

/-- The place of a landmark for two cameras of the family. -/
theorem place {c : Cam} {o o' : Spatial.Params} (hf : Family c o o') (hc : c.Proper) {q : V2 Num} {P : V3 ℝ} (hs : Sighted c q)
    (h : OnSight c q P) (h' : OnSight { c with orient := .thr o' } q P) :
    ∃ (d : V3 ℝ) (u u' : ℝ), 0 ≤ u ∧ 0 ≤ u' ∧ P = d.mulS u + c.orient.pos ∧
      P = (Geo.clockwise (Spatial.rad (o'.heading_deg - o.heading_deg)) d).mulS u' + (Orient.thr o').pos := by
  obtain ⟨p, hp, u, hu, e⟩ := sight_dir hc hs h
  obtain ⟨p', hp', u', hu', e'⟩ := sight_dir (c := { c with orient := .thr o' }) hc hs h'
  have := hp'.unique hp
  subst this
  refine ⟨_, u, u', hu, hu', e, ?_⟩
  rw [e', Measure.dir_turned c o o' hf.orient hf.tilt hf.roll]

/-- What is left to do when the vector between two landmarks, seen from the camera, is known. -/
theorem finish {a : ℝ} {v w C C' P : V3 ℝ} (hv : v.x ≠ 0 ∨ v.y ≠ 0) (e : Geo.clockwise a v = v) (hP : P = w + C) (hP' : P = Geo.clockwise a w + C') :
    (Real.cos a = 1 ∧ Real.sin a = 0) ∧ C' = C := by
  have ex := congrArg V3.x e
  have ey := congrArg V3.y e
  simp only [Geo.clockwise] at ex ey
  have t := turn_fixed hv ex ey
  refine ⟨t, ?_⟩
  have hx := congrArg V3.x (hP.symm.trans hP')
  have hy := congrArg V3.y (hP.symm.trans hP')
  have hz := congrArg V3.z (hP.symm.trans hP')
  simp only [Geo.clockwise, t.1, t.2, V3.add_x, V3.add_y, V3.add_z] at hx hy hz
  ext <;> linarith

end Landmarks

open Landmarks

/-- **C176** A camera of which tilt and roll are known: two landmarks on the ground (at the same height, not the height of the camera) that are on the
rays of their pixels fix everything else: the position, the elevation and, up to full turns, the heading. -/
theorem C176_ground (c : Cam) (hc : c.Proper) (o o' : Spatial.Params) (ho : c.orient = .thr o) (ht : o'.tilt_deg = o.tilt_deg) (hr : o'.roll_deg = o.roll_deg)
    (q1 q2 : V2 Num) (P1 P2 : V3 ℝ) (hz : P1.z = P2.z) (hne : P1 ≠ P2) (hZ : P1.z ≠ o.elevation_m) (s1 : Sighted c q1) (s2 : Sighted c q2)
    (h1 : OnSight c q1 P1) (h2 : OnSight c q2 P2) (h1' : OnSight { c with orient := .thr o' } q1 P1) (h2' : OnSight { c with orient := .thr o' } q2 P2) :
    o'.pos_x_m = o.pos_x_m ∧ o'.pos_y_m = o.pos_y_m ∧ o'.elevation_m = o.elevation_m ∧ SameAngle o'.heading_deg o.heading_deg := by
  have hf : Family c o o' := ⟨ho, ht, hr⟩
  obtain ⟨d1, u1, u1', n1, n1', e1, e1'⟩ := place hf hc s1 h1 h1'
  obtain ⟨d2, u2, u2', n2, n2', e2, e2'⟩ := place hf hc s2 h2 h2'
  set a := Spatial.rad (o'.heading_deg - o.heading_deg) with ha
  have hC : c.orient.pos = ⟨o.pos_x_m, o.pos_y_m, o.elevation_m⟩ := by rw [ho]; rfl
  have hC' : (Orient.thr o').pos = ⟨o'.pos_x_m, o'.pos_y_m, o'.elevation_m⟩ := rfl
  rw [hC] at e1 e2
  rw [hC'] at e1' e2'
  have z1 := congrArg V3.z e1
  have z2 := congrArg V3.z e2
  have z1' := congrArg V3.z e1'
  have z2' := congrArg V3.z e2'
  simp only [V3.add_z, V3.mulS_z, turn_z] at z1 z2 z1' z2'
  have dz1 : d1.z ≠ 0 := by
    intro h0; rw [h0, zero_mul, zero_add] at z1; exact hZ z1
  have dz2 : d2.z ≠ 0 := by
    intro h0; rw [h0, zero_mul, zero_add] at z2; exact hZ (hz.trans z2)
  set b := P1.z - o.elevation_m with hb
  set b' := P1.z - o'.elevation_m with hb'
  have b0 : b ≠ 0 := sub_ne_zero.2 hZ
  have m1 : u1 = b / d1.z := by rw [eq_div_iff dz1]; linarith
  have m2 : u2 = b / d2.z := by rw [eq_div_iff dz2]; linarith
  have m1' : u1' = b' / d1.z := by rw [eq_div_iff dz1]; linarith
  have m2' : u2' = b' / d2.z := by rw [eq_div_iff dz2]; linarith
  set w := d1.mulS (1 / d1.z) - d2.mulS (1 / d2.z) with hw
  have hv : P1 - P2 = w.mulS b := by
    rw [e1, e2, m1, m2, hw]
    ext <;> simp <;> ring
  have hv' : P1 - P2 = (Geo.clockwise a w).mulS b' := by
    rw [hw, turn_sub, turn_mulS, turn_mulS]
    nth_rewrite 1 [e1']
    nth_rewrite 1 [e2']
    rw [m1', m2']
    ext <;> simp <;> ring
  have wz : w.z = 0 := by
    rw [hw]; simp [dz1, dz2]
  have hsc := Real.sin_sq_add_cos_sq a
  have n : (P1 - P2).normSq = b ^ 2 * w.normSq := by
    rw [hv]; simp only [V3.normSq, V3.mulS_x, V3.mulS_y, V3.mulS_z]; ring
  have n' : (P1 - P2).normSq = b' ^ 2 * w.normSq := by
    rw [hv']; simp only [V3.normSq, V3.mulS_x, V3.mulS_y, V3.mulS_z, Geo.clockwise]
    linear_combination (b' ^ 2 * (w.x ^ 2 + w.y ^ 2)) * hsc
  have hn : w.normSq ≠ 0 := by
    intro h0
    rw [h0, mul_zero] at n
    have := V3.eq_zero_of_normSq n
    apply hne
    have hx := congrArg V3.x this
    have hy := congrArg V3.y this
    simp only [V3.sub_x, V3.sub_y] at hx hy
    ext
    · linarith
    · linarith
    · exact hz
  have hsq : b' ^ 2 = b ^ 2 := mul_right_cancel₀ hn (n'.symm.trans n)
  have hbb : b' = b := by
    rcases sq_eq_sq_iff_eq_or_eq_neg.1 hsq with h | h
    · exact h
    · exfalso
      rw [h, neg_div] at m1'
      rw [← m1] at m1'
      have : u1 = 0 := by linarith
      rw [this, mul_zero, zero_add] at z1
      exact hZ z1
  have hfix : Geo.clockwise a w = w := by
    have := hv.symm.trans hv'
    rw [hbb] at this
    have hx := congrArg V3.x this
    have hy := congrArg V3.y this
    have hz := congrArg V3.z this
    simp only [V3.mulS_x, V3.mulS_y, V3.mulS_z] at hx hy hz
    ext
    · exact (mul_right_cancel₀ b0 hx).symm
    · exact (mul_right_cancel₀ b0 hy).symm
    · exact (mul_right_cancel₀ b0 hz).symm
  have hu : u1' = u1 := by rw [m1', m1, hbb]
  rw [hu, ← turn_mulS] at e1'
  have hxy : w.x ≠ 0 ∨ w.y ≠ 0 := by
    by_contra h
    push Not at h
    exact hn (by simp [V3.normSq, h.1, h.2, wz])
  obtain ⟨t, hCC⟩ := finish hxy hfix e1 e1'
  exact ⟨congrArg V3.x hCC, congrArg V3.y hCC, congrArg V3.z hCC, same_of_turn t⟩

/-- **C176** If the elevation is known too, the landmarks may have different heights; they must not be above each other. -/
theorem C176_heights (c : Cam) (hc : c.Proper) (o o' : Spatial.Params) (ho : c.orient = .thr o) (ht : o'.tilt_deg = o.tilt_deg) (hr : o'.roll_deg = o.roll_deg)
    (he : o'.elevation_m = o.elevation_m)
    (q1 q2 : V2 Num) (P1 P2 : V3 ℝ) (hne : P1.x ≠ P2.x ∨ P1.y ≠ P2.y) (hZ1 : P1.z ≠ o.elevation_m) (hZ2 : P2.z ≠ o.elevation_m)
    (s1 : Sighted c q1) (s2 : Sighted c q2)
    (h1 : OnSight c q1 P1) (h2 : OnSight c q2 P2) (h1' : OnSight { c with orient := .thr o' } q1 P1) (h2' : OnSight { c with orient := .thr o' } q2 P2) :
    o'.pos_x_m = o.pos_x_m ∧ o'.pos_y_m = o.pos_y_m ∧ SameAngle o'.heading_deg o.heading_deg := by
  have hf : Family c o o' := ⟨ho, ht, hr⟩
  obtain ⟨d1, u1, u1', -, -, e1, e1'⟩ := place hf hc s1 h1 h1'
  obtain ⟨d2, u2, u2', -, -, e2, e2'⟩ := place hf hc s2 h2 h2'
  set a := Spatial.rad (o'.heading_deg - o.heading_deg) with ha
  have hC : c.orient.pos = ⟨o.pos_x_m, o.pos_y_m, o.elevation_m⟩ := by rw [ho]; rfl
  have hC' : (Orient.thr o').pos = ⟨o'.pos_x_m, o'.pos_y_m, o'.elevation_m⟩ := rfl
  rw [hC] at e1 e2
  rw [hC'] at e1' e2'
  have z1 := congrArg V3.z e1
  have z2 := congrArg V3.z e2
  have z1' := congrArg V3.z e1'
  have z2' := congrArg V3.z e2'
  simp only [V3.add_z, V3.mulS_z, turn_z] at z1 z2 z1' z2'
  have dz1 : d1.z ≠ 0 := by
    intro h0; rw [h0, zero_mul, zero_add] at z1; exact hZ1 z1
  have dz2 : d2.z ≠ 0 := by
    intro h0; rw [h0, zero_mul, zero_add] at z2; exact hZ2 z2
  have m1 : u1' = u1 := mul_left_cancel₀ dz1 (by linarith)
  have m2 : u2' = u2 := mul_left_cancel₀ dz2 (by linarith)
  rw [m1, ← turn_mulS] at e1'
  rw [m2, ← turn_mulS] at e2'
  have hv : P1 - P2 = d1.mulS u1 - d2.mulS u2 := by
    rw [e1, e2]; ext <;> simp
  have hv' : P1 - P2 = Geo.clockwise a (d1.mulS u1 - d2.mulS u2) := by
    rw [turn_sub]
    nth_rewrite 1 [e1']
    nth_rewrite 1 [e2']
    ext <;> simp
  rw [← hv] at hv'
  have hxy : (P1 - P2).x ≠ 0 ∨ (P1 - P2).y ≠ 0 := by
    rcases hne with h | h
    · exact .inl (sub_ne_zero.2 h)
    · exact .inr (sub_ne_zero.2 h)
  obtain ⟨t, hCC⟩ := finish hxy hv'.symm e1 e1'
  exact ⟨congrArg V3.x hCC, congrArg V3.y hCC, same_of_turn t⟩

/-- **C176** If all angles are known, two landmarks that are not in line with the camera fix its position. -/
theorem C176_position (c c' : Cam) (hc : c.Proper) (hk : c'.kind = c.kind) (hi : c'.intr = c.intr) (hl : c'.lens = c.lens)
    (hR : c'.orient.mat.R = c.orient.mat.R) (q1 q2 : V2 Num) (P1 P2 : V3 ℝ)
    (hcr : V3.cross (P1 - c.orient.pos) (P2 - c.orient.pos) ≠ ⟨0, 0, 0⟩) (s1 : Sighted c q1) (s2 : Sighted c q2)
    (h1 : OnSight c q1 P1) (h2 : OnSight c q2 P2) (h1' : OnSight c' q1 P1) (h2' : OnSight c' q2 P2) : c'.orient.pos = c.orient.pos := by
  have hc' : c'.Proper := by unfold Cam.Proper; rw [hi]; exact hc
  have key : ∀ (q : V2 Num) (P : V3 ℝ), Sighted c q → OnSight c q P → OnSight c' q P →
      ∃ (d : V3 ℝ) (u u' : ℝ), P = d.mulS u + c.orient.pos ∧ P = d.mulS u' + c'.orient.pos := by
    intro q P hs h h'
    obtain ⟨p, hp, u, hu, e⟩ := sight_dir hc hs h
    obtain ⟨p', hp', u', hu', e'⟩ := sight_dir hc' (by unfold Sighted; rw [hl]; exact hs) h'
    rw [hl] at hp'
    have := hp'.unique hp
    subst this
    refine ⟨_, u, u', e, ?_⟩
    rw [e']
    unfold dirR
    rw [hR, hk, hi]
  obtain ⟨d1, u1, u1', e1, e1'⟩ := key q1 P1 s1 h1 h1'
  obtain ⟨d2, u2, u2', e2, e2'⟩ := key q2 P2 s2 h2 h2'
  set C := c.orient.pos
  set C' := c'.orient.pos
  have f1 := e1.symm.trans e1'
  have f2 := e2.symm.trans e2'
  have x1 := congrArg V3.x f1
  have y1 := congrArg V3.y f1
  have w1 := congrArg V3.z f1
  have x2 := congrArg V3.x f2
  have y2 := congrArg V3.y f2
  have w2 := congrArg V3.z f2
  simp only [V3.add_x, V3.add_y, V3.add_z, V3.mulS_x, V3.mulS_y, V3.mulS_z] at x1 y1 w1 x2 y2 w2
  have hd : V3.cross d1 d2 ≠ ⟨0, 0, 0⟩ := by
    intro h0
    apply hcr
    rw [e1, e2]
    have a := congrArg V3.x h0
    have b := congrArg V3.y h0
    have g := congrArg V3.z h0
    simp only [V3.cross] at a b g
    ext <;> simp only [V3.cross, V3.sub_x, V3.sub_y, V3.sub_z, V3.add_x, V3.add_y, V3.add_z, V3.mulS_x, V3.mulS_y, V3.mulS_z]
    · linear_combination u1 * u2 * a
    · linear_combination u1 * u2 * b
    · linear_combination u1 * u2 * g
  have hu : u1 = u1' := by
    by_contra hne
    apply hd
    have hk : u1 - u1' ≠ 0 := sub_ne_zero.2 hne
    have ax : (u1 - u1') * d1.x = (u2 - u2') * d2.x := by linarith
    have ay : (u1 - u1') * d1.y = (u2 - u2') * d2.y := by linarith
    have az : (u1 - u1') * d1.z = (u2 - u2') * d2.z := by linarith
    ext <;> simp only [V3.cross] <;> apply mul_left_cancel₀ hk
    · linear_combination d2.z * ay - d2.y * az
    · linear_combination d2.x * az - d2.z * ax
    · linear_combination d2.y * ax - d2.x * ay
  rw [hu] at x1 y1 w1
  ext <;> linarith

/-- **C176** One landmark is not enough: for every heading there is a position, at the same elevation, from which the landmark is on the ray of its pixel. -/
theorem C176_one (c : Cam) (hc : c.Proper) (o : Spatial.Params) (ho : c.orient = .thr o) (q : V2 Num) (P : V3 ℝ) (hs : Sighted c q)
    (h : OnSight c q P) (heading : ℝ) :
    ∃ x y : ℝ, OnSight { c with orient := .thr { o with heading_deg := heading, pos_x_m := x, pos_y_m := y } } q P := by
  obtain ⟨p, hp, u, hu, e⟩ := sight_dir hc hs h
  set v := Geo.clockwise (Spatial.rad (heading - o.heading_deg)) (dirR c p) with hv
  set o' : Spatial.Params := { o with heading_deg := heading, pos_x_m := P.x - v.x * u, pos_y_m := P.y - v.y * u } with ho'
  have hd := getRay_real { c with orient := .thr o' } hc (n := q) (p := p) hp
  rw [Measure.dir_turned c o o' ho rfl rfl] at hd
  refine ⟨P.x - v.x * u, P.y - v.y * u, v, hd, u, hu, ?_⟩
  have hz := congrArg V3.z e
  rw [ho] at hz
  simp only [V3.add_z, V3.mulS_z] at hz
  ext
  · simp [Orient.pos]
  · simp [Orient.pos]
  · simp only [V3.add_z, V3.mulS_z]; exact hz

/-- **C176** (partial: the same uncertainty in all directions, see C108) The log probability: if the camera `c` has seen two landmarks on the ground, then
of all cameras with its tilt and roll only those with its position, elevation and heading have as high a log probability. -/
theorem C176_unique_partial (c : Cam) (hc : c.Proper) (o : Spatial.Params) (ho : c.orient = .thr o) (ls : List Landmark) (hl : ∀ l ∈ ls, Round l)
    (hsee : ∀ l ∈ ls, ∃ P : V3 ℝ, l.pos.Is P ∧ Sees c P l.pixel) {l1 l2 : Landmark} (m1 : l1 ∈ ls) (m2 : l2 ∈ ls) {P1 P2 : V3 ℝ}
    (i1 : l1.pos.Is P1) (i2 : l2.pos.Is P2) (hz : P1.z = P2.z) (hne : P1 ≠ P2) (hZ : P1.z ≠ o.elevation_m) :
    ∃ best : ℝ, Num.Is (landmarkTerm c ls) best ∧ ∀ o' : Spatial.Params, o'.tilt_deg = o.tilt_deg → o'.roll_deg = o.roll_deg →
      (landmarkTerm { c with orient := .thr o' } ls = .nan ∨ landmarkTerm { c with orient := .thr o' } ls ≤ .fin best) ∧
      (Num.Is (landmarkTerm { c with orient := .thr o' } ls) best →
        o'.pos_x_m = o.pos_x_m ∧ o'.pos_y_m = o.pos_y_m ∧ o'.elevation_m = o.elevation_m ∧ SameAngle o'.heading_deg o.heading_deg) := by
  obtain ⟨best, hb⟩ := C108_landmark_best_partial ls hl
  have hsi : ∀ l ∈ ls, Sighted c l.pixel := fun l k => let ⟨_, _, q⟩ := hsee l k; sees_sighted c hc q
  have hon : ∀ l ∈ ls, ∃ P : V3 ℝ, l.pos.Is P ∧ OnSight c l.pixel P := fun l k => (hsee l k).imp fun P q => ⟨q.1, sees_onSight c hc q.2⟩
  refine ⟨best, (hb c hc hsi).2.2 hon, fun o' ht hr => ?_⟩
  obtain ⟨g1, g2⟩ := hb { c with orient := .thr o' } hc hsi
  refine ⟨g1, fun h => ?_⟩
  have hon' := g2.1 h
  have get : ∀ (c : Cam) (l : Landmark) (P : V3 ℝ), l.pos.Is P → (∃ P : V3 ℝ, l.pos.Is P ∧ OnSight c l.pixel P) → OnSight c l.pixel P := by
    rintro c l P h ⟨Q, h1, h2⟩
    rw [h.unique h1]; exact h2
  exact C176_ground c hc o o' ho ht hr l1.pixel l2.pixel P1 P2 hz hne hZ (hsi l1 m1) (hsi l2 m2) (get _ _ _ i1 (hon l1 m1)) (get _ _ _ i2 (hon l2 m2))
    (get _ _ _ i1 (hon' l1 m1)) (get _ _ _ i2 (hon' l2 m2))

/-- Two landmarks on the ground below `exampleCam`. -/
example : ∃ best : ℝ, Num.Is (landmarkTerm exampleCam [⟨imageFromSpace exampleCam (V3.num ⟨1, 2, 0⟩), V3.num ⟨1, 2, 0⟩, ⟨3, 3, 3⟩⟩,
      ⟨imageFromSpace exampleCam (V3.num ⟨4, 1, 0⟩), V3.num ⟨4, 1, 0⟩, ⟨3, 3, 3⟩⟩]) best ∧ ∀ o' : Spatial.Params, o'.tilt_deg = 0 → o'.roll_deg = 0 →
      (landmarkTerm { exampleCam with orient := .thr o' } [⟨imageFromSpace exampleCam (V3.num ⟨1, 2, 0⟩), V3.num ⟨1, 2, 0⟩, ⟨3, 3, 3⟩⟩,
      ⟨imageFromSpace exampleCam (V3.num ⟨4, 1, 0⟩), V3.num ⟨4, 1, 0⟩, ⟨3, 3, 3⟩⟩] = .nan ∨
       landmarkTerm { exampleCam with orient := .thr o' } [⟨imageFromSpace exampleCam (V3.num ⟨1, 2, 0⟩), V3.num ⟨1, 2, 0⟩, ⟨3, 3, 3⟩⟩,
      ⟨imageFromSpace exampleCam (V3.num ⟨4, 1, 0⟩), V3.num ⟨4, 1, 0⟩, ⟨3, 3, 3⟩⟩] ≤ .fin best) ∧
      (Num.Is (landmarkTerm { exampleCam with orient := .thr o' } [⟨imageFromSpace exampleCam (V3.num ⟨1, 2, 0⟩), V3.num ⟨1, 2, 0⟩, ⟨3, 3, 3⟩⟩,
      ⟨imageFromSpace exampleCam (V3.num ⟨4, 1, 0⟩), V3.num ⟨4, 1, 0⟩, ⟨3, 3, 3⟩⟩]) best →
        o'.pos_x_m = 0 ∧ o'.pos_y_m = 0 ∧ o'.elevation_m = 10 ∧ SameAngle o'.heading_deg 0) := by
  refine C176_unique_partial exampleCam exampleCam_proper ⟨10, 0, 0, 0, 0, 0⟩ rfl _ ?_ ?_ (l1 := ⟨imageFromSpace exampleCam (V3.num ⟨1, 2, 0⟩), V3.num ⟨1, 2, 0⟩, ⟨3, 3, 3⟩⟩)
    (l2 := ⟨imageFromSpace exampleCam (V3.num ⟨4, 1, 0⟩), V3.num ⟨4, 1, 0⟩, ⟨3, 3, 3⟩⟩) (by simp) (by simp) (P1 := ⟨1, 2, 0⟩) (P2 := ⟨4, 1, 0⟩)
    (V3.is_num _) (V3.is_num _) rfl (by intro h; have := congrArg V3.x h; norm_num at this) (by norm_num)
  · intro l hl
    simp only [List.mem_cons, List.not_mem_nil, or_false] at hl
    rcases hl with rfl | rfl
    · exact ⟨⟨_, V3.is_num _⟩, 3, by norm_num, rfl⟩
    · exact ⟨⟨_, V3.is_num _⟩, 3, by norm_num, rfl⟩
  · intro l hl
    simp only [List.mem_cons, List.not_mem_nil, or_false] at hl
    rcases hl with rfl | rfl
    · exact ⟨_, V3.is_num _, exampleCam_visible _ (by norm_num), exactFor_none rfl _ _, rfl⟩
    · exact ⟨_, V3.is_num _, exampleCam_visible _ (by norm_num), exactFor_none rfl _ _, rfl⟩

theorem Landmarks.example_on (P : V3 ℝ) (h : P.z ≤ 9) : Sighted exampleCam (imageFromSpace exampleCam P.num) ∧ OnSight exampleCam (imageFromSpace exampleCam P.num) P :=
  have s : Sees exampleCam P (imageFromSpace exampleCam P.num) := ⟨exampleCam_visible _ h, exactFor_none rfl _ _, rfl⟩
  ⟨sees_sighted _ exampleCam_proper s, sees_onSight _ exampleCam_proper s⟩

/-- The hypotheses of `C176_ground`, `C176_heights`, `C176_position` and `C176_one` are met by `exampleCam` and itself. -/
example : (0 : ℝ) = 0 ∧ SameAngle 0 0 :=
  ⟨(C176_ground exampleCam exampleCam_proper ⟨10, 0, 0, 0, 0, 0⟩ ⟨10, 0, 0, 0, 0, 0⟩ rfl rfl rfl _ _ ⟨1, 2, 0⟩ ⟨4, 1, 0⟩ rfl
      (by intro h; have := congrArg V3.x h; norm_num at this) (by norm_num) (example_on _ (by norm_num)).1 (example_on _ (by norm_num)).1
      (example_on _ (by norm_num)).2 (example_on _ (by norm_num)).2 (example_on _ (by norm_num)).2 (example_on _ (by norm_num)).2).1,
   (C176_heights exampleCam exampleCam_proper ⟨10, 0, 0, 0, 0, 0⟩ ⟨10, 0, 0, 0, 0, 0⟩ rfl rfl rfl rfl _ _ ⟨1, 2, 0⟩ ⟨4, 1, 3⟩
      (by norm_num) (by norm_num) (by norm_num) (example_on _ (by norm_num)).1 (example_on _ (by norm_num)).1
      (example_on _ (by norm_num)).2 (example_on _ (by norm_num)).2 (example_on _ (by norm_num)).2 (example_on _ (by norm_num)).2).2.2⟩

example : exampleCam.orient.pos = exampleCam.orient.pos :=
  C176_position exampleCam exampleCam exampleCam_proper rfl rfl rfl rfl _ _ ⟨1, 2, 0⟩ ⟨4, 1, 3⟩
    (by
      intro h
      have := congrArg V3.x h
      norm_num [V3.cross, exampleCam, Orient.pos] at this) (example_on _ (by norm_num)).1 (example_on _ (by norm_num)).1
    (example_on _ (by norm_num)).2 (example_on _ (by norm_num)).2 (example_on _ (by norm_num)).2 (example_on _ (by norm_num)).2

example : ∃ x y : ℝ, OnSight { exampleCam with orient := .thr ⟨10, 0, 0, 77, x, y⟩ } (imageFromSpace exampleCam (V3.num ⟨1, 2, 0⟩)) ⟨1, 2, 0⟩ :=
  C176_one exampleCam exampleCam_proper ⟨10, 0, 0, 0, 0, 0⟩ rfl _ _ (example_on _ (by norm_num)).1 (example_on _ (by norm_num)).2 77
