import Verif.Props.Camera
import Verif.Props.Terms
import Mathlib.Analysis.SpecialFunctions.Complex.Arg

/-! # What measured heights and lengths depend on: C174 -/

open Classical Num Camera Terms

namespace Measure

/-- The ray of a pixel after the camera was turned, moved and lifted. -/
theorem dir_turned (c : Cam) (o o' : Spatial.Params) (ho : c.orient = .thr o) (ht : o'.tilt_deg = o.tilt_deg) (hr : o'.roll_deg = o.roll_deg)
    (q : V2 ℝ) : dirR { c with orient := .thr o' } q = Geo.clockwise (Spatial.rad (o'.heading_deg - o.heading_deg)) (dirR c q) := by
  have hm : ∀ p : Spatial.Params, (Orient.thr p).mat = Spatial.matrices p := fun p => (C12_heading_wrap p).2.2.2.2.1
  unfold dirR
  simp only [ho, hm, Spatial.matrices, Spatial.rotation, ht, hr]
  set A := M3.mul (Spatial.R_roll (Spatial.rad o.roll_deg)) (Spatial.R_tilt (Spatial.rad o.tilt_deg))
  have hmul : ∀ (B : M3) (v : V3 ℝ), (M3.mul A B).T.applyR v = B.T.applyR (A.T.applyR v) := by
    intro B v
    ext <;> simp [M3.mul, M3.rowMul, M3.T, M3.applyR, V3.dot] <;> ring
  rw [hmul, hmul]
  set v := A.T.applyR (Projection.rayR c.kind c.intr q)
  have e : Spatial.rad o'.heading_deg = Spatial.rad o.heading_deg + Spatial.rad (o'.heading_deg - o.heading_deg) := by
    unfold Spatial.rad; ring
  rw [e]
  set h := Spatial.rad o.heading_deg
  set d := Spatial.rad (o'.heading_deg - o.heading_deg)
  ext <;> simp [Spatial.R_head, M3.T, M3.applyR, V3.dot, Geo.clockwise, Real.cos_add, Real.sin_add] <;> ring

/-- The three factors of `getObjectHeight`, for a camera at the height `e` above the foot and the rays of foot and head. -/
noncomputable def k0 (e : ℝ) (f : V3 ℝ) : ℝ := -e / f.z
noncomputable def k1 (e : ℝ) (f g : V3 ℝ) : ℝ := k0 e f * (f.y / g.y)
noncomputable def k2 (e : ℝ) (f g : V3 ℝ) : ℝ := k0 e f * (f.x / g.x)

theorem height_eq (c : Cam) {p q : V2 Num} {f g : V3 ℝ} (hf : (getRay c p).2.Is f) (hg : (getRay c q).2.Is g) (fz : f.z ≠ 0)
    (gx : g.x ≠ 0) (gy : g.y ≠ 0) (Z : ℝ) :
    let e := c.orient.pos.z - Z
    (0 ≤ k0 e f → 0 ≤ k1 e f g → 0 ≤ k2 e f g → ∃ H, getObjectHeight c p q (fin Z) = .ok H ∧ Num.Is H (e + g.z * (k1 e f g + k2 e f g) / 2)) ∧
    (0 ≤ k0 e f → (k1 e f g < 0 ∨ k2 e f g < 0) → getObjectHeight c p q (fin Z) = .ok .nan) ∧
    (k0 e f < 0 → getObjectHeight c p q (fin Z) = .ok .nan) := by
  intro e
  have of := getRay_offset c p false
  have og := getRay_offset c q false
  have i0 : Num.Is ((fin Z - (getRay c p).1.get 2) / (getRay c p).2.get 2) (k0 e f) := by
    refine (((is_fin Z).sub (of.get 2)).div (hf.get 2) fz).congr ?_
    show (Z - c.orient.pos.z) / f.z = -(c.orient.pos.z - Z) / f.z
    ring
  have e0 : spaceFromImage c p { Z := some (fin Z) } = .ok _ := spaceFromImage_coord c p 2 (fin Z)
  set F := pointAt (getRay c p).1 (getRay c p).2 ((fin Z - (getRay c p).1.get 2) / (getRay c p).2.get 2) with hF
  have e1 : spaceFromImage c q { Y := some F.y } = .ok _ := spaceFromImage_coord c q 1 F.y
  have e2 : spaceFromImage c q { X := some F.x } = .ok _ := spaceFromImage_coord c q 0 F.x
  set A := pointAt (getRay c q).1 (getRay c q).2 ((F.y - (getRay c q).1.get 1) / (getRay c q).2.get 1) with hA
  set B := pointAt (getRay c q).1 (getRay c q).2 ((F.x - (getRay c q).1.get 0) / (getRay c q).2.get 0) with hB
  have eH : getObjectHeight c p q (fin Z) = .ok ((Ray.mean2 A B).z - F.z) := by
    unfold getObjectHeight
    rw [e0]
    show (do let h1 ← spaceFromImage c q { Y := some F.y }; let h2 ← spaceFromImage c q { X := some F.x }; return (Ray.mean2 h1 h2).z - F.z) = _
    rw [e1, e2]; rfl
  rw [eH]
  have main : 0 ≤ k0 e f → F.Is (f.mulS (k0 e f) + c.orient.pos) := fun h => pointAt_is hf of i0 h
  have i1 : 0 ≤ k0 e f → Num.Is ((F.y - (getRay c q).1.get 1) / (getRay c q).2.get 1) (k1 e f g) := by
    intro h
    refine (((main h).2.1.sub (og.get 1)).div (hg.get 1) gy).congr ?_
    show (f.y * k0 e f + c.orient.pos.y - c.orient.pos.y) / g.y = _
    unfold k1; ring
  have i2 : 0 ≤ k0 e f → Num.Is ((F.x - (getRay c q).1.get 0) / (getRay c q).2.get 0) (k2 e f g) := by
    intro h
    refine (((main h).1.sub (og.get 0)).div (hg.get 0) gx).congr ?_
    show (f.x * k0 e f + c.orient.pos.x - c.orient.pos.x) / g.x = _
    unfold k2; ring
  refine ⟨fun h0 h1 h2 => ⟨_, rfl, ?_⟩, fun h0 h12 => ?_, fun h0 => ?_⟩
  · have a := pointAt_is hg og (i1 h0) h1
    have b := pointAt_is hg og (i2 h0) h2
    have := ((a.add b).divS (is_fin 2) two_ne_zero).2.2.sub (main h0).2.2
    refine this.congr ?_
    simp only [V3.divS_z, V3.add_z, V3.mulS_z]
    have hk : f.z * k0 e f = -e := by unfold k0; field_simp
    rw [hk]
    ring
  · have : (Ray.mean2 A B).z = .nan := by
      rcases h12 with h | h
      · rw [hA, pointAt_neg (i1 h0) h]
        show (V3.nan.z + B.z) / _ = _
        simp [V3.nan]
      · rw [hB, pointAt_neg (i2 h0) h]
        show (A.z + V3.nan.z) / _ = _
        simp [V3.nan]
    rw [this]; rfl
  · have : F.z = .nan := by rw [hF, pointAt_neg i0 h0]; rfl
    rw [this]
    simp

theorem exists_turn {x y : ℝ} (h : x ^ 2 + y ^ 2 = 1) : ∃ θ, Real.cos θ = x ∧ Real.sin θ = y := by
  have h0 : (⟨x, y⟩ : ℂ) ≠ 0 := by
    intro h0
    have a := congrArg Complex.re h0
    have b := congrArg Complex.im h0
    simp only [Complex.zero_re, Complex.zero_im] at a b
    rw [a, b] at h; norm_num at h
  have hn : ‖(⟨x, y⟩ : ℂ)‖ = 1 := by
    rw [Complex.norm_def, Complex.normSq_mk, show x * x + y * y = 1 by linarith, Real.sqrt_one]
  refine ⟨Complex.arg ⟨x, y⟩, ?_, ?_⟩
  · rw [Complex.cos_arg h0, hn]; simp
  · rw [Complex.sin_arg, hn]; simp

/-- The camera can be turned so that the head is seen in a direction close to one of the axes. -/
theorem aim (f g : V3 ℝ) (hv : f.x * g.y - f.y * g.x ≠ 0) (t : ℝ) (ht : 0 < t) :
    ∃ ρ u v θ, 0 < ρ ∧ u = (f.x * g.x + f.y * g.y) / ρ ∧ v = |f.x * g.y - f.y * g.x| / ρ ∧ ρ = Real.sqrt (g.x ^ 2 + g.y ^ 2) ∧
      (Geo.clockwise θ g).x ≠ 0 ∧ (Geo.clockwise θ g).y ≠ 0 ∧
      ∀ e, (k1 e (Geo.clockwise θ f) (Geo.clockwise θ g) = k0 e f * (u - v * t) / ρ ∧ k2 e (Geo.clockwise θ f) (Geo.clockwise θ g) = k0 e f * (u + v / t) / ρ) ∨
        (k1 e (Geo.clockwise θ f) (Geo.clockwise θ g) = k0 e f * (u + v / t) / ρ ∧ k2 e (Geo.clockwise θ f) (Geo.clockwise θ g) = k0 e f * (u - v * t) / ρ) := by
  have hg : 0 < g.x ^ 2 + g.y ^ 2 := by
    rcases eq_or_ne g.x 0 with h | h
    · have : g.y ≠ 0 := fun h' => hv (by rw [h, h']; ring)
      positivity
    · positivity
  have hρ : 0 < Real.sqrt (g.x ^ 2 + g.y ^ 2) := Real.sqrt_pos.2 hg
  have hρ2 : Real.sqrt (g.x ^ 2 + g.y ^ 2) ^ 2 = g.x ^ 2 + g.y ^ 2 := Real.sq_sqrt hg.le
  set ρ := Real.sqrt (g.x ^ 2 + g.y ^ 2)
  have turn : ∀ C S : ℝ, 0 < C → 0 < S → C ^ 2 + S ^ 2 = 1 → ∃ θ, (Geo.clockwise θ g).x = ρ * C ∧ (Geo.clockwise θ g).y = ρ * S ∧
      (Geo.clockwise θ f).x = ((f.x * g.x + f.y * g.y) * C + (f.x * g.y - f.y * g.x) * S) / ρ ∧
      (Geo.clockwise θ f).y = ((f.x * g.x + f.y * g.y) * S - (f.x * g.y - f.y * g.x) * C) / ρ := by
    intro C S hC hS h1
    obtain ⟨θ, a, b⟩ := exists_turn (x := (g.x * C + g.y * S) / ρ) (y := (g.y * C - g.x * S) / ρ) (by
      rw [div_pow, div_pow, ← add_div, div_eq_one_iff_eq (by positivity), hρ2]
      linear_combination (g.x ^ 2 + g.y ^ 2) * h1)
    refine ⟨θ, ?_, ?_, ?_, ?_⟩
    · simp only [Geo.clockwise, a, b]
      field_simp
      linear_combination (-C) * hρ2
    · simp only [Geo.clockwise, a, b]
      field_simp
      linear_combination (-S) * hρ2
    · simp only [Geo.clockwise, a, b]
      field_simp
      ring
    · simp only [Geo.clockwise, a, b]
      field_simp
      ring
  set N := Real.sqrt (1 + t ^ 2) with hN
  have hN0 : 0 < N := Real.sqrt_pos.2 (by positivity)
  have hN2 : N ^ 2 = 1 + t ^ 2 := Real.sq_sqrt (by positivity)
  rcases lt_or_gt_of_ne hv with h | h
  · obtain ⟨θ, a, b, x, y⟩ := turn (1 / N) (t / N) (by positivity) (by positivity) (by
      rw [div_pow, div_pow, ← add_div, hN2, one_pow, div_self (by positivity)])
    refine ⟨ρ, _, _, θ, hρ, rfl, rfl, rfl, by rw [a]; positivity, by rw [b]; positivity, fun e => Or.inr ⟨?_, ?_⟩⟩
    · unfold k1
      rw [y, b, abs_of_neg h]
      show k0 e f * _ = _
      field_simp
      ring
    · unfold k2
      rw [x, a, abs_of_neg h]
      show k0 e f * _ = _
      field_simp
      ring
  · obtain ⟨θ, a, b, x, y⟩ := turn (t / N) (1 / N) (by positivity) (by positivity) (by
      rw [div_pow, div_pow, ← add_div, hN2, one_pow, add_comm, div_self (by positivity)])
    refine ⟨ρ, _, _, θ, hρ, rfl, rfl, rfl, by rw [a]; positivity, by rw [b]; positivity, fun e => Or.inl ⟨?_, ?_⟩⟩
    · unfold k1
      rw [y, b, abs_of_pos h]
      show k0 e f * _ = _
      field_simp
    · unfold k2
      rw [x, a, abs_of_pos h]
      show k0 e f * _ = _
      field_simp

theorem length_eq (c : Cam) {p q : V2 Num} {f g : V3 ℝ} (hf : (getRay c p).2.Is f) (hg : (getRay c q).2.Is g) (fz : f.z ≠ 0) (gz : g.z ≠ 0) (Z : ℝ) :
    let e := c.orient.pos.z - Z
    (0 ≤ k0 e f → 0 ≤ k0 e g → ∃ L, getObjectLength c p q (fin Z) = .ok L ∧ Num.Is L (f.mulS (k0 e f) - g.mulS (k0 e g)).norm) ∧
    (k0 e f < 0 ∨ k0 e g < 0 → getObjectLength c p q (fin Z) = .ok .nan) := by
  intro e
  have fac : ∀ (n : V2 Num) (d : V3 ℝ), (getRay c n).2.Is d → d.z ≠ 0 → Num.Is ((fin Z - (getRay c n).1.get 2) / (getRay c n).2.get 2) (k0 e d) := by
    intro n d hd hz
    refine (((is_fin Z).sub ((getRay_offset c n false).get 2)).div (hd.get 2) hz).congr ?_
    show (Z - c.orient.pos.z) / d.z = -(c.orient.pos.z - Z) / d.z
    ring
  have e0 : ∀ n, spaceFromImage c n { Z := some (fin Z) } = .ok _ := fun n => spaceFromImage_coord c n 2 (fin Z)
  have eL : getObjectLength c p q (fin Z) = .ok (pointAt (getRay c p).1 (getRay c p).2 ((fin Z - (getRay c p).1.get 2) / (getRay c p).2.get 2)
      - pointAt (getRay c q).1 (getRay c q).2 ((fin Z - (getRay c q).1.get 2) / (getRay c q).2.get 2)).normN := by
    unfold getObjectLength
    rw [e0, e0]; rfl
  rw [eL]
  refine ⟨fun h1 h2 => ⟨_, rfl, ?_⟩, fun h => ?_⟩
  · have a := pointAt_is hf (getRay_offset c p false) (fac p f hf fz) h1
    have b := pointAt_is hg (getRay_offset c q false) (fac q g hg gz) h2
    refine (V3.Is.normN (a.sub b)).congr ?_
    congr 1
    ext <;> simp
  · rcases h with h | h
    · rw [pointAt_neg (fac p f hf fz) h]
      simp [V3.nan, V3.normN]
    · rw [pointAt_neg (fac q g hg gz) h]
      simp [V3.nan, V3.normN]

theorem k0_scale (s e : ℝ) (f : V3 ℝ) : k0 (s * e) f = s * k0 e f := by unfold k0; ring

end Measure

open Measure

/-- **C174** Measured lengths do not depend on where the camera is and in which direction it looks, and are proportional to its
height above the objects. -/
theorem C174_length (c : Cam) (hc : c.Proper) (o o' : Spatial.Params) (ho : c.orient = .thr o) (ht : o'.tilt_deg = o.tilt_deg)
    (hr : o'.roll_deg = o.roll_deg) (Z s : ℝ) (hs : 0 < s) (he : o'.elevation_m - Z = s * (o.elevation_m - Z)) {p q : V2 Num} {u v : V2 ℝ}
    (hp : (c.lens.imageFromDistorted p).Is u) (hq : (c.lens.imageFromDistorted q).Is v)
    (fz : ∀ f : V3 ℝ, (getRay c p).2.Is f → f.z ≠ 0) (gz : ∀ g : V3 ℝ, (getRay c q).2.Is g → g.z ≠ 0) {L : Num} {l : ℝ}
    (h : getObjectLength c p q (fin Z) = .ok L) (hL : Num.Is L l) :
    ∃ L', getObjectLength { c with orient := .thr o' } p q (fin Z) = .ok L' ∧ Num.Is L' (s * l) := by
  set c' : Cam := { c with orient := .thr o' } with hc'
  have hf := getRay_real c hc hp
  have hg := getRay_real c hc hq
  have hf' : (getRay c' p).2.Is (dirR c' u) := getRay_real c' hc hp
  have hg' : (getRay c' q).2.Is (dirR c' v) := getRay_real c' hc hq
  set θ := Spatial.rad (o'.heading_deg - o.heading_deg)
  have ef : dirR c' u = Geo.clockwise θ (dirR c u) := dir_turned c o o' ho ht hr u
  have eg : dirR c' v = Geo.clockwise θ (dirR c v) := dir_turned c o o' ho ht hr v
  rw [ef] at hf'
  rw [eg] at hg'
  have fz := fz _ hf
  have gz := gz _ hg
  set f := dirR c u
  set g := dirR c v
  have z0 : c.orient.pos.z = o.elevation_m := by rw [ho]; rfl
  have z1 : c'.orient.pos.z = o'.elevation_m := rfl
  obtain ⟨a, b⟩ := length_eq c hf hg fz gz Z
  obtain ⟨a', -⟩ := length_eq c' hf' hg' (by exact fz) (by exact gz) Z
  rw [z0] at a b
  rw [z1, he] at a'
  have kf : k0 (s * (o.elevation_m - Z)) (Geo.clockwise θ f) = s * k0 (o.elevation_m - Z) f := k0_scale _ _ _
  have kg : k0 (s * (o.elevation_m - Z)) (Geo.clockwise θ g) = s * k0 (o.elevation_m - Z) g := k0_scale _ _ _
  rw [kf, kg] at a'
  have nn : 0 ≤ k0 (o.elevation_m - Z) f ∧ 0 ≤ k0 (o.elevation_m - Z) g := by
    by_contra h0
    have h1 : k0 (o.elevation_m - Z) f < 0 ∨ k0 (o.elevation_m - Z) g < 0 := by
      by_contra h2
      push Not at h2
      exact h0 h2
    rw [b h1] at h
    cases h
    simp at hL
  obtain ⟨L0, e0, i0⟩ := a nn.1 nn.2
  rw [e0] at h
  cases h
  obtain ⟨L1, e1, i1⟩ := a' (mul_nonneg hs.le nn.1) (mul_nonneg hs.le nn.2)
  refine ⟨L1, e1, i1.congr ?_⟩
  rw [hL.unique i0]
  set A := k0 (o.elevation_m - Z) f
  set B := k0 (o.elevation_m - Z) g
  have e : (Geo.clockwise θ f).mulS (s * A) - (Geo.clockwise θ g).mulS (s * B) = (Geo.clockwise θ (f.mulS A - g.mulS B)).mulS s := by
    ext <;> simp [Geo.clockwise] <;> ring
  rw [e]
  unfold V3.norm
  have : ((Geo.clockwise θ (f.mulS A - g.mulS B)).mulS s).normSq = s ^ 2 * (f.mulS A - g.mulS B).normSq := by
    simp only [V3.normSq, Geo.clockwise, V3.mulS_x, V3.mulS_y, V3.mulS_z]
    set w := f.mulS A - g.mulS B
    linear_combination s ^ 2 * (w.x ^ 2 + w.y ^ 2) * Real.sin_sq_add_cos_sq θ
  rw [this, Real.sqrt_mul (sq_nonneg s), Real.sqrt_sq hs.le]

/-- **C174** Measured heights do not depend on where the camera is, and are proportional to its height above the feet of the objects. -/
theorem C174_height_moved (c : Cam) (hc : c.Proper) (o o' : Spatial.Params) (ho : c.orient = .thr o) (ht : o'.tilt_deg = o.tilt_deg)
    (hr : o'.roll_deg = o.roll_deg) (hh : o'.heading_deg = o.heading_deg) (Z s : ℝ) (hs : 0 < s)
    (he : o'.elevation_m - Z = s * (o.elevation_m - Z)) {p q : V2 Num} {u v : V2 ℝ}
    (hp : (c.lens.imageFromDistorted p).Is u) (hq : (c.lens.imageFromDistorted q).Is v)
    (fz : ∀ f : V3 ℝ, (getRay c p).2.Is f → f.z ≠ 0) (gxy : ∀ g : V3 ℝ, (getRay c q).2.Is g → g.x ≠ 0 ∧ g.y ≠ 0) {H : Num} {x : ℝ}
    (h : getObjectHeight c p q (fin Z) = .ok H) (hH : Num.Is H x) :
    ∃ H', getObjectHeight { c with orient := .thr o' } p q (fin Z) = .ok H' ∧ Num.Is H' (s * x) := by
  set c' : Cam := { c with orient := .thr o' } with hc'
  have hf := getRay_real c hc hp
  have hg := getRay_real c hc hq
  have hf' : (getRay c' p).2.Is (dirR c' u) := getRay_real c' hc hp
  have hg' : (getRay c' q).2.Is (dirR c' v) := getRay_real c' hc hq
  have same : ∀ w : V3 ℝ, Geo.clockwise (Spatial.rad (o'.heading_deg - o.heading_deg)) w = w := by
    intro w; rw [hh, sub_self]; ext <;> simp [Geo.clockwise, Spatial.rad]
  have ef : dirR c' u = dirR c u := (dir_turned c o o' ho ht hr u).trans (same _)
  have eg : dirR c' v = dirR c v := (dir_turned c o o' ho ht hr v).trans (same _)
  rw [ef] at hf'
  rw [eg] at hg'
  have fz := fz _ hf
  obtain ⟨gx, gy⟩ := gxy _ hg
  set f := dirR c u
  set g := dirR c v
  have z0 : c.orient.pos.z = o.elevation_m := by rw [ho]; rfl
  have z1 : c'.orient.pos.z = o'.elevation_m := rfl
  obtain ⟨a, b, b'⟩ := height_eq c hf hg fz gx gy Z
  obtain ⟨a', -⟩ := height_eq c' hf' hg' fz gx gy Z
  rw [z0] at a b b'
  rw [z1, he] at a'
  set e := o.elevation_m - Z
  have q0 : k0 (s * e) f = s * k0 e f := k0_scale _ _ _
  have q1 : k1 (s * e) f g = s * k1 e f g := by unfold k1; rw [q0]; ring
  have q2 : k2 (s * e) f g = s * k2 e f g := by unfold k2; rw [q0]; ring
  rw [q0, q1, q2] at a'
  have hn : ∀ r : Except PyErr Num, r = .ok .nan → r = .ok H → False := by
    intro r h1 h2
    rw [h1] at h2
    cases h2
    simp at hH
  have n0 : 0 ≤ k0 e f := by
    by_contra h0
    exact hn _ (b' (not_le.1 h0)) h
  have n1 : 0 ≤ k1 e f g := by
    by_contra h0
    exact hn _ (b n0 (Or.inl (not_le.1 h0))) h
  have n2 : 0 ≤ k2 e f g := by
    by_contra h0
    exact hn _ (b n0 (Or.inr (not_le.1 h0))) h
  obtain ⟨H0, e0, i0⟩ := a n0 n1 n2
  rw [e0] at h
  cases h
  obtain ⟨H1, e1, i1⟩ := a' (mul_nonneg hs.le n0) (mul_nonneg hs.le n1) (mul_nonneg hs.le n2)
  refine ⟨H1, e1, i1.congr ?_⟩
  rw [hH.unique i0]
  ring

/-- **C174** For two pixels in the same vertical plane, as those of a point and a point above it, the measured height does not depend on the direction
of the camera either, as long as the head is not seen along one of the axes. -/
theorem C174_height_partial (c : Cam) (hc : c.Proper) (o o' : Spatial.Params) (ho : c.orient = .thr o) (ht : o'.tilt_deg = o.tilt_deg)
    (hr : o'.roll_deg = o.roll_deg) (Z s : ℝ) (hs : 0 < s)
    (he : o'.elevation_m - Z = s * (o.elevation_m - Z)) {p q : V2 Num} {u v : V2 ℝ}
    (hp : (c.lens.imageFromDistorted p).Is u) (hq : (c.lens.imageFromDistorted q).Is v) {f g g' : V3 ℝ}
    (hf : (getRay c p).2.Is f) (hg : (getRay c q).2.Is g) (hg' : (getRay { c with orient := .thr o' } q).2.Is g')
    (fz : f.z ≠ 0) (gx : g.x ≠ 0) (gy : g.y ≠ 0) (gx' : g'.x ≠ 0) (gy' : g'.y ≠ 0) (hcr : f.x * g.y = f.y * g.x) (hdot : 0 < f.x * g.x + f.y * g.y)
    {H : Num} {x : ℝ} (h : getObjectHeight c p q (fin Z) = .ok H) (hH : Num.Is H x) :
    ∃ H', getObjectHeight { c with orient := .thr o' } p q (fin Z) = .ok H' ∧ Num.Is H' (s * x) := by
  set c' : Cam := { c with orient := .thr o' } with hc'
  have hf' : (getRay c' p).2.Is (dirR c' u) := getRay_real c' hc hp
  have efu : f = dirR c u := hf.unique (getRay_real c hc hp)
  have egv : g = dirR c v := hg.unique (getRay_real c hc hq)
  have egv' : g' = dirR c' v := hg'.unique (getRay_real c' hc hq)
  set θ := Spatial.rad (o'.heading_deg - o.heading_deg)
  have ef : dirR c' u = Geo.clockwise θ f := by rw [efu]; exact dir_turned c o o' ho ht hr u
  have eg : g' = Geo.clockwise θ g := by rw [egv', egv]; exact dir_turned c o o' ho ht hr v
  rw [ef] at hf'
  set r := f.x / g.x with hr0
  have fx : f.x = r * g.x := by rw [hr0]; field_simp
  have fy : f.y = r * g.y := by
    rw [hr0]; field_simp
    linarith
  have hrp : 0 < r := by
    have : r * (g.x ^ 2 + g.y ^ 2) = f.x * g.x + f.y * g.y := by rw [fx, fy]; ring
    by_contra h0
    nlinarith [mul_nonneg (neg_nonneg.2 (not_lt.1 h0)) (by positivity : 0 ≤ g.x ^ 2 + g.y ^ 2)]
  have fx' : (Geo.clockwise θ f).x = r * g'.x := by rw [eg]; simp only [Geo.clockwise, fx, fy]; ring
  have fy' : (Geo.clockwise θ f).y = r * g'.y := by rw [eg]; simp only [Geo.clockwise, fx, fy]; ring
  have z0 : c.orient.pos.z = o.elevation_m := by rw [ho]; rfl
  have z1 : c'.orient.pos.z = o'.elevation_m := rfl
  obtain ⟨a, b, b'⟩ := height_eq c hf hg fz gx gy Z
  obtain ⟨a', -⟩ := height_eq c' hf' hg' (by exact fz) gx' gy' Z
  rw [z0] at a b b'
  rw [z1, he] at a'
  set e := o.elevation_m - Z
  have q0 : k0 (s * e) (Geo.clockwise θ f) = s * k0 e f := k0_scale _ _ _
  have p1 : k1 e f g = k0 e f * r := by unfold k1; rw [fy]; field_simp
  have p2 : k2 e f g = k0 e f * r := by unfold k2; rw [fx]; field_simp
  have q1 : k1 (s * e) (Geo.clockwise θ f) g' = s * (k0 e f * r) := by unfold k1; rw [q0, fy']; field_simp
  have q2 : k2 (s * e) (Geo.clockwise θ f) g' = s * (k0 e f * r) := by unfold k2; rw [q0, fx']; field_simp
  rw [q0, q1, q2] at a'
  rw [p1, p2] at a
  have n0 : 0 ≤ k0 e f := by
    by_contra h0
    rw [b' (not_le.1 h0)] at h
    cases h
    simp at hH
  obtain ⟨H0, e0, i0⟩ := a n0 (by positivity) (by positivity)
  rw [e0] at h
  cases h
  obtain ⟨H1, e1, i1⟩ := a' (by positivity) (by positivity) (by positivity)
  refine ⟨H1, e1, i1.congr ?_⟩
  rw [hH.unique i0, eg]
  simp only [Geo.clockwise]
  ring

/-- **C174** fails for heights when the pixel of the head is not exactly above the one of the feet: for every camera and every such
pair of pixels there are headings for which the measured height exceeds any bound, and headings for which it is nan. -/
theorem C174_height_violated (c : Cam) (hc : c.Proper) (o : Spatial.Params) (ho : c.orient = .thr o) (Z : ℝ) {p q : V2 Num} {u v : V2 ℝ}
    (hp : (c.lens.imageFromDistorted p).Is u) (hq : (c.lens.imageFromDistorted q).Is v) {f g : V3 ℝ}
    (hf : (getRay c p).2.Is f) (hg : (getRay c q).2.Is g) (hfz : (o.elevation_m - Z) * f.z < 0) (gz : g.z ≠ 0)
    (hcr : f.x * g.y ≠ f.y * g.x) (hdot : 0 < f.x * g.x + f.y * g.y) :
    (∀ B, ∃ h H x, getObjectHeight { c with orient := .thr { o with heading_deg := h } } p q (fin Z) = .ok H ∧ Num.Is H x ∧ B < |x|) ∧
    ∃ h, getObjectHeight { c with orient := .thr { o with heading_deg := h } } p q (fin Z) = .ok .nan := by
  have fz : f.z ≠ 0 := fun h => by rw [h] at hfz; simp at hfz
  set e := o.elevation_m - Z with he
  have kpos : 0 < k0 e f := by
    unfold k0
    have : -e / f.z = -(e * f.z) / f.z ^ 2 := by field_simp
    rw [this]
    exact div_pos (by linarith) (by positivity)
  have hv : f.x * g.y - f.y * g.x ≠ 0 := sub_ne_zero.2 hcr
  have efu : f = dirR c u := hf.unique (getRay_real c hc hp)
  have egv : g = dirR c v := hg.unique (getRay_real c hc hq)
  have rays : ∀ θ : ℝ, let o' : Spatial.Params := { o with heading_deg := o.heading_deg + θ * 180 / Real.pi }
      (getRay { c with orient := .thr o' } p).2.Is (Geo.clockwise θ f) ∧ (getRay { c with orient := .thr o' } q).2.Is (Geo.clockwise θ g) := by
    intro θ o'
    have hθ : Spatial.rad (o'.heading_deg - o.heading_deg) = θ := by
      show Spatial.rad (o.heading_deg + θ * 180 / Real.pi - o.heading_deg) = θ
      unfold Spatial.rad
      have := Real.pi_ne_zero
      field_simp
      ring
    constructor
    · have := dir_turned c o o' ho rfl rfl u
      rw [hθ, ← efu] at this
      rw [← this]
      exact getRay_real { c with orient := .thr o' } hc hp
    · have := dir_turned c o o' ho rfl rfl v
      rw [hθ, ← egv] at this
      rw [← this]
      exact getRay_real { c with orient := .thr o' } hc hq
  have hρ0 : 0 < g.x ^ 2 + g.y ^ 2 := by
    rcases eq_or_ne g.x 0 with h | h
    · have : g.y ≠ 0 := fun h' => hv (by rw [h, h']; ring)
      positivity
    · positivity
  set ρ := Real.sqrt (g.x ^ 2 + g.y ^ 2) with hρ
  have hρp : 0 < ρ := Real.sqrt_pos.2 hρ0
  set U := (f.x * g.x + f.y * g.y) / ρ with hU
  set W := |f.x * g.y - f.y * g.x| / ρ with hW
  have hUp : 0 < U := by positivity
  have hWp : 0 < W := div_pos (abs_pos.2 hv) hρp
  refine ⟨fun B => ?_, ?_⟩
  · set K := |g.z| * k0 e f * W / (2 * ρ) with hK
    have hKp : 0 < K := by
      have := abs_pos.2 gz
      positivity
    set t := min (U / W) (K / (|B| + |e| + 1)) with ht
    have htp : 0 < t := lt_min (by positivity) (by positivity)
    have t1 : W * t ≤ U := by
      have : t ≤ U / W := min_le_left _ _
      calc W * t ≤ W * (U / W) := mul_le_mul_of_nonneg_left this hWp.le
        _ = U := by field_simp
    have t2 : |B| + |e| + 1 ≤ K / t := by
      rw [le_div_iff₀ htp]
      have : t ≤ K / (|B| + |e| + 1) := min_le_right _ _
      calc (|B| + |e| + 1) * t ≤ (|B| + |e| + 1) * (K / (|B| + |e| + 1)) := mul_le_mul_of_nonneg_left this (by positivity)
        _ = K := by field_simp
    obtain ⟨ρ', U', W', θ, -, rfl, rfl, rfl, gx, gy, hk⟩ := aim f g hv t htp
    obtain ⟨r1, r2⟩ := rays θ
    obtain ⟨a, -⟩ := height_eq _ r1 r2 (by exact fz) gx gy Z
    have z1 : (Orient.thr { o with heading_deg := o.heading_deg + θ * 180 / Real.pi }).pos.z - Z = e := rfl
    have kk : k0 e (Geo.clockwise θ f) = k0 e f := rfl
    simp only [z1] at a
    have hsum : k1 e (Geo.clockwise θ f) (Geo.clockwise θ g) + k2 e (Geo.clockwise θ f) (Geo.clockwise θ g) = k0 e f * ((U - W * t) + (U + W / t)) / ρ := by
      rcases hk e with ⟨h1, h2⟩ | ⟨h1, h2⟩ <;> rw [h1, h2] <;> ring
    have n1 : 0 ≤ k0 e f * (U - W * t) / ρ := div_nonneg (mul_nonneg kpos.le (by linarith)) hρp.le
    have n2 : 0 ≤ k0 e f * (U + W / t) / ρ := by positivity
    obtain ⟨H, e0, i0⟩ := a (by rw [kk]; exact kpos.le) (by rcases hk e with ⟨h1, h2⟩ | ⟨h1, h2⟩ <;> rw [h1] <;> assumption)
      (by rcases hk e with ⟨h1, h2⟩ | ⟨h1, h2⟩ <;> rw [h2] <;> assumption)
    refine ⟨_, H, _, e0, i0, ?_⟩
    rw [hsum]
    show B < |e + g.z * (k0 e f * ((U - W * t) + (U + W / t)) / ρ) / 2|
    set S := g.z * (k0 e f * ((U - W * t) + (U + W / t)) / ρ) / 2 with hS
    have hS1 : K / t ≤ |S| := by
      have e1 : |S| = |g.z| * (k0 e f * ((U - W * t) + (U + W / t)) / ρ) / 2 := by
        have h0 : 0 ≤ k0 e f * ((U - W * t) + (U + W / t)) / ρ := by
          have : 0 ≤ W / t := by positivity
          exact div_nonneg (mul_nonneg kpos.le (by linarith)) hρp.le
        rw [hS, abs_div, abs_mul, abs_of_nonneg h0, abs_of_pos (by norm_num : (0 : ℝ) < 2)]
      rw [e1]
      have e2 : K / t = |g.z| * (k0 e f * (W / t) / ρ) / 2 := by rw [hK]; field_simp
      rw [e2]
      have : W / t ≤ (U - W * t) + (U + W / t) := by linarith
      gcongr
    have hb : B ≤ |B| := le_abs_self B
    have hS2 : |S| ≤ |e + S| + |e| := by
      have := abs_sub (e + S) e
      rwa [add_sub_cancel_left] at this
    linarith
  · set t := U / W + 1 with ht
    have htp : 0 < t := by positivity
    obtain ⟨ρ', U', W', θ, -, rfl, rfl, rfl, gx, gy, hk⟩ := aim f g hv t htp
    obtain ⟨r1, r2⟩ := rays θ
    obtain ⟨-, b, -⟩ := height_eq _ r1 r2 (by exact fz) gx gy Z
    refine ⟨_, b ?_ ?_⟩
    · exact kpos.le
    · have neg : k0 e f * (U - W * t) / ρ < 0 := by
        have : U - W * t < 0 := by
          have : W * t = U + W := by rw [ht]; field_simp
          linarith
        exact div_neg_of_neg_of_pos (mul_neg_of_pos_of_neg kpos this) hρp
      rcases hk e with ⟨h1, h2⟩ | ⟨h1, h2⟩
      · left
        show k1 e _ _ < 0
        rw [h1]; exact neg
      · right
        show k2 e _ _ < 0
        rw [h2]; exact neg

/-- **C174** So the log probability of a height information with such a pair of pixels depends on the heading, without bound, although a heading
cannot be seen in the height of an object. -/
theorem C174_fit_violated (c : Cam) (hc : c.Proper) (o : Spatial.Params) (ho : c.orient = .thr o) (r : HeightRow) {u v : V2 ℝ}
    (hp : (c.lens.imageFromDistorted r.feet).Is u) (hq : (c.lens.imageFromDistorted r.head).Is v) {f g : V3 ℝ}
    (hf : (getRay c r.feet).2.Is f) (hg : (getRay c r.head).2.Is g) (hfz : o.elevation_m * f.z < 0) (gz : g.z ≠ 0)
    (hcr : f.x * g.y ≠ f.y * g.x) (hdot : 0 < f.x * g.x + f.y * g.y) (w : Variation) (s : ℝ) (hs : 0 < s) (hw : w = .number s ∨ w = .stochastic s) :
    ∀ B, ∃ h t x, heightTerm { c with orient := .thr { o with heading_deg := h } } [r] w = .ok t ∧ Num.Is t x ∧ x < B := by
  intro B
  set b := 2 * s ^ 2 * (|B| + |top s| + 1) with hb
  obtain ⟨h, H, x, h1, h2, h3⟩ := (C174_height_violated c hc o ho 0 hp hq hf hg (by rwa [sub_zero]) gz hcr hdot).1 (|r.height| + b + 1)
  obtain ⟨t, h4, h5⟩ := C105_height_density { c with orient := .thr { o with heading_deg := h } } [r] w s hs hw (fun _ => x)
    (fun r' hr' => by rw [List.mem_singleton.1 hr']; exact ⟨H, h1, h2⟩)
  refine ⟨h, t, _, h4, h5, ?_⟩
  simp only [List.map_cons, List.map_nil, List.sum_cons, List.sum_nil, add_zero]
  rw [log_density _ _ hs]
  have hb0 : 0 ≤ b := by positivity
  have h6 : b + 1 < |x - r.height| := by
    have := abs_sub_abs_le_abs_sub x r.height
    linarith
  have h7 : b < (x - r.height) ^ 2 := by
    rw [← sq_abs]
    nlinarith
  have h8 : |B| + |top s| + 1 < ((x - r.height) / s) ^ 2 / 2 := by
    rw [div_pow, div_div, lt_div_iff₀ (by positivity)]
    calc (|B| + |top s| + 1) * (s ^ 2 * 2) = b := by rw [hb]; ring
      _ < _ := h7
  have h9 := le_abs_self (top s)
  have h10 := neg_abs_le B
  linarith

/-! ### the hypotheses can be met -/

theorem Measure.example_dir (q : V2 ℝ) : dirR exampleCam q = ⟨(q.x - 50) / 100, -((q.y - 25) / 100), -1⟩ := by
  have h := camR_on_ray exampleCam q 1
  rw [exampleCam_camR] at h
  have hx := congrArg V3.x h
  have hy := congrArg V3.y h
  have hz := congrArg V3.z h
  simp [exampleCam, Projection.rayR, Orient.pos] at hx hy hz
  ext <;> simp only [exampleCam]
  · exact hx
  · exact hy
  · exact hz

theorem Measure.example_ray (q : V2 ℝ) : (getRay exampleCam q.num).2.Is ⟨(q.x - 50) / 100, -((q.y - 25) / 100), -1⟩ := by
  rw [← example_dir]; exact getRay_real exampleCam exampleCam_proper (V2.is_num q)

/-- For `C174_height_violated`. -/
example : ∃ o f g, exampleCam.orient = .thr o ∧ (getRay exampleCam (V2.num ⟨60, 15⟩)).2.Is f ∧ (getRay exampleCam (V2.num ⟨70, 0⟩)).2.Is g ∧
    (o.elevation_m - 0) * f.z < 0 ∧ g.z ≠ 0 ∧ f.x * g.y ≠ f.y * g.x ∧ 0 < f.x * g.x + f.y * g.y :=
  ⟨_, _, _, rfl, example_ray _, example_ray _, by norm_num, by norm_num, by norm_num, by norm_num⟩

/-- For `C174_height_partial` and `C174_height_moved`, with a camera that is turned and moved. -/
example : ∃ f g g' H, (getRay exampleCam (V2.num ⟨60, 15⟩)).2.Is f ∧ (getRay exampleCam (V2.num ⟨70, 5⟩)).2.Is g ∧
    (getRay { exampleCam with orient := .thr ⟨20, 0, 0, 0, 3, 4⟩ } (V2.num ⟨70, 5⟩)).2.Is g' ∧ f.z ≠ 0 ∧ g.x ≠ 0 ∧ g.y ≠ 0 ∧ g'.x ≠ 0 ∧ g'.y ≠ 0 ∧
    f.x * g.y = f.y * g.x ∧ 0 < f.x * g.x + f.y * g.y ∧ getObjectHeight exampleCam (V2.num ⟨60, 15⟩) (V2.num ⟨70, 5⟩) (fin 0) = .ok H ∧ Num.Is H 5 := by
  have hg' : (getRay { exampleCam with orient := .thr ⟨20, 0, 0, 0, 3, 4⟩ } (V2.num ⟨70, 5⟩)).2.Is _ :=
    getRay_real { exampleCam with orient := .thr ⟨20, 0, 0, 0, 3, 4⟩ } exampleCam_proper (V2.is_num ⟨70, 5⟩)
  rw [dir_turned exampleCam ⟨10, 0, 0, 0, 0, 0⟩ ⟨20, 0, 0, 0, 3, 4⟩ rfl rfl rfl, example_dir] at hg'
  obtain ⟨a, -⟩ := height_eq exampleCam (example_ray ⟨60, 15⟩) (example_ray ⟨70, 5⟩) (by norm_num) (by norm_num) (by norm_num) 0
  have z : exampleCam.orient.pos.z - 0 = 10 := by simp [exampleCam, Orient.pos]
  rw [z] at a
  obtain ⟨H, h1, h2⟩ := a (by norm_num [k0]) (by norm_num [k0, k1]) (by norm_num [k0, k2])
  refine ⟨_, _, _, H, example_ray _, example_ray _, hg', ?_, ?_, ?_, ?_, ?_, ?_, ?_, h1, h2.congr ?_⟩
  all_goals norm_num [Geo.clockwise, Spatial.rad, k0, k1, k2]

/-- For `C174_length`. -/
example : ∃ L l, getObjectLength exampleCam (V2.num ⟨60, 15⟩) (V2.num ⟨70, 5⟩) (fin 0) = .ok L ∧ Num.Is L l ∧ 0 < l := by
  obtain ⟨a, -⟩ := length_eq exampleCam (example_ray ⟨60, 15⟩) (example_ray ⟨70, 5⟩) (by norm_num) (by norm_num) 0
  have z : exampleCam.orient.pos.z - 0 = 10 := by simp [exampleCam, Orient.pos]
  rw [z] at a
  obtain ⟨L, h1, h2⟩ := a (by norm_num [k0]) (by norm_num [k0])
  exact ⟨L, _, h1, h2, Real.sqrt_pos.2 (by norm_num [V3.normSq, k0])⟩
