import Mathlib.Analysis.Real.Pi.Bounds
import Mathlib.Analysis.SpecialFunctions.Trigonometric.Bounds
import Verif.Model.Rounded
import Verif.Spec.Rounded
import Verif.Props.Camera

/-! # C150-C152: rounding errors of rays, images and points on planes -/

namespace Rounded

open Projection

theorem Rd.form {u x y : ℝ} (hu : 0 ≤ u) (h : Rd u x y) : ∃ e : ℝ, |e - 1| ≤ u ∧ y = x * e := by
  unfold Rd at h
  by_cases hx : x = 0
  · subst hx
    simp at h
    exact ⟨1, by simpa using hu, by rw [h]; ring⟩
  · refine ⟨y / x, ?_, by field_simp⟩
    have : y / x - 1 = (y - x) / x := by field_simp
    rw [this, abs_div, div_le_iff₀ (abs_pos.2 hx)]
    exact h

theorem near_mul {a a' b b' ea eb : ℝ} (ha : |a' - a| ≤ ea) (h1 : |a| ≤ 1) (hb : |b' - b| ≤ eb) (h2 : |b| ≤ 1) :
    |a' * b' - a * b| ≤ (1 + ea) * (1 + eb) - 1 := by
  have hea := (abs_nonneg _).trans ha
  have heb := (abs_nonneg _).trans hb
  have e : a' * b' - a * b = (a' - a) * (b' - b) + (a' - a) * b + a * (b' - b) := by ring
  rw [e]
  have t1 : |(a' - a) * (b' - b)| ≤ ea * eb := by rw [abs_mul]; exact mul_le_mul ha hb (abs_nonneg _) hea
  have t2 : |(a' - a) * b| ≤ ea * 1 := by rw [abs_mul]; exact mul_le_mul ha h2 (abs_nonneg _) hea
  have t3 : |a * (b' - b)| ≤ 1 * eb := by rw [abs_mul]; exact mul_le_mul h1 hb (abs_nonneg _) zero_le_one
  have := abs_add_three ((a' - a) * (b' - b)) ((a' - a) * b) (a * (b' - b))
  linarith

theorem fac_mul {a b A B : ℝ} (ha : |a - 1| ≤ A) (hb : |b - 1| ≤ B) : |a * b - 1| ≤ (1 + A) * (1 + B) - 1 := by
  simpa using near_mul ha (by simp) hb (by simp)

theorem fac_inv {a u : ℝ} (hu : u < 1) (h : |a - 1| ≤ u) : 0 < a ∧ |a⁻¹ - 1| ≤ (1 - u)⁻¹ - 1 := by
  have h0 := (abs_nonneg _).trans h
  have h1 := abs_le.1 h
  have ha : 0 < a := by linarith
  refine ⟨ha, ?_⟩
  have e : a⁻¹ - 1 = (1 - a) / a := by field_simp
  have e' : (1 - u)⁻¹ - 1 = u / (1 - u) := by
    have : (1 : ℝ) - u ≠ 0 := by linarith
    field_simp
    ring
  rw [e, e', abs_div, abs_of_pos ha, div_le_div_iff₀ ha (by linarith), abs_sub_comm]
  exact mul_le_mul h (by linarith) (by linarith) h0

/-- Computed scalar products. -/
theorem Dot.form {u y : ℝ} (hu : 0 ≤ u) {p q : V3 ℝ} (h : Dot u p q y) :
    ∃ e f g : ℝ, |e - 1| ≤ (1 + u) ^ 3 - 1 ∧ |f - 1| ≤ (1 + u) ^ 3 - 1 ∧ |g - 1| ≤ (1 + u) ^ 3 - 1 ∧
      y = p.x * q.x * e + p.y * q.y * f + p.z * q.z * g := by
  obtain ⟨a, b, c, ha, hb, hc, hs⟩ := h
  obtain ⟨ea, hea, rfl⟩ := ha.form hu
  obtain ⟨eb, heb, rfl⟩ := hb.form hu
  obtain ⟨ec, hec, rfl⟩ := hc.form hu
  have two : ∀ {e f : ℝ}, |e - 1| ≤ u → |f - 1| ≤ u → |e * f - 1| ≤ (1 + u) ^ 3 - 1 := by
    intro e f he hf
    have := fac_mul he hf
    nlinarith [mul_nonneg hu hu, mul_nonneg (mul_nonneg hu hu) hu]
  have three : ∀ {e f g : ℝ}, |e - 1| ≤ u → |f - 1| ≤ u → |g - 1| ≤ u → |e * f * g - 1| ≤ (1 + u) ^ 3 - 1 := by
    intro e f g he hf hg
    have := fac_mul (fac_mul he hf) hg
    nlinarith
  rcases hs with ⟨s, h1, h2⟩ | ⟨s, h1, h2⟩ | ⟨s, h1, h2⟩ <;>
    obtain ⟨e1, he1, rfl⟩ := h1.form hu <;> obtain ⟨e2, he2, rfl⟩ := h2.form hu
  · exact ⟨ea * e1 * e2, eb * e1 * e2, ec * e2, three hea he1 he2, three heb he1 he2, two hec he2, by ring⟩
  · exact ⟨ea * e2, eb * e1 * e2, ec * e1 * e2, two hea he2, three heb he1 he2, three hec he1 he2, by ring⟩
  · exact ⟨ea * e1 * e2, eb * e2, ec * e1 * e2, three hea he1 he2, two heb he2, three hec he1 he2, by ring⟩

theorem powers {u : ℝ} (hu : 0 ≤ u) (hu1 : u ≤ 1 / 100) :
    (1 + ((1 + ((1 + ((1 + ((1 + ((1 + u) * (1 + u) - 1)) * (1 + ((1 + u) * (1 + u) - 1)) - 1)) * (1 + u) - 1)) *
      (1 + ((1 - ((1 + u) * (1 + u) - 1))⁻¹ - 1)) - 1)) * (1 + u) - 1)) * (1 + u) - 1 ≤ 10 * u := by
  have hd : 0 < 1 - ((1 + u) * (1 + u) - 1) := by nlinarith
  have h2 : u ^ 2 ≤ u / 100 := by nlinarith
  have h3 : u ^ 3 ≤ u / 10000 := by nlinarith [pow_nonneg hu 2]
  have h4 : u ^ 4 ≤ u / 10000 := by nlinarith [pow_nonneg hu 3]
  have h5 : u ^ 5 ≤ u / 10000 := by nlinarith [pow_nonneg hu 4]
  have h6 : u ^ 6 ≤ u / 10000 := by nlinarith [pow_nonneg hu 5]
  have h7 : u ^ 7 ≤ u / 10000 := by nlinarith [pow_nonneg hu 6]
  have hp : (1 + u) ^ 7 ≤ (1 + 10 * u) * (1 - ((1 + u) * (1 + u) - 1)) := by
    ring_nf
    linarith
  have hi : (1 + u) ^ 7 * (1 - ((1 + u) * (1 + u) - 1))⁻¹ ≤ 1 + 10 * u := by
    rw [← div_eq_mul_inv, div_le_iff₀ hd]
    exact hp
  generalize (1 - ((1 + u) * (1 + u) - 1))⁻¹ = i at hi ⊢
  linarith

theorem axis {u f c p P z a b x : ℝ} (hu : 0 ≤ u) (hu1 : u ≤ 1 / 100) (hf : f ≠ 0)
    {A B : ℝ} (h0 : Rd u (p - c) A) (h1 : Rd u (A / f) B) {k : ℝ} (hk : k ≠ 0) {e0 g0 : ℝ}
    (he0 : |e0 - 1| ≤ (1 + u) * (1 + u) - 1) (hg0 : |g0 - 1| ≤ (1 + u) * (1 + u) - 1) (hP : P = k * B * e0) (hz : z = -(k * g0))
    (ha : Rd u (-P * f) a) (hb : Rd u (a / z) b) (hx : Rd u (b + c) x) :
    |x - p| ≤ 10 * u * |p - c| + u * |c| := by
  obtain ⟨eA, heA, rfl⟩ := h0.form hu
  obtain ⟨eB, heB, rfl⟩ := h1.form hu
  obtain ⟨ea, hea, rfl⟩ := ha.form hu
  obtain ⟨eb, heb, rfl⟩ := hb.form hu
  obtain ⟨ex, hex, rfl⟩ := hx.form hu
  have hw : (1 + u) * (1 + u) - 1 < 1 := by nlinarith
  obtain ⟨hg, hgi⟩ := fac_inv hw hg0
  have key := fac_mul (fac_mul (fac_mul (fac_mul (fac_mul (fac_mul heA heB) he0) hea) hgi) heb) hex
  have e : ((-P * f * ea / z * eb) + c) * ex - p
      = (p - c) * (eA * eB * e0 * ea * g0⁻¹ * eb * ex - 1) + c * (ex - 1) := by
    rw [hP, hz]
    field_simp
    ring
  rw [e]
  refine (abs_add_le _ _).trans ?_
  rw [abs_mul, abs_mul]
  have hK : |eA * eB * e0 * ea * g0⁻¹ * eb * ex - 1| ≤ 10 * u := by
    refine key.trans ?_
    exact powers hu hu1
  have := mul_le_mul_of_nonneg_left hK (abs_nonneg (p - c))
  have := mul_le_mul_of_nonneg_left hex (abs_nonneg c)
  linarith

theorem Rd.neg {u x y : ℝ} (h : Rd u x y) : Rd u (-x) (-y) := by
  unfold Rd at *
  rw [abs_neg]
  have : -y - -x = -(y - x) := by ring
  rwa [this, abs_neg]

end Rounded

open Projection Rounded in
/-- Rays lead back to their pixels, up to rounding errors: the ray of a pixel, followed to any distance in front of the camera and
projected again, returns to the pixel. -/
theorem C150_rays (I : Intr) (hfx : I.fx ≠ 0) (hfy : I.fy ≠ 0) (u : ℝ) (hu : 0 ≤ u) (hu1 : u ≤ 1 / 100) (p : V2 ℝ)
    (normed hide : Bool) (ray : V3 ℝ) (hr : RayRect u I p normed ray) (t : ℝ) (ht : 0 < t) (P : V3 ℝ)
    (hP : Rd u (t * ray.x) P.x ∧ Rd u (t * ray.y) P.y ∧ Rd u (t * ray.z) P.z) (hd : minDepth ≤ |P.z|) (out : V2 Num)
    (ho : ImageRect u I P hide out) :
    ∃ q : V2 ℝ, out.Is q ∧ |q.x - p.x| ≤ 10 * u * |p.x - I.cx| + u * |I.cx| ∧
      |q.y - p.y| ≤ 10 * u * |p.y - I.cy| + u * |I.cy| := by
  obtain ⟨a, b, c, d, h1, h2, h3, h4, hn⟩ := hr
  obtain ⟨hx, hy, hz⟩ := hP
  obtain ⟨ex, hex, hPx⟩ := hx.form hu
  obtain ⟨ey, hey, hPy⟩ := hy.form hu
  obtain ⟨ez, hez, hPz⟩ := hz.form hu
  have hm : (1 : ℝ) / 10 ^ 10 = minDepth := by norm_num [minDepth]
  have key : ∃ (k e f g : ℝ), 0 ≤ k ∧ |e - 1| ≤ u ∧ |f - 1| ≤ u ∧ |g - 1| ≤ u ∧
      ray.x = -(k * b * e) ∧ ray.y = -(k * d * f) ∧ ray.z = -(k * g) := by
    cases normed
    · simp only [Bool.false_eq_true, if_false] at hn
      subst hn
      exact ⟨1, 1, 1, 1, zero_le_one, by simpa using hu, by simpa using hu, by simpa using hu, by simp, by simp, by simp⟩
    · simp only [if_true] at hn
      obtain ⟨q, ⟨s, n, hs, hn, q1, q2, q3⟩, rfl⟩ := hn
      obtain ⟨e, he, e1⟩ := q1.form hu
      obtain ⟨f, hf, e2⟩ := q2.form hu
      obtain ⟨g, hg, e3⟩ := q3.form hu
      have hn0 : 0 ≤ n := by
        obtain ⟨m, hm, rfl⟩ := hn.form hu
        have := abs_le.1 hm
        exact mul_nonneg (Real.sqrt_nonneg _) (by linarith)
      exact ⟨1 / n, e, f, g, by positivity, he, hf, hg, by simp only [V3.neg_x, e1]; ring,
        by simp only [V3.neg_y, e2]; ring, by simp only [V3.neg_z, e3]⟩
  obtain ⟨k, e, f, g, hk, he, hf, hg, e1, e2, e3⟩ := key
  rw [e1] at hPx
  rw [e2] at hPy
  rw [e3] at hPz
  have gpos : 0 < g * ez := by
    have := abs_le.1 hg
    have := abs_le.1 hez
    apply mul_pos <;> linarith
  have hk0 : k ≠ 0 := by
    rintro rfl
    rw [hPz] at hd
    norm_num [minDepth] at hd
  have hzneg : P.z < 0 := by
    have : 0 < k := lt_of_le_of_ne hk (Ne.symm hk0)
    have : 0 < t * k * (g * ez) := by positivity
    rw [hPz]
    linarith
  unfold ImageRect at ho
  rw [hm, if_neg (not_lt.2 hd), if_neg (by rintro ⟨-, h⟩; linarith)] at ho
  obtain ⟨A, B, x, C, D, y, i1, i2, i3, i4, i5, i6, hq⟩ := ho
  refine ⟨⟨x, y⟩, hq, ?_, ?_⟩
  · have h2' := h2.neg
    rw [neg_div, neg_neg] at h2'
    exact axis hu hu1 hfx h1 h2' (k := t * k) (mul_ne_zero ht.ne' hk0) (fac_mul he hex) (fac_mul hg hez)
      (by rw [hPx]; ring) (by rw [hPz]; ring) i1 i2 i3
  · refine axis hu hu1 hfy h3 h4 (k := t * k) (P := -P.y) (mul_ne_zero ht.ne' hk0) (fac_mul hf hey) (fac_mul hg hez)
      (by rw [hPy]; ring) (by rw [hPz]; ring) ?_ i5 i6
    rwa [neg_neg]

namespace Rounded

open Projection

theorem Deg2rad.near {u d y : ℝ} (hu : 0 ≤ u) (hu1 : u ≤ 1 / 100000) (hd : |d| ≤ 360) (h : Deg2rad u d y) :
    |y - Spatial.rad d| ≤ 189 / 10 * u := by
  obtain ⟨k, c, h1, h2, h3⟩ := h
  obtain ⟨e1, he1, rfl⟩ := h1.form hu
  obtain ⟨e2, he2, rfl⟩ := h2.form hu
  obtain ⟨e3, he3, rfl⟩ := h3.form hu
  have key := fac_mul (fac_mul he1 he2) he3
  have e : d * (Real.pi * e1 / 180 * e2) * e3 - Spatial.rad d = Spatial.rad d * (e1 * e2 * e3 - 1) := by
    unfold Spatial.rad
    ring
  have hr : |Spatial.rad d| ≤ 6.2832 := by
    unfold Spatial.rad
    have := Real.pi_lt_d4
    have := Real.pi_pos
    rw [abs_mul, abs_of_pos (by positivity : 0 < Real.pi / 180)]
    nlinarith
  have hk : |e1 * e2 * e3 - 1| ≤ 3001 / 1000 * u := by
    refine key.trans ?_
    nlinarith [mul_nonneg hu hu, mul_nonneg (mul_nonneg hu hu) hu]
  rw [e, abs_mul]
  have := mul_le_mul hr hk (abs_nonneg _) (by norm_num)
  nlinarith

theorem near_cos {u a y c A : ℝ} (hu : 0 ≤ u) (h1 : |y - a| ≤ A * u)
    (hc : Rd u (Real.cos y) c) : |c - Real.cos a| ≤ (A + 1) * u := by
  have h2 : |Real.cos y - Real.cos a| ≤ |y - a| := Real.abs_cos_sub_cos_le _ _
  have h3 := Real.abs_cos_le_one y
  unfold Rd at hc
  have := abs_sub_le c (Real.cos y) (Real.cos a)
  nlinarith

theorem near_sin {u a y c A : ℝ} (hu : 0 ≤ u) (h1 : |y - a| ≤ A * u)
    (hc : Rd u (Real.sin y) c) : |c - Real.sin a| ≤ (A + 1) * u := by
  have h2 : |Real.sin y - Real.sin a| ≤ |y - a| := Real.abs_sin_sub_sin_le _ _
  have h3 := Real.abs_sin_le_one y
  unfold Rd at hc
  have := abs_sub_le c (Real.sin y) (Real.sin a)
  nlinarith

/-- Bounds of the single terms of a computed scalar product. -/
theorem Dot.near {u y : ℝ} (hu : 0 ≤ u) {p q p' q' : V3 ℝ} (h : Dot u p' q' y) {a b c : ℝ}
    (ha : ∀ e, |e - 1| ≤ (1 + u) ^ 3 - 1 → |p'.x * q'.x * e - p.x * q.x| ≤ a)
    (hb : ∀ e, |e - 1| ≤ (1 + u) ^ 3 - 1 → |p'.y * q'.y * e - p.y * q.y| ≤ b)
    (hc : ∀ e, |e - 1| ≤ (1 + u) ^ 3 - 1 → |p'.z * q'.z * e - p.z * q.z| ≤ c) : |y - p.dot q| ≤ a + b + c := by
  obtain ⟨e, f, g, he, hf, hg, rfl⟩ := h.form hu
  have := ha e he
  have := hb f hf
  have := hc g hg
  have := abs_add_three (p'.x * q'.x * e - p.x * q.x) (p'.y * q'.y * f - p.y * q.y) (p'.z * q'.z * g - p.z * q.z)
  have e1 : p'.x * q'.x * e + p'.y * q'.y * f + p'.z * q'.z * g - p.dot q
      = p'.x * q'.x * e - p.x * q.x + (p'.y * q'.y * f - p.y * q.y) + (p'.z * q'.z * g - p.z * q.z) := by
    unfold V3.dot
    ring
  rw [e1]
  linarith

/-- A term of two factors near numbers of the unit interval. -/
theorem term {u a a' b b' A B C : ℝ} (ha : |a' - a| ≤ A * u) (h1 : |a| ≤ 1) (hb : |b' - b| ≤ B * u) (h2 : |b| ≤ 1)
    (hC : (1 + A * u) * (1 + B * u) * (1 + u) ^ 3 - 1 ≤ C * u) :
    ∀ e, |e - 1| ≤ (1 + u) ^ 3 - 1 → |a' * b' * e - a * b| ≤ C * u := by
  intro e he
  have h := near_mul (near_mul ha h1 hb h2) (by rw [abs_mul]; exact mul_le_one₀ h1 (abs_nonneg _) h2) he (by simp)
  rw [mul_one] at h
  refine h.trans (le_trans (le_of_eq ?_) hC)
  ring

theorem term_zero {u b : ℝ} : ∀ e, |e - 1| ≤ (1 + u) ^ 3 - 1 → |0 * b * e - 0 * 0| ≤ 0 := by
  intro e _
  simp

theorem num1 {u : ℝ} (hu : 0 ≤ u) (hu1 : u ≤ 1 / 100000) :
    (1 + 30 * u) * (1 + 30 * u) * (1 + u) ^ 3 - 1 ≤ 64 * u := by
  have h2 : u ^ 2 ≤ u / 100000 := by nlinarith
  have h3 : u ^ 3 ≤ u / 100000 := by nlinarith [pow_nonneg hu 2]
  have h4 : u ^ 4 ≤ u / 100000 := by nlinarith [pow_nonneg hu 3]
  have h5 : u ^ 5 ≤ u / 100000 := by nlinarith [pow_nonneg hu 4]
  ring_nf
  linarith

theorem num2 {u : ℝ} (hu : 0 ≤ u) (hu1 : u ≤ 1 / 100000) :
    (1 + 64 * u) * (1 + 20 * u) * (1 + u) ^ 3 - 1 ≤ 88 * u := by
  have h2 : u ^ 2 ≤ u / 100000 := by nlinarith
  have h3 : u ^ 3 ≤ u / 100000 := by nlinarith [pow_nonneg hu 2]
  have h4 : u ^ 4 ≤ u / 100000 := by nlinarith [pow_nonneg hu 3]
  have h5 : u ^ 5 ≤ u / 100000 := by nlinarith [pow_nonneg hu 4]
  ring_nf
  linarith

theorem Near.mul_first {u : ℝ} (hu : 0 ≤ u) (hu1 : u ≤ 1 / 100000) {cr sr ct st cr' sr' ct' st' : ℝ}
    (h1 : |cr' - cr| ≤ 30 * u) (h2 : |sr' - sr| ≤ 30 * u) (h3 : |ct' - ct| ≤ 30 * u) (h4 : |st' - st| ≤ 30 * u)
    (b1 : |cr| ≤ 1) (b2 : |sr| ≤ 1) (b3 : |ct| ≤ 1) (b4 : |st| ≤ 1) {M : M3}
    (h : Mul u ⟨⟨cr', sr', 0⟩, ⟨-sr', cr', 0⟩, ⟨0, 0, 1⟩⟩ ⟨⟨1, 0, 0⟩, ⟨0, ct', st'⟩, ⟨0, -st', ct'⟩⟩ M) :
    Near (64 * u) M (M3.mul ⟨⟨cr, sr, 0⟩, ⟨-sr, cr, 0⟩, ⟨0, 0, 1⟩⟩ ⟨⟨1, 0, 0⟩, ⟨0, ct, st⟩, ⟨0, -st, ct⟩⟩) := by
  have hn := num1 hu hu1
  have n0 : ∀ a : ℝ, |a - a| ≤ 30 * u := fun a => by simpa using hu
  have m2 : |-sr' - -sr| ≤ 30 * u := by
    rw [show -sr' - -sr = -(sr' - sr) by ring, abs_neg]
    exact h2
  have m4 : |-st' - -st| ≤ 30 * u := by
    rw [show -st' - -st = -(st' - st) by ring, abs_neg]
    exact h4
  have c2 : |-sr| ≤ 1 := by rwa [abs_neg]
  have c4 : |-st| ≤ 1 := by rwa [abs_neg]
  have o : |(1 : ℝ)| ≤ 1 := by simp
  have z : |(0 : ℝ)| ≤ 1 := by simp
  have zl : ∀ b b' : ℝ, ∀ e, |e - 1| ≤ (1 + u) ^ 3 - 1 → |0 * b' * e - 0 * b| ≤ 0 := by intro b b' e _; simp
  have zr : ∀ b b' : ℝ, ∀ e, |e - 1| ≤ (1 + u) ^ 3 - 1 → |b' * 0 * e - b * 0| ≤ 0 := by intro b b' e _; simp
  obtain ⟨d1, d2, d3, d4, d5, d6, d7, d8, d9⟩ := h
  have w : ∀ {x y : ℝ}, |x - y| ≤ 64 * u + 0 + 0 → |x - y| ≤ 64 * u := by intro x y h; linarith
  have w' : ∀ {x y : ℝ}, |x - y| ≤ 0 + 64 * u + 0 → |x - y| ≤ 64 * u := by intro x y h; linarith
  have w'' : ∀ {x y : ℝ}, |x - y| ≤ 0 + 0 + 64 * u → |x - y| ≤ 64 * u := by intro x y h; linarith
  have w0 : ∀ {x y : ℝ}, |x - y| ≤ 0 + 0 + 0 → |x - y| ≤ 64 * u := by intro x y h; linarith
  refine ⟨w (d1.near hu (term h1 b1 (n0 1) o hn) (zr _ _) (zl _ _)), w' (d2.near hu (zr _ _) (term h2 b2 h3 b3 hn) (zl _ _)),
    w' (d3.near hu (zr _ _) (term h2 b2 h4 b4 hn) (zl _ _)), w (d4.near hu (term m2 c2 (n0 1) o hn) (zr _ _) (zl _ _)),
    w' (d5.near hu (zr _ _) (term h1 b1 h3 b3 hn) (zl _ _)), w' (d6.near hu (zr _ _) (term h1 b1 h4 b4 hn) (zl _ _)),
    w0 (d7.near hu (zl _ _) (zl _ _) (zr _ _)), w'' (d8.near hu (zl _ _) (zl _ _) (term (n0 1) o m4 c4 hn)),
    w'' (d9.near hu (zl _ _) (zl _ _) (term (n0 1) o h3 b3 hn))⟩

theorem Near.mul_second {u : ℝ} (hu : 0 ≤ u) (hu1 : u ≤ 1 / 100000) {ch sh ch' sh' : ℝ} {M M' R : M3}
    (h1 : |ch' - ch| ≤ 20 * u) (h2 : |sh' - sh| ≤ 20 * u) (b1 : |ch| ≤ 1) (b2 : |sh| ≤ 1)
    (hM : Near (64 * u) M' M) (hb : Near 1 M ⟨⟨0, 0, 0⟩, ⟨0, 0, 0⟩, ⟨0, 0, 0⟩⟩)
    (h : Mul u M' ⟨⟨ch', -sh', 0⟩, ⟨sh', ch', 0⟩, ⟨0, 0, 1⟩⟩ R) :
    Near (176 * u) R (M3.mul M ⟨⟨ch, -sh, 0⟩, ⟨sh, ch, 0⟩, ⟨0, 0, 1⟩⟩) := by
  have hn := num2 hu hu1
  have n0 : ∀ a : ℝ, |a - a| ≤ 20 * u := fun a => by simpa using hu
  have m2 : |-sh' - -sh| ≤ 20 * u := by
    rw [show -sh' - -sh = -(sh' - sh) by ring, abs_neg]
    exact h2
  have c2 : |-sh| ≤ 1 := by rwa [abs_neg]
  have o : |(1 : ℝ)| ≤ 1 := by simp
  have zr : ∀ b b' : ℝ, ∀ e, |e - 1| ≤ (1 + u) ^ 3 - 1 → |b' * 0 * e - b * 0| ≤ 0 := by intro b b' e _; simp
  obtain ⟨d1, d2, d3, d4, d5, d6, d7, d8, d9⟩ := h
  simp only [Near, sub_zero] at hb
  obtain ⟨g1, g2, g3, g4, g5, g6, g7, g8, g9⟩ := hb
  obtain ⟨k1, k2, k3, k4, k5, k6, k7, k8, k9⟩ := hM
  have w : ∀ {x y : ℝ}, |x - y| ≤ 88 * u + 88 * u + 0 → |x - y| ≤ 176 * u := by intro x y h; linarith
  have w' : ∀ {x y : ℝ}, |x - y| ≤ 0 + 0 + 88 * u → |x - y| ≤ 176 * u := by intro x y h; linarith
  exact ⟨w (d1.near hu (term k1 g1 h1 b1 hn) (term k2 g2 h2 b2 hn) (zr _ _)),
    w (d2.near hu (term k1 g1 m2 c2 hn) (term k2 g2 h1 b1 hn) (zr _ _)),
    w' (d3.near hu (zr _ _) (zr _ _) (term k3 g3 (n0 1) o hn)),
    w (d4.near hu (term k4 g4 h1 b1 hn) (term k5 g5 h2 b2 hn) (zr _ _)),
    w (d5.near hu (term k4 g4 m2 c2 hn) (term k5 g5 h1 b1 hn) (zr _ _)),
    w' (d6.near hu (zr _ _) (zr _ _) (term k6 g6 (n0 1) o hn)),
    w (d7.near hu (term k7 g7 h1 b1 hn) (term k8 g8 h2 b2 hn) (zr _ _)),
    w (d8.near hu (term k7 g7 m2 c2 hn) (term k8 g8 h1 b1 hn) (zr _ _)),
    w' (d9.near hu (zr _ _) (zr _ _) (term k9 g9 (n0 1) o hn))⟩

theorem abs_one {x y z : ℝ} (h : x * x + y * y + z * z = 1) : |x| ≤ 1 ∧ |y| ≤ 1 ∧ |z| ≤ 1 := by
  refine ⟨abs_le_one_iff_mul_self_le_one.2 ?_, abs_le_one_iff_mul_self_le_one.2 ?_, abs_le_one_iff_mul_self_le_one.2 ?_⟩ <;>
    nlinarith [mul_self_nonneg x, mul_self_nonneg y, mul_self_nonneg z]

/-- The entries of rotations. -/
theorem rotation_le (a b c : ℝ) : Near 1 (Spatial.rotation a b c) ⟨⟨0, 0, 0⟩, ⟨0, 0, 0⟩, ⟨0, 0, 0⟩⟩ := by
  have h := Spatial.rot_RT a b c
  generalize Spatial.rotation a b c = R at h ⊢
  have h0 := congrArg (fun m => m.r0.x) h
  have h1 := congrArg (fun m => m.r1.y) h
  have h2 := congrArg (fun m => m.r2.z) h
  simp only [M3.mul, M3.rowMul, M3.T, M3.one, V3.dot] at h0 h1 h2
  obtain ⟨a1, a2, a3⟩ := abs_one h0
  obtain ⟨a4, a5, a6⟩ := abs_one h1
  obtain ⟨a7, a8, a9⟩ := abs_one h2
  simp only [Near, sub_zero]
  exact ⟨a1, a2, a3, a4, a5, a6, a7, a8, a9⟩

theorem RotationOf.near {u : ℝ} (hu : 0 ≤ u) (hu1 : u ≤ 1 / 100000) {a b c a' b' c' : ℝ} (ha : |a' - a| ≤ 29 * u)
    (hb : |b' - b| ≤ 29 * u) (hc : |c' - c| ≤ 19 * u) {R : M3} (h : RotationOf u a' b' c' R) :
    Near (176 * u) R (Spatial.rotation a b c) := by
  obtain ⟨cr, sr, ct, st, ch, sh, k1, k2, k3, k4, k5, k6, M, hM, hR⟩ := h
  have e := rotation_le a b 0
  have e0 : Spatial.rotation a b 0 = M3.mul (Spatial.R_roll a) (Spatial.R_tilt b) := by
    simp [Spatial.rotation, Spatial.R_head, M3.mul, M3.rowMul, M3.T, V3.dot]
  rw [e0] at e
  have w : ∀ {x y : ℝ}, |x - y| ≤ (29 + 1) * u → |x - y| ≤ 30 * u := by intro x y h; linarith
  have w' : ∀ {x y : ℝ}, |x - y| ≤ (19 + 1) * u → |x - y| ≤ 20 * u := by intro x y h; linarith
  exact Near.mul_second hu hu1 (w' (near_cos hu hc k5)) (w' (near_sin hu hc k6)) (Real.abs_cos_le_one _)
    (Real.abs_sin_le_one _)
    (Near.mul_first hu hu1 (w (near_cos hu ha k1)) (w (near_sin hu ha k2)) (w (near_cos hu hb k3))
      (w (near_sin hu hb k4)) (Real.abs_cos_le_one _) (Real.abs_sin_le_one _) (Real.abs_cos_le_one _)
      (Real.abs_sin_le_one _) hM) e hR

theorem num3 {u e : ℝ} (hu : 0 ≤ u) (hu1 : u ≤ 1 / 100000) (he : 0 ≤ e) (he1 : e ≤ 1 / 1000) :
    (1 + e) * (1 + u) ^ 5 - 1 ≤ e + 6 * u := by
  have h2 : u ^ 2 ≤ u / 100000 := by nlinarith
  have h3 : u ^ 3 ≤ u / 100000 := by nlinarith [pow_nonneg hu 2]
  have h4 : u ^ 4 ≤ u / 100000 := by nlinarith [pow_nonneg hu 3]
  have h5 : u ^ 5 ≤ u / 100000 := by nlinarith [pow_nonneg hu 4]
  have h : (1 + u) ^ 5 ≤ 1 + 501 / 100 * u := by
    ring_nf
    linarith
  nlinarith

/-- One row of a computed product of a matrix with a vector. -/
theorem row_near {u e y : ℝ} (hu : 0 ≤ u) (hu1 : u ≤ 1 / 100000) (he : 0 ≤ e) (he1 : e ≤ 1 / 1000) {d d' r r' : V3 ℝ}
    (h1 : ∃ f, |f - 1| ≤ (1 + u) ^ 2 - 1 ∧ d'.x = d.x * f) (h2 : ∃ f, |f - 1| ≤ (1 + u) ^ 2 - 1 ∧ d'.y = d.y * f)
    (h3 : ∃ f, |f - 1| ≤ (1 + u) ^ 2 - 1 ∧ d'.z = d.z * f) (k1 : |r'.x - r.x| ≤ e) (k2 : |r'.y - r.y| ≤ e)
    (k3 : |r'.z - r.z| ≤ e) (b1 : |r.x| ≤ 1) (b2 : |r.y| ≤ 1) (b3 : |r.z| ≤ 1) (h : Dot u d' r' y) :
    |y - d.dot r| ≤ (e + 6 * u) * size d := by
  have key : ∀ {a a' b b' : ℝ}, (∃ f, |f - 1| ≤ (1 + u) ^ 2 - 1 ∧ a' = a * f) → |b' - b| ≤ e → |b| ≤ 1 →
      ∀ g, |g - 1| ≤ (1 + u) ^ 3 - 1 → |a' * b' * g - a * b| ≤ (e + 6 * u) * |a| := by
    intro a a' b b' ha hb h1 g hg
    obtain ⟨f, hf, rfl⟩ := ha
    have h := near_mul (near_mul hb h1 hf (by simp)) (by simpa using h1) hg (by simp)
    rw [show a * f * b' * g - a * b = a * (b' * f * g - b * 1 * 1) by ring, abs_mul, mul_comm]
    refine mul_le_mul_of_nonneg_right (h.trans (le_trans (le_of_eq ?_) (num3 hu hu1 he he1))) (abs_nonneg _)
    ring
  have := h.near hu (p := d) (q := r) (key h1 k1 b1) (key h2 k2 b2) (key h3 k3 b3)
  unfold size
  linarith

/-- A quotient of two numbers that are known up to `k * N`. -/
theorem quotient {k N x z x' z' : ℝ} (hz : z ≠ 0) (hx : |x' - x| ≤ k * N) (hz' : |z' - z| ≤ k * N)
    (hfar : 2 * k * N ≤ |z|) : z' ≠ 0 ∧ |x' / z' - x / z| ≤ 2 * k * (N / |z|) * (1 + |x / z|) := by
  have hzp : 0 < |z| := abs_pos.2 hz
  have hz2 : |z| / 2 ≤ |z'| := by
    have := abs_sub_abs_le_abs_sub z z'
    rw [abs_sub_comm] at hz'
    linarith
  have hz'0 : z' ≠ 0 := by
    intro h
    rw [h, abs_zero] at hz2
    linarith
  refine ⟨hz'0, ?_⟩
  have e : x' / z' - x / z = (x' - x - x / z * (z' - z)) / z' := by
    field_simp
    ring
  have h1 : |x' - x - x / z * (z' - z)| ≤ k * N * (1 + |x / z|) := by
    refine (abs_sub _ _).trans ?_
    rw [abs_mul]
    have := mul_le_mul_of_nonneg_left hz' (abs_nonneg (x / z))
    linarith
  have hkN : 0 ≤ k * N := (abs_nonneg _).trans hx
  rw [e, abs_div, div_le_iff₀ (abs_pos.2 hz'0)]
  have h2 : k * N = 2 * k * (N / |z|) * (|z| / 2) := by
    field_simp
  have h3 : 2 * k * (N / |z|) * (|z| / 2) ≤ 2 * k * (N / |z|) * |z'| := by
    refine mul_le_mul_of_nonneg_left hz2 ?_
    rw [show 2 * k * (N / |z|) = 2 * (k * N) / |z| by ring]
    positivity
  have h4 := mul_le_mul_of_nonneg_right h3 (by positivity : 0 ≤ 1 + |x / z|)
  rw [← h2] at h4
  linarith

/-- A multiple of the quotient, plus a constant, after a few more operations. -/
theorem affine {u k N f c x z x' z' g eq : ℝ} (hu : 0 ≤ u) (hu1 : u ≤ 1 / 100000) (hk1 : k ≤ 1 / 200) (hz : z ≠ 0)
    (hN : |z| ≤ N) (hx : |x' - x| ≤ k * N) (hz' : |z' - z| ≤ k * N) (hfar : 2 * k * N ≤ |z|)
    (hg : |g - 1| ≤ (1 + u) ^ 4 - 1) (heq : |eq - 1| ≤ u) :
    |f * (x' / z') * g + c * eq - (f * (x / z) + c)| ≤
      (2 * k + 5 * u) * (N / |z|) * (|f| + |f * (x / z)|) + u * |c| := by
  obtain ⟨-, hd⟩ := quotient hz hx hz' hfar
  have hzp : 0 < |z| := abs_pos.2 hz
  obtain ⟨r, hr⟩ : ∃ r, r = x / z := ⟨_, rfl⟩
  obtain ⟨r', hr'⟩ : ∃ r, r = x' / z' := ⟨_, rfl⟩
  obtain ⟨m, hm⟩ : ∃ m, m = N / |z| := ⟨_, rfl⟩
  rw [← hr, ← hr', ← hm] at hd
  rw [← hr, ← hr', ← hm]
  have hm1 : 1 ≤ m := by
    rw [hm, le_div_iff₀ hzp]
    linarith
  have hM : 0 ≤ m * (1 + |r|) := by positivity
  have hr'le : |r'| ≤ 101 / 100 * (m * (1 + |r|)) := by
    have h1 := abs_sub_abs_le_abs_sub r' r
    have h2 : |r| ≤ m * (1 + |r|) := by nlinarith [abs_nonneg r]
    have h3 : 2 * k * (m * (1 + |r|)) ≤ 1 / 100 * (m * (1 + |r|)) :=
      mul_le_mul_of_nonneg_right (by linarith) hM
    linarith
  have hg' : |g - 1| ≤ 401 / 100 * u := by
    refine hg.trans ?_
    have h2 : u ^ 2 ≤ u / 100000 := by nlinarith
    have h3 : u ^ 3 ≤ u / 100000 := by nlinarith [pow_nonneg hu 2]
    have h4 : u ^ 4 ≤ u / 100000 := by nlinarith [pow_nonneg hu 3]
    ring_nf
    linarith
  have e : f * r' * g + c * eq - (f * r + c) = f * (r' * (g - 1) + (r' - r)) + c * (eq - 1) := by ring
  have t1 : |r' * (g - 1) + (r' - r)| ≤ (2 * k + 5 * u) * (m * (1 + |r|)) := by
    refine (abs_add_le _ _).trans ?_
    rw [abs_mul]
    have := mul_le_mul hr'le hg' (abs_nonneg _) (by positivity)
    have : 0 ≤ u * (m * (1 + |r|)) := by positivity
    nlinarith
  have t2 := mul_le_mul_of_nonneg_left t1 (abs_nonneg f)
  have t3 := mul_le_mul_of_nonneg_left heq (abs_nonneg c)
  rw [e]
  refine (abs_add_le _ _).trans ?_
  rw [abs_mul, abs_mul, abs_mul]
  linarith

theorem Rd.two {u x y : ℝ} (hu : 0 ≤ u) (h : Rd u x y) : ∃ f, |f - 1| ≤ (1 + u) ^ 2 - 1 ∧ y = x * f := by
  obtain ⟨f, hf, e⟩ := h.form hu
  exact ⟨f, by nlinarith, e⟩

theorem wrap_small {d : ℝ} (h : |d| ≤ 360) : Spatial.wrap360 d = d := by
  have := abs_le.1 h
  unfold Spatial.wrap360
  rw [if_neg]
  rintro (h | h) <;> linarith

theorem mat_le (o : Camera.Orient) : Near 1 o.mat.R ⟨⟨0, 0, 0⟩, ⟨0, 0, 0⟩, ⟨0, 0, 0⟩⟩ := by
  cases o <;> exact rotation_le _ _ _

end Rounded

open Rounded in
/-- The computed rotation matrix of an orientation with angles of at most one turn. -/
theorem C151_matrix (o : Camera.Orient) (ho : Turn o) (u : ℝ) (hu : 0 ≤ u) (hu1 : u ≤ 1 / 100000) (R : M3) (hR : Rotation u o R) :
    Near (176 * u) R o.mat.R := by
  have w : ∀ {x y : ℝ}, |x - y| ≤ 189 / 10 * u → |x - y| ≤ 19 * u := by intro x y h; linarith
  have w' : ∀ {x y : ℝ}, |x - y| ≤ 189 / 10 * u → |x - y| ≤ 29 * u := by intro x y h; linarith
  cases o with
  | thr p =>
    obtain ⟨tilt, roll, heading, g1, g2, g3, hR⟩ := hR
    obtain ⟨t1, t2, t3⟩ := ho
    simp only [Camera.Orient.mat, Spatial.initCameraMatrix, Spatial.matrices, wrap_small t3]
    exact hR.near hu hu1 (w' (g2.near hu hu1 t2)) (w' (g1.near hu hu1 t1)) (w (g3.near hu hu1 t3))
  | ypr p =>
    obtain ⟨k, pitch, tilt, roll, yaw, g0, g1, g2, g3, g4, hR⟩ := hR
    obtain ⟨t1, t2, t3⟩ := ho
    simp only [Camera.Orient.mat, Spatial.initCameraMatrixYPR, Spatial.matricesYPR, wrap_small t1]
    refine hR.near hu hu1 ?_ ?_ (w (g4.near hu hu1 t3))
    · rw [show -roll - -Spatial.rad p.roll_deg = -(roll - Spatial.rad p.roll_deg) by ring, abs_neg]
      exact w' (g3.near hu hu1 t2)
    · have h1 := g1.near hu hu1 t1
      unfold Rd at g0 g2
      have hpi := Real.pi_lt_d4
      have hpi' := Real.pi_pos
      rw [abs_of_pos hpi'] at g0
      have hr : |Spatial.rad p.pitch_deg| ≤ 6.2832 := by
        unfold Spatial.rad
        rw [abs_mul, abs_of_pos (by positivity : 0 < Real.pi / 180)]
        nlinarith
      have e1 : |k / 2 + pitch - (Real.pi / 2 + Spatial.rad p.pitch_deg)| ≤ 205 / 10 * u := by
        have := abs_add_le ((k - Real.pi) / 2) (pitch - Spatial.rad p.pitch_deg)
        rw [abs_div, abs_two] at this
        rw [show k / 2 + pitch - (Real.pi / 2 + Spatial.rad p.pitch_deg) = (k - Real.pi) / 2 + (pitch - Spatial.rad p.pitch_deg) by ring]
        nlinarith
      have e2 : |k / 2 + pitch| ≤ 7.86 := by
        have h2 := abs_add_le (k / 2 + pitch - (Real.pi / 2 + Spatial.rad p.pitch_deg)) (Real.pi / 2 + Spatial.rad p.pitch_deg)
        have h3 := abs_add_le (Real.pi / 2) (Spatial.rad p.pitch_deg)
        rw [abs_of_pos (by positivity : 0 < Real.pi / 2)] at h3
        rw [sub_add_cancel] at h2
        linarith
      have := abs_sub_le tilt (k / 2 + pitch) (Real.pi / 2 + Spatial.rad p.pitch_deg)
      nlinarith

open Projection Rounded Camera in
/-- The image of a point in front of a rectilinear camera is accurate up to rounding errors, if the entries of the rotation matrix are accurate up
to `e`. -/
theorem C151_points (I : Intr) (u e : ℝ) (hu : 0 ≤ u) (hu1 : u ≤ 1 / 100000) (he1 : e ≤ 1 / 1000) (o : Orient) (R : M3)
    (hR : Near e R o.mat.R) (P : V3 ℝ) (hide : Bool) (c : V3 ℝ)
    (hc : (Spatial.cameraFromSpace o.mat P.num).Is c) (hz : c.z ≤ -(2 * minDepth))
    (hfar : 2 * (e + 6 * u) * size (P - o.pos) ≤ |c.z|) (out : V2 Num) (ho : ImageFromSpace u I o.pos R P hide out) :
    ∃ q q0 : V2 ℝ, out.Is q ∧ (imageFromSpace ⟨.rectilinear, I, o, noDistortion⟩ P.num hide).Is q0 ∧
      |q.x - q0.x| ≤ (2 * e + 17 * u) * (size (P - o.pos) / |c.z|) * (|I.fx| + |q0.x - I.cx|) + u * |I.cx| ∧
      |q.y - q0.y| ≤ (2 * e + 17 * u) * (size (P - o.pos) / |c.z|) * (|I.fy| + |q0.y - I.cy|) + u * |I.cy| := by
  obtain ⟨v, ⟨d, h1, h2, h3, k1, k2, k3⟩, hi⟩ := ho
  obtain ⟨n1, n2, n3, n4, n5, n6, n7, n8, n9⟩ := hR
  have he : 0 ≤ e := (abs_nonneg _).trans n1
  have hb := mat_le o
  simp only [Near, sub_zero] at hb
  obtain ⟨b1, b2, b3, b4, b5, b6, b7, b8, b9⟩ := hb
  obtain ⟨D, hD⟩ : ∃ D, D = P - o.pos := ⟨_, rfl⟩
  have hcc : c = o.mat.R.applyR D := by
    rw [camR_of_is ⟨.rectilinear, I, o, noDistortion⟩ hc, hD]
    rfl
  rw [← hD] at hfar ⊢
  have r1 : ∃ f, |f - 1| ≤ (1 + u) ^ 2 - 1 ∧ d.x = D.x * f := by rw [hD]; exact h1.two hu
  have r2 : ∃ f, |f - 1| ≤ (1 + u) ^ 2 - 1 ∧ d.y = D.y * f := by rw [hD]; exact h2.two hu
  have r3 : ∃ f, |f - 1| ≤ (1 + u) ^ 2 - 1 ∧ d.z = D.z * f := by rw [hD]; exact h3.two hu
  have x1 := row_near hu hu1 he he1 r1 r2 r3 n1 n2 n3 b1 b2 b3 k1
  have x2 := row_near hu hu1 he he1 r1 r2 r3 n4 n5 n6 b4 b5 b6 k2
  have x3 := row_near hu hu1 he he1 r1 r2 r3 n7 n8 n9 b7 b8 b9 k3
  have hN : |c.z| ≤ size D := by
    rw [hcc]
    simp only [M3.applyR, V3.dot, size]
    refine (abs_add_three _ _ _).trans ?_
    rw [abs_mul, abs_mul, abs_mul]
    nlinarith [abs_nonneg D.x, abs_nonneg D.y, abs_nonneg D.z]
  have y1 : |v.x - c.x| ≤ (e + 6 * u) * size D := by rw [hcc]; exact x1
  have y2 : |v.y - c.y| ≤ (e + 6 * u) * size D := by rw [hcc]; exact x2
  have y3 : |v.z - c.z| ≤ (e + 6 * u) * size D := by rw [hcc]; exact x3
  have hmd : (1 : ℝ) / 10 ^ 10 = minDepth := by norm_num [minDepth]
  have hmp : 0 < minDepth := by norm_num [minDepth]
  have hza : |c.z| = -c.z := abs_of_neg (by linarith)
  have hvz : v.z ≤ c.z / 2 := by
    have := (abs_le.1 y3).2
    linarith
  have hva : |v.z| = -v.z := abs_of_neg (by linarith)
  unfold ImageRect at hi
  rw [hmd, if_neg (by rw [hva]; linarith), if_neg (by rintro ⟨-, h⟩; linarith)] at hi
  obtain ⟨A, B, x, C, E, y, i1, i2, i3, i4, i5, i6, hq⟩ := hi
  have hq0 : (imageFromSpace ⟨.rectilinear, I, o, noDistortion⟩ P.num hide).Is
      ⟨-c.x * I.fx / c.z + I.cx, c.y * I.fy / c.z + I.cy⟩ := by
    simp only [imageFromSpace, noDistortion, id_eq, Projection.imageFromCamera, imageFromCameraRect]
    rw [snap_far hc (by rw [hmd, hza]; linarith)]
    exact projRect_is hc (by linarith) hide (fun _ => by linarith)
  have one : ∀ {X X' f c' a b q : ℝ}, |X' - X| ≤ (e + 6 * u) * size D → Rd u (X' * f) a → Rd u (a / v.z) b → Rd u (b + c') q →
      |q - (X * f / c.z + c')| ≤
        (2 * e + 17 * u) * (size D / |c.z|) * (|f| + |X * f / c.z + c' - c'|) + u * |c'| := by
    intro X X' f c' a b q hX ha hb hq
    obtain ⟨ea, hea, rfl⟩ := ha.form hu
    obtain ⟨eb, heb, rfl⟩ := hb.form hu
    obtain ⟨eq, heq, rfl⟩ := hq.form hu
    have hg := fac_mul (fac_mul hea heb) heq
    have h := affine (f := f) (c := c') hu hu1 (by linarith) (by linarith : c.z ≠ 0) hN hX y3 hfar
      (g := ea * eb * eq) (by nlinarith [mul_nonneg hu hu, mul_nonneg (mul_nonneg hu hu) hu, pow_nonneg hu 4]) heq
    have e1 : (X' * f * ea / v.z * eb + c') * eq = f * (X' / v.z) * (ea * eb * eq) + c' * eq := by ring
    have e2 : X * f / c.z = f * (X / c.z) := by ring
    rw [e1, e2, add_sub_cancel_right]
    refine h.trans (le_of_eq ?_)
    ring
  refine ⟨⟨x, y⟩, _, hq, hq0, one ?_ i1 i2 i3, one y2 i4 i5 i6⟩
  rwa [show -v.x - -c.x = -(v.x - c.x) by ring, abs_neg]

open Projection Rounded Camera in
/-- Points behind the camera are hidden in spite of rounding errors. -/
theorem C151_behind (I : Intr) (u e : ℝ) (hu : 0 ≤ u) (hu1 : u ≤ 1 / 100000) (he1 : e ≤ 1 / 1000) (o : Orient) (R : M3)
    (hR : Near e R o.mat.R) (P : V3 ℝ) (c : V3 ℝ) (hc : (Spatial.cameraFromSpace o.mat P.num).Is c) (hz : 0 < c.z)
    (hfar : 2 * (e + 6 * u) * size (P - o.pos) ≤ |c.z|) (out : V2 Num) (ho : ImageFromSpace u I o.pos R P true out) :
    out = V2.nan := by
  obtain ⟨v, ⟨d, h1, h2, h3, k1, k2, k3⟩, hi⟩ := ho
  obtain ⟨n1, n2, n3, n4, n5, n6, n7, n8, n9⟩ := hR
  have he : 0 ≤ e := (abs_nonneg _).trans n1
  have hb := mat_le o
  simp only [Near, sub_zero] at hb
  obtain ⟨b1, b2, b3, b4, b5, b6, b7, b8, b9⟩ := hb
  have hcc : c = o.mat.R.applyR (P - o.pos) := camR_of_is ⟨.rectilinear, I, o, noDistortion⟩ hc
  have x3 := row_near (d := P - o.pos) hu hu1 he he1 (h1.two hu) (h2.two hu) (h3.two hu) n7 n8 n9 b7 b8 b9 k3
  have y3 : |v.z - c.z| ≤ (e + 6 * u) * size (P - o.pos) := by rw [hcc]; exact x3
  have hvz : c.z / 2 ≤ v.z := by
    have := (abs_le.1 y3).1
    rw [abs_of_pos hz] at hfar
    linarith
  unfold ImageRect at hi
  split_ifs at hi with h h'
  · exact hi
  · exact hi
  · exact absurd ⟨rfl, by linarith⟩ h'

theorem Rounded.inv_le (o : Camera.Orient) : Rounded.Near 1 o.mat.Rinv ⟨⟨0, 0, 0⟩, ⟨0, 0, 0⟩, ⟨0, 0, 0⟩⟩ := by
  have h : o.mat.Rinv = o.mat.R.T := by cases o <;> exact Spatial.inv_rot _ _ _
  rw [h]
  obtain ⟨b1, b2, b3, b4, b5, b6, b7, b8, b9⟩ := Rounded.mat_le o
  exact ⟨b1, b4, b7, b2, b5, b8, b3, b6, b9⟩

theorem Rounded.plane_coord {u e N w z z' ea ef X X' t m q : ℝ} (hu : 0 ≤ u) (hu1 : u ≤ 1 / 100000) (he1 : e ≤ 1 / 1000)
    (hz : z ≠ 0) (hN : |z| ≤ N) (hz' : |z' - z| ≤ (e + 6 * u) * N) (hfar : 2 * (e + 6 * u) * N ≤ |z|) (hea : |ea - 1| ≤ u)
    (hef : |ef - 1| ≤ u) (hX : |X' - X| ≤ (e + 6 * u) * N) (hm : Rounded.Rd u (X' * (w * ea / z' * ef)) m) (hq : Rounded.Rd u (m + t) q) :
    |q - (X * (w / z) + t)| ≤ (2 * e + 17 * u) * (N / |z|) * (|w| + |X * (w / z) + t - t|) + u * |t| := by
  obtain ⟨em, hem, rfl⟩ := hm.form hu
  obtain ⟨eq, heq, rfl⟩ := hq.form hu
  have hg := Rounded.fac_mul (Rounded.fac_mul (Rounded.fac_mul hea hef) hem) heq
  have h := Rounded.affine (f := w) (c := t) hu hu1 (by linarith) hz hN hX hz' hfar
    (g := ea * ef * em * eq) (le_of_le_of_eq hg (by ring)) heq
  have e1 : (X' * (w * ea / z' * ef) * em + t) * eq = w * (X' / z') * (ea * ef * em * eq) + t * eq := by ring
  have e2 : X * (w / z) = w * (X / z) := by ring
  rw [e1, e2, add_sub_cancel_right]
  refine h.trans (le_of_eq ?_)
  ring

theorem Rounded.factor_sign {u k N w z z' ea ef : ℝ} (hu1 : u ≤ 1 / 100000) (hz : z ≠ 0) (hz' : |z' - z| ≤ k * N)
    (hfar : 2 * k * N ≤ |z|) (hea : |ea - 1| ≤ u) (hef : |ef - 1| ≤ u) (hs : 0 ≤ w / z) : ¬ w * ea / z' * ef < 0 := by
  have h4 : 0 < |z| := abs_pos.2 hz
  have hsame : 0 < z * z' := by
    have h2 : |z * (z' - z)| ≤ |z| * (|z| / 2) := by
      rw [abs_mul]
      exact mul_le_mul_of_nonneg_left (by linarith) (abs_nonneg _)
    have h3 := (abs_le.1 h2).1
    nlinarith [abs_mul_abs_self z]
  have hz0 : z' ≠ 0 := right_ne_zero_of_mul hsame.ne'
  have h1 := (abs_le.1 hea).1
  have h2 := (abs_le.1 hef).1
  have h5 : 0 < ea := by linarith
  have h6 : 0 < ef := by linarith
  have e : w * ea / z' * ef = w / z * (z * z') / z' ^ 2 * (ea * ef) := by
    field_simp
  rw [e, not_lt]
  positivity

open Projection Rounded Camera in
/-- The point on a plane that is seen at a pixel is accurate up to rounding errors, if the entries of the inverse rotation matrix are accurate up
to `e`. -/
theorem C152_plane (I : Intr) (hfx : I.fx ≠ 0) (hfy : I.fy ≠ 0) (u e : ℝ) (hu : 0 ≤ u) (hu1 : u ≤ 1 / 100000) (he1 : e ≤ 1 / 1000)
    (o : Orient) (Rinv : M3) (hR : Near e Rinv o.mat.Rinv) (p : V2 ℝ) (i : Fin 3) (v : ℝ) (r d : V3 ℝ)
    (hr : (Projection.getRay .rectilinear I p.num).Is r)
    (hd : (Camera.getRay ⟨.rectilinear, I, o, noDistortion⟩ p.num).2.Is d)
    (hfar : 2 * (e + 6 * u) * size r < |d.get i|) (hs : 0 ≤ (v - o.pos.get i) / d.get i) (out : V3 Num)
    (ho : SpaceFromImage u I o.pos Rinv p i v out) :
    ∃ (w : V3 Num) (q q0 : V3 ℝ), out.Is q ∧
      spaceFromImage ⟨.rectilinear, I, o, noDistortion⟩ p.num (coord i (.fin v)) = .ok w ∧ w.Is q0 ∧
      ∀ j : Fin 3, |q.get j - q0.get j| ≤
        (2 * e + 17 * u) * (size r / |d.get i|) * (|v - o.pos.get i| + |q0.get j - o.pos.get j|) + u * |o.pos.get j| := by
  obtain ⟨dir, a, f, ⟨r', hr', k1, k2, k3⟩, ha, hf, hq⟩ := ho
  obtain ⟨n1, n2, n3, n4, n5, n6, n7, n8, n9⟩ := hR
  have he : 0 ≤ e := (abs_nonneg _).trans n1
  have hb := inv_le o
  simp only [Near, sub_zero] at hb
  obtain ⟨b1, b2, b3, b4, b5, b6, b7, b8, b9⟩ := hb
  have hrr := hr.unique (getRay_is .rectilinear hfx hfy (V2.is_num p))
  have hdd : d = o.mat.Rinv.applyR r := hd.unique (M3.apply_is hr)
  obtain ⟨A, B, C, E, g1, g2, g3, g4, g5⟩ := hr'
  simp only [Bool.false_eq_true, if_false] at g5
  obtain ⟨eA, heA, rfl⟩ := g1.form hu
  obtain ⟨eB, heB, rfl⟩ := g2.form hu
  obtain ⟨eC, heC, rfl⟩ := g3.form hu
  obtain ⟨eE, heE, rfl⟩ := g4.form hu
  have sq : (1 + u) ^ 2 = (1 + u) * (1 + u) := sq _
  have r1 : ∃ f, |f - 1| ≤ (1 + u) ^ 2 - 1 ∧ r'.x = r.x * f :=
    ⟨eA * eB, by rw [sq]; exact fac_mul heA heB, by rw [g5, hrr]; simp [rayR]; ring⟩
  have r2 : ∃ f, |f - 1| ≤ (1 + u) ^ 2 - 1 ∧ r'.y = r.y * f :=
    ⟨eC * eE, by rw [sq]; exact fac_mul heC heE, by rw [g5, hrr]; simp [rayR]; ring⟩
  have r3 : ∃ f, |f - 1| ≤ (1 + u) ^ 2 - 1 ∧ r'.z = r.z * f :=
    ⟨1, by rw [sub_self, abs_zero]; nlinarith, by rw [g5, hrr]; simp [rayR]⟩
  have x1 := row_near hu hu1 he he1 r1 r2 r3 n1 n2 n3 b1 b2 b3 k1
  have x2 := row_near hu hu1 he he1 r1 r2 r3 n4 n5 n6 b4 b5 b6 k2
  have x3 := row_near hu hu1 he he1 r1 r2 r3 n7 n8 n9 b7 b8 b9 k3
  have hnear : ∀ j, |dir.get j - d.get j| ≤ (e + 6 * u) * size r := by
    intro j
    rw [hdd]
    fin_cases j
    · exact x1
    · exact x2
    · exact x3
  have hle : ∀ j, |d.get j| ≤ size r := by
    have key : ∀ w : V3 ℝ, |w.x| ≤ 1 → |w.y| ≤ 1 → |w.z| ≤ 1 → |r.dot w| ≤ size r := by
      intro w h1 h2 h3
      simp only [V3.dot, size]
      refine (abs_add_three _ _ _).trans ?_
      rw [abs_mul, abs_mul, abs_mul]
      nlinarith [abs_nonneg r.x, abs_nonneg r.y, abs_nonneg r.z]
    intro j
    rw [hdd]
    fin_cases j
    · exact key _ b1 b2 b3
    · exact key _ b4 b5 b6
    · exact key _ b7 b8 b9
  have hS : 0 ≤ size r := (abs_nonneg _).trans (hle i)
  have hd0 : d.get i ≠ 0 := by
    intro h
    rw [h, abs_zero] at hfar
    have : 0 ≤ 2 * (e + 6 * u) * size r := by positivity
    linarith
  have hd'0 : dir.get i ≠ 0 := (quotient hd0 (hnear i) (hnear i) hfar.le).1
  obtain ⟨ea, hea, rfl⟩ := ha.form hu
  obtain ⟨ef, hef, rfl⟩ := hf.form hu
  have hfn := factor_sign hu1 hd0 (hnear i) hfar.le hea hef hs
  unfold PointAt at hq
  rw [if_neg hfn] at hq
  obtain ⟨m1, m2, m3, x, y, z, i1, i2, i3, i4, i5, i6, hq⟩ := hq
  have hw := spaceFromImage_coord ⟨.rectilinear, I, o, noDistortion⟩ p.num i (.fin v)
  have hoff := getRay_offset ⟨.rectilinear, I, o, noDistortion⟩ p.num false
  have hfac : Num.Is ((Num.fin v - (Camera.getRay ⟨.rectilinear, I, o, noDistortion⟩ p.num).1.get i) /
      (Camera.getRay ⟨.rectilinear, I, o, noDistortion⟩ p.num).2.get i) ((v - o.pos.get i) / d.get i) := by
    have := hoff.get i
    have := hd.get i
    exact Num.Is.div (Num.Is.sub (Num.is_fin v) (hoff.get i)) (hd.get i) hd0
  have hpt := pointAt_is hd hoff hfac hs
  refine ⟨_, _, _, hq, hw, hpt, fun j => ?_⟩
  fin_cases j
  · exact plane_coord hu hu1 he1 hd0 (hle i) (hnear i) hfar.le hea hef (hnear 0) i1 i2
  · exact plane_coord hu hu1 he1 hd0 (hle i) (hnear i) hfar.le hea hef (hnear 1) i3 i4
  · exact plane_coord hu hu1 he1 hd0 (hle i) (hnear i) hfar.le hea hef (hnear 2) i5 i6

namespace Rounded

open Projection Camera

theorem Rd.exact {u : ℝ} (hu : 0 ≤ u) (x : ℝ) : Rd u x x := by
  unfold Rd
  rw [sub_self, abs_zero]
  positivity

theorem Rd.zero_iff {x y : ℝ} : Rd 0 x y ↔ y = x := by
  simp [Rd, sub_eq_zero]

theorem Dot.exact {u : ℝ} (hu : 0 ≤ u) (p q : V3 ℝ) : Dot u p q (p.dot q) :=
  ⟨_, _, _, Rd.exact hu _, Rd.exact hu _, Rd.exact hu _, Or.inl ⟨_, Rd.exact hu _, Rd.exact hu _⟩⟩

theorem Mul.exact {u : ℝ} (hu : 0 ≤ u) (A B : M3) : Mul u A B (M3.mul A B) :=
  ⟨Dot.exact hu _ _, Dot.exact hu _ _, Dot.exact hu _ _, Dot.exact hu _ _, Dot.exact hu _ _, Dot.exact hu _ _,
    Dot.exact hu _ _, Dot.exact hu _ _, Dot.exact hu _ _⟩

theorem RotationOf.exact {u : ℝ} (hu : 0 ≤ u) (a b c : ℝ) : RotationOf u a b c (Spatial.rotation a b c) :=
  ⟨_, _, _, _, _, _, Rd.exact hu _, Rd.exact hu _, Rd.exact hu _, Rd.exact hu _, Rd.exact hu _, Rd.exact hu _, _, Mul.exact hu _ _,
    Mul.exact hu _ _⟩

theorem Deg2rad.exact {u : ℝ} (hu : 0 ≤ u) (d : ℝ) : Deg2rad u d (Spatial.rad d) :=
  ⟨_, _, Rd.exact hu _, Rd.exact hu _, Rd.exact hu _⟩

/-- The exact matrix is a possible result. -/
theorem Rotation.exact {u : ℝ} (hu : 0 ≤ u) (o : Orient) (ho : Turn o) : Rotation u o o.mat.R := by
  cases o with
  | thr p =>
    simp only [Orient.mat, Spatial.initCameraMatrix, Spatial.matrices, wrap_small ho.2.2]
    exact ⟨_, _, _, Deg2rad.exact hu _, Deg2rad.exact hu _, Deg2rad.exact hu _, RotationOf.exact hu _ _ _⟩
  | ypr p =>
    simp only [Orient.mat, Spatial.initCameraMatrixYPR, Spatial.matricesYPR, wrap_small ho.1]
    exact ⟨_, _, _, _, _, Rd.exact hu _, Deg2rad.exact hu _, Rd.exact hu _, Deg2rad.exact hu _, Deg2rad.exact hu _,
      RotationOf.exact hu _ _ _⟩

theorem RayRect.exact {u : ℝ} (hu : 0 ≤ u) (I : Intr) (p : V2 ℝ) : RayRect u I p false (rayR .rectilinear I p) := by
  refine ⟨_, _, _, _, Rd.exact hu _, Rd.exact hu _, Rd.exact hu _, Rd.exact hu _, ?_⟩
  simp only [Bool.false_eq_true, if_false, rayR]
  ext <;> simp
  ring

theorem ImageRect.exists {u : ℝ} (hu : 0 ≤ u) (I : Intr) (P : V3 ℝ) (hide : Bool) : ∃ out, ImageRect u I P hide out := by
  unfold ImageRect
  split_ifs
  · exact ⟨_, rfl⟩
  · exact ⟨_, rfl⟩
  · exact ⟨_, _, _, _, _, _, _, Rd.exact hu _, Rd.exact hu _, Rd.exact hu _, Rd.exact hu _, Rd.exact hu _, Rd.exact hu _, V2.is_num _⟩

theorem ImageFromSpace.exists {u : ℝ} (hu : 0 ≤ u) (I : Intr) (t : V3 ℝ) (R : M3) (P : V3 ℝ) (hide : Bool) :
    ∃ out, ImageFromSpace u I t R P hide out := by
  obtain ⟨out, h⟩ := ImageRect.exists hu I (R.applyR (P - t)) hide
  exact ⟨out, _, ⟨P - t, Rd.exact hu _, Rd.exact hu _, Rd.exact hu _, Dot.exact hu _ _, Dot.exact hu _ _, Dot.exact hu _ _⟩, h⟩

theorem SpaceFromImage.exists {u : ℝ} (hu : 0 ≤ u) (I : Intr) (t : V3 ℝ) (Rinv : M3) (p : V2 ℝ) (i : Fin 3) (v : ℝ) :
    ∃ out, SpaceFromImage u I t Rinv p i v out := by
  have key : ∀ dir f, ∃ out, PointAt u t dir f out := by
    intro dir f
    unfold PointAt
    split_ifs
    · exact ⟨_, rfl⟩
    · exact ⟨_, _, _, _, _, _, _, Rd.exact hu _, Rd.exact hu _, Rd.exact hu _, Rd.exact hu _, Rd.exact hu _, Rd.exact hu _, V3.is_num _⟩
  obtain ⟨out, h⟩ := key _ _
  exact ⟨out, Rinv.applyR (rayR .rectilinear I p), _, _, ⟨_, RayRect.exact hu I p, Dot.exact hu _ _, Dot.exact hu _ _, Dot.exact hu _ _⟩,
    Rd.exact hu _, Rd.exact hu _, h⟩

theorem ImageRect.same {I : Intr} {n : V3 Num} {c : V3 ℝ} (h : n.Is c) {hide : Bool} {out : V2 Num} (ho : ImageRect 0 I c hide out) :
    V2.Same out (Projection.imageFromCamera .rectilinear I n hide) := by
  unfold ImageRect at ho
  simp only [Projection.imageFromCamera, imageFromCameraRect]
  split_ifs at ho with h1 h2
  · refine Or.inl ⟨ho, ?_⟩
    rw [snap_near h.2.2 h1]
    have h1 : Num.Is (-(Num.fin 0) * Num.fin I.fx) 0 := ((Num.is_fin 0).neg.mul (Num.is_fin I.fx)).congr (by ring)
    have h2 : Num.Is (Num.fin 0 * Num.fin I.fy) 0 := ((Num.is_fin 0).mul (Num.is_fin I.fy)).congr (by ring)
    unfold projRect
    simp only [Num.zero_div_zero h1 (Num.is_fin 0), Num.zero_div_zero h2 (Num.is_fin 0), Num.nan_add]
    split_ifs <;> rfl
  · refine Or.inl ⟨ho, ?_⟩
    rw [snap_far h (not_lt.1 h1)]
    unfold projRect
    simp only
    rw [if_pos]
    exact ⟨h2.1, ((Num.is_fin 0).lt_iff h.2.2).2 h2.2⟩
  · obtain ⟨a, b, x, c', d, y, i1, i2, i3, i4, i5, i6, hq⟩ := ho
    rw [Rd.zero_iff] at i1 i2 i3 i4 i5 i6
    subst i1 i2 i3 i4 i5 i6
    have hz : c.z ≠ 0 := by
      intro h0
      rw [h0, abs_zero] at h1
      norm_num at h1
    refine Or.inr ⟨_, hq, ?_⟩
    rw [snap_far h (not_lt.1 h1)]
    refine projRect_is h hz hide fun hh => ?_
    exact lt_of_le_of_ne (not_lt.1 fun h3 => h2 ⟨hh, h3⟩) hz

theorem Dot.zero {p q : V3 ℝ} {y : ℝ} (h : Dot 0 p q y) : y = p.dot q := by
  obtain ⟨e, f, g, he, hf, hg, rfl⟩ := h.form le_rfl
  simp [sub_eq_zero] at he hf hg
  subst he hf hg
  simp [V3.dot]

theorem Near.zero {A B : M3} (h : Near 0 A B) : A = B := by
  obtain ⟨h1, h2, h3, h4, h5, h6, h7, h8, h9⟩ := h
  have key : ∀ {x y : ℝ}, |x - y| ≤ 0 → x = y := fun h => sub_eq_zero.1 (abs_nonpos_iff.1 h)
  ext <;> apply key <;> assumption

theorem Near.refl {e : ℝ} (he : 0 ≤ e) (A : M3) : Near e A A := by
  simp [Near, he]

end Rounded

open Rounded Camera in
/-- Without rounding errors the relations describe the exact model. -/
theorem C151_exact (I : Projection.Intr) (o : Orient) (ho : Turn o) (P : V3 ℝ) (hide : Bool) (R : M3) (hR : Rotation 0 o R) (out : V2 Num)
    (h : ImageFromSpace 0 I o.pos R P hide out) :
    V2.Same out (imageFromSpace ⟨.rectilinear, I, o, noDistortion⟩ P.num hide) := by
  have hR' : R = o.mat.R := Near.zero (by simpa using C151_matrix o ho 0 le_rfl (by norm_num) R hR)
  subst hR'
  obtain ⟨v, ⟨d, h1, h2, h3, k1, k2, k3⟩, hi⟩ := h
  rw [Rd.zero_iff] at h1 h2 h3
  have hv : v = o.mat.R.applyR (P - o.pos) := by
    have hd : d = P - o.pos := by ext <;> assumption
    subst hd
    ext
    · exact k1.zero
    · exact k2.zero
    · exact k3.zero
  subst hv
  exact ImageRect.same (cameraFromSpace_is ⟨.rectilinear, I, o, noDistortion⟩ (V3.is_num P)) hi

open Projection Rounded Camera in
/-- With doubles and functions that are accurate up to `2 ^ -50`, images of usual size are accurate to a millionth of a pixel. -/
theorem C151_double (I : Intr) (o : Orient) (ho : Turn o) (R : M3) (hR : Rotation (1 / 2 ^ 50) o R) (P : V3 ℝ) (hide : Bool) (c : V3 ℝ)
    (hc : (Spatial.cameraFromSpace o.mat P.num).Is c) (hz : c.z ≤ -(2 * minDepth)) (hfar : size (P - o.pos) ≤ 10 * |c.z|)
    (hf : |I.fx| ≤ 10 ^ 5 ∧ |I.fy| ≤ 10 ^ 5) (hcx : |I.cx| ≤ 10 ^ 5 ∧ |I.cy| ≤ 10 ^ 5) (q0 : V2 ℝ)
    (hq : (imageFromSpace ⟨.rectilinear, I, o, noDistortion⟩ P.num hide).Is q0)
    (hin : |q0.x - I.cx| ≤ 10 ^ 5 ∧ |q0.y - I.cy| ≤ 10 ^ 5) (out : V2 Num)
    (h : ImageFromSpace (1 / 2 ^ 50) I o.pos R P hide out) :
    ∃ q : V2 ℝ, out.Is q ∧ |q.x - q0.x| ≤ 1 / 10 ^ 6 ∧ |q.y - q0.y| ≤ 1 / 10 ^ 6 := by
  have hzn : c.z < 0 := by
    have : 0 < minDepth := by norm_num [minDepth]
    linarith
  have hzp : 0 < |c.z| := abs_pos.2 hzn.ne
  have hn := C151_matrix o ho (1 / 2 ^ 50) (by norm_num) (by norm_num) R hR
  obtain ⟨q, q1, h1, h2, h3, h4⟩ := C151_points I (1 / 2 ^ 50) (176 * (1 / 2 ^ 50)) (by norm_num) (by norm_num) (by norm_num) o R hn P
    hide c hc hz (by linarith) out h
  have e : q1 = q0 := h2.unique hq
  subst e
  have hm : size (P - o.pos) / |c.z| ≤ 10 := by rwa [div_le_iff₀ hzp]
  have hm0 : 0 ≤ size (P - o.pos) / |c.z| := by
    unfold size
    positivity
  have key : ∀ {f d cc : ℝ}, |f| ≤ 10 ^ 5 → |d| ≤ 10 ^ 5 → |cc| ≤ 10 ^ 5 →
      (2 * (176 * (1 / 2 ^ 50)) + 17 * (1 / 2 ^ 50)) * (size (P - o.pos) / |c.z|) * (|f| + |d|) + 1 / 2 ^ 50 * |cc| ≤ (1 : ℝ) / 10 ^ 6 := by
    intro f d cc hf hd hc
    have h5 : size (P - o.pos) / |c.z| * (|f| + |d|) ≤ 10 * (2 * 10 ^ 5) :=
      mul_le_mul hm (by linarith) (by positivity) (by norm_num)
    linarith
  exact ⟨q, h1, h3.trans (key hf.1 hin.1 hcx.1), h4.trans (key hf.2 hin.2 hcx.2)⟩

namespace Rounded

/-- A camera 10 m above the ground, looking down. -/
noncomputable def exOrient : Camera.Orient := .thr ⟨10, 0, 0, 0, 0, 0⟩

theorem exOrient_mat : exOrient.mat.R = M3.one ∧ exOrient.mat.Rinv = M3.one := by
  have hw : Spatial.wrap360 0 = 0 := wrap_small (by norm_num)
  have h : exOrient.mat.R = M3.one := by
    simp [exOrient, Camera.Orient.mat, Spatial.initCameraMatrix, Spatial.matrices, hw, Spatial.rotation, Spatial.rad,
      Spatial.R_roll, Spatial.R_tilt, Spatial.R_head, M3.mul, M3.rowMul, M3.T, V3.dot, M3.one]
  refine ⟨h, ?_⟩
  have h2 : exOrient.mat.Rinv = exOrient.mat.R.T := Spatial.inv_rot _ _ _
  rw [h2, h]
  rfl

theorem exOrient_turn : Turn exOrient := by
  simp [Turn, exOrient]

theorem exOrient_cam : (Spatial.cameraFromSpace exOrient.mat (V3.num ⟨1, 2, 0⟩)).Is ⟨1, 2, -10⟩ := by
  have h := Camera.cameraFromSpace_is ⟨.rectilinear, ⟨100, 100, 50, 25, 100, 50⟩, exOrient, Camera.noDistortion⟩ (V3.is_num ⟨1, 2, 0⟩)
  refine h.congr ?_
  simp only [Camera.camR, exOrient_mat.1]
  simp [M3.applyR, M3.one, V3.dot, exOrient, Camera.Orient.pos]

end Rounded

open Rounded in
example : ∃ ray, RayRect (1 / 2 ^ 53) ⟨100, 100, 50, 25, 100, 50⟩ ⟨10, 20⟩ false ray ∧ Projection.minDepth ≤ |ray.z| :=
  ⟨_, RayRect.exact (by norm_num) _ _, by norm_num [Projection.rayR, Projection.minDepth]⟩

open Rounded in
example : ∃ R, Rotation (1 / 2 ^ 53) exOrient R ∧ Near (176 * (1 / 2 ^ 53)) R exOrient.mat.R :=
  ⟨_, Rotation.exact (by norm_num) _ exOrient_turn, C151_matrix _ exOrient_turn _ (by norm_num) (by norm_num) _
    (Rotation.exact (by norm_num) _ exOrient_turn)⟩

open Rounded in
example : ∃ out, ImageFromSpace (1 / 2 ^ 53) ⟨100, 100, 50, 25, 100, 50⟩ exOrient.pos exOrient.mat.R ⟨1, 2, 0⟩ true out ∧
    ∃ q : V2 ℝ, out.Is q := by
  obtain ⟨out, h⟩ := ImageFromSpace.exists (u := 1 / 2 ^ 53) (by norm_num) ⟨100, 100, 50, 25, 100, 50⟩ exOrient.pos exOrient.mat.R ⟨1, 2, 0⟩ true
  obtain ⟨q, -, hq, -⟩ := C151_points _ (1 / 2 ^ 53) 0 (by norm_num) (by norm_num) (by norm_num) exOrient _ (Near.refl le_rfl _) _ true _
    exOrient_cam (by norm_num [Projection.minDepth])
    (by norm_num [size, exOrient, Camera.Orient.pos, abs_of_nonneg, abs_of_nonpos]) out h
  exact ⟨out, h, q, hq⟩

open Rounded in
example : (Spatial.cameraFromSpace exOrient.mat (V3.num ⟨1, 2, 0⟩)).Is ⟨1, 2, -10⟩ ∧ size (⟨1, 2, 0⟩ - exOrient.pos) ≤ 10 * |(-10 : ℝ)| :=
  ⟨exOrient_cam, by norm_num [size, exOrient, Camera.Orient.pos, abs_of_nonneg, abs_of_nonpos]⟩

open Rounded in
example : ∃ out, ImageFromSpace 0 ⟨100, 100, 50, 25, 100, 50⟩ exOrient.pos exOrient.mat.R ⟨1, 2, 0⟩ true out ∧ Rotation 0 exOrient exOrient.mat.R := by
  obtain ⟨out, h⟩ := ImageFromSpace.exists le_rfl ⟨100, 100, 50, 25, 100, 50⟩ exOrient.pos exOrient.mat.R ⟨1, 2, 0⟩ true
  exact ⟨out, h, Rotation.exact le_rfl _ exOrient_turn⟩

open Rounded Camera in
example : ∃ out, SpaceFromImage (1 / 2 ^ 53) ⟨100, 100, 50, 25, 100, 50⟩ exOrient.pos exOrient.mat.Rinv ⟨60, 45⟩ 2 0 out ∧
    ∃ q : V3 ℝ, out.Is q := by
  obtain ⟨out, h⟩ := SpaceFromImage.exists (u := 1 / 2 ^ 53) (by norm_num) ⟨100, 100, 50, 25, 100, 50⟩ exOrient.pos exOrient.mat.Rinv ⟨60, 45⟩ 2 0
  have hr : (Projection.getRay .rectilinear ⟨100, 100, 50, 25, 100, 50⟩ (V2.num ⟨60, 45⟩)).Is ⟨1 / 10, -(1 / 5), -1⟩ :=
    (Projection.getRay_is .rectilinear (by norm_num) (by norm_num) (V2.is_num _)).congr (by norm_num [Projection.rayR])
  have hd : (Camera.getRay ⟨.rectilinear, ⟨100, 100, 50, 25, 100, 50⟩, exOrient, noDistortion⟩ (V2.num ⟨60, 45⟩)).2.Is ⟨1 / 10, -(1 / 5), -1⟩ := by
    have h1 := M3.apply_is (A := exOrient.mat.Rinv) hr
    refine V3.Is.congr h1 ?_
    rw [exOrient_mat.2]
    simp [M3.applyR, M3.one, V3.dot]
  obtain ⟨-, q, -, hq, -⟩ := C152_plane _ (by norm_num) (by norm_num) (1 / 2 ^ 53) 0 (by norm_num) (by norm_num) (by norm_num) exOrient _
    (Near.refl le_rfl _) _ 2 0 _ _ hr hd (by norm_num [size, abs_of_nonneg, abs_of_nonpos])
    (by norm_num [exOrient, Orient.pos]) out h
  exact ⟨out, h, q, hq⟩
