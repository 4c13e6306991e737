import Verif.Model.RoundedTest
import Verif.Props.RoundSpace
import Verif.Props.RoundDistance
import Verif.Props.Drawn

/-! # C185: the property tests of the transformations pass with rounding errors -/

namespace Rounded

open Projection Camera

/-- A point close to the ray of a pixel of a panorama has an image close to the pixel. -/
theorem back_pan (k : Kind) (hk : k ≠ .rectilinear) (I : Intr) (hfx : I.fx ≠ 0) (hfy : I.fy ≠ 0) {u e : ℝ} (hu : 0 ≤ u) (hu1 : u ≤ 1 / 100000)
    (he1 : e ≤ 1 / 1000) (o : Orient) (R : M3) (hR : Near e R o.mat.R) (p : V2 ℝ) (hx : |(p.x - I.cx) / I.fx| < Real.pi)
    (hy : k = .equirectangular → |(p.y - I.cy) / I.fy| < Real.pi / 2) {f Y Z N : ℝ} (hf0 : 0 < f) (r : V3 ℝ) (hrr : r = rayR k I p)
    (hSN : size r ≤ N) (hZ : 3 * Y + 31 / 10 * ((e + 6 * u) * N) ≤ Z) (hZ1 : Z ≤ 1 / 10) (hdep : 2 * minDepth ≤ f * |r.z|) (hside : 8 * Z ≤ |r.z|)
    (hcut : r.z < 0) (P : V3 ℝ) (hpt : ∀ j, |(P - o.pos).get j - f * (o.mat.Rinv.applyR r).get j| ≤ f * Y) (out : V2 Num)
    (ho : ImageFromSpacePan u k I o.pos R P out) :
    ∃ w : V2 ℝ, out.Is w ∧
      |w.x - p.x| ≤ (7 * Z + 25 * u) * (|I.fx| + |p.x - I.cx|) + u * |I.cx| ∧
      |w.y - p.y| ≤ (7 * Z + 25 * u) * (|I.fy| + |p.y - I.cy|) + u * |I.cy| := by
  have he : 0 ≤ e := (abs_nonneg _).trans hR.1
  have hmp : 0 < minDepth := by norm_num [minDepth]
  have hS1 : 1 ≤ size r := by rw [hrr]; exact pan_size k hk I p
  have hN0 : 0 ≤ N := by linarith
  have hY0 : 0 ≤ (e + 6 * u) * N := by positivity
  obtain ⟨D, hD⟩ : ∃ D, D = P - o.pos := ⟨_, rfl⟩
  rw [← hD] at hpt
  obtain ⟨x0, y0, z0, hsd⟩ := back_cam o hf0 (by linarith) hS1 hpt
  obtain ⟨w, ⟨d', h1, h2, h3, k1, k2, k3⟩, hi⟩ := ho
  obtain ⟨n1, n2, n3, n4, n5, n6, n7, n8, n9⟩ := hR
  have hb := mat_le o
  simp only [Near, sub_zero] at hb
  obtain ⟨b1, b2, b3, b4, b5, b6, b7, b8, b9⟩ := hb
  have x1 := row_near (d := P - o.pos) hu hu1 he he1 (h1.two hu) (h2.two hu) (h3.two hu) n1 n2 n3 b1 b2 b3 k1
  have x2 := row_near (d := P - o.pos) hu hu1 he he1 (h1.two hu) (h2.two hu) (h3.two hu) n4 n5 n6 b4 b5 b6 k2
  have x3 := row_near (d := P - o.pos) hu hu1 he he1 (h1.two hu) (h2.two hu) (h3.two hu) n7 n8 n9 b7 b8 b9 k3
  rw [← hD] at x1 x2 x3
  have hrow : (e + 6 * u) * size D ≤ f * (31 / 10 * ((e + 6 * u) * N)) := by
    have g1 := mul_le_mul_of_nonneg_left hsd (by positivity : 0 ≤ e + 6 * u)
    have g2 := mul_le_mul_of_nonneg_left hSN (by positivity : 0 ≤ (e + 6 * u) * f)
    linarith
  have hfZ := mul_le_mul_of_nonneg_left hZ hf0.le
  have tot : ∀ {w c r : ℝ}, |w - c| ≤ (e + 6 * u) * size D → |c - f * r| ≤ 3 * (f * Y) → |w - r * f| ≤ f * Z := by
    intro w c r g1 g2
    have := abs_sub_le w c (r * f)
    rw [mul_comm f r] at g2
    linarith
  have c1 := tot x1 x0
  have c2 := tot x2 y0
  have c3 := tot x3 z0
  have hfz : |(r.mulS f).z| = f * |r.z| := by
    rw [V3.mulS_z, abs_mul, abs_of_pos hf0, mul_comm]
  have hsd8 : 8 * (f * Z) ≤ |(r.mulS f).z| := by
    rw [hfz]
    have := mul_le_mul_of_nonneg_left hside hf0.le
    linarith
  have hcut' : (r.mulS f).z < 0 ∨ f * Z < |(r.mulS f).x| := by
    left
    rw [V3.mulS_z]
    exact mul_neg_of_neg_of_pos hcut hf0
  rw [← hfz] at hdep
  obtain ⟨q, q0, g1, g2, g3, g4⟩ := pan_point k hk I hu (by linarith) (c := r.mulS f) (v := w) (d := f * Z) c1 c2 c3 hdep hsd8 hcut' hi (V3.is_num _) true
  have hq0 : q0 = p := by
    refine g2.unique ?_
    rw [hrr] at hdep ⊢
    exact pan_ray k hk I hfx hfy p hx hy hf0 (by linarith) true
  have hro : Real.sqrt ((r.mulS f).x ^ 2 + (r.mulS f).z ^ 2) = f := by
    rw [V3.mulS_x, V3.mulS_z, hrr, (pan_depth k hk I p).1, (pan_depth k hk I p).2]
    have := Real.sin_sq_add_cos_sq ((p.x - I.cx) / I.fx)
    rw [show (Real.sin ((p.x - I.cx) / I.fx) * f) ^ 2 + (-Real.cos ((p.x - I.cx) / I.fx) * f) ^ 2 = f ^ 2 * (Real.sin ((p.x - I.cx) / I.fx) ^ 2 + Real.cos ((p.x - I.cx) / I.fx) ^ 2) by ring,
      this, mul_one, Real.sqrt_sq hf0.le]
  have hquo : f * Z / f = Z := by field_simp
  rw [hq0, hro, hquo] at g3 g4
  exact ⟨q, g1, g3, g4⟩

/-- A multiple of a product. -/
theorem Dot.scaled {u : ℝ} {p q : V3 ℝ} {y : ℝ} (n : ℝ) (h : Dot u p q y) : Dot u (p.mulS n) q (n * y) := by
  have sc : ∀ {x y : ℝ}, Rd u x y → Rd u (n * x) (n * y) := by
    intro x y h
    unfold Rd at h ⊢
    rw [← mul_sub, abs_mul, abs_mul]
    have := mul_le_mul_of_nonneg_left h (abs_nonneg n)
    linarith
  obtain ⟨a, b, c, h1, h2, h3, h4⟩ := h
  refine ⟨n * a, n * b, n * c, ?_, ?_, ?_, ?_⟩
  · have := sc h1; rwa [show n * (p.x * q.x) = (p.mulS n).x * q.x by simp; ring] at this
  · have := sc h2; rwa [show n * (p.y * q.y) = (p.mulS n).y * q.y by simp; ring] at this
  · have := sc h3; rwa [show n * (p.z * q.z) = (p.mulS n).z * q.z by simp; ring] at this
  · rcases h4 with ⟨s, k1, k2⟩ | ⟨s, k1, k2⟩ | ⟨s, k1, k2⟩
    · exact .inl ⟨n * s, by rw [← mul_add]; exact sc k1, by rw [← mul_add]; exact sc k2⟩
    · exact .inr (.inl ⟨n * s, by rw [← mul_add]; exact sc k1, by rw [← mul_add]; exact sc k2⟩)
    · exact .inr (.inr ⟨n * s, by rw [← mul_add]; exact sc k1, by rw [← mul_add]; exact sc k2⟩)

/-- Vectors that are close to each other have almost the same length. -/
theorem norm_sub_le (a b : V3 ℝ) : |a.norm - b.norm| ≤ |a.x - b.x| + |a.y - b.y| + |a.z - b.z| := by
  have tri : ∀ v w : V3 ℝ, (v + w).norm ≤ v.norm + w.norm := by
    intro v w
    unfold V3.norm
    have hv := V3.normSq_nonneg v
    have hw := V3.normSq_nonneg w
    refine Real.sqrt_le_iff.2 ⟨by positivity, ?_⟩
    have e1 := Real.sq_sqrt hv
    have e2 := Real.sq_sqrt hw
    have cs : v.x * w.x + v.y * w.y + v.z * w.z ≤ Real.sqrt v.normSq * Real.sqrt w.normSq := by
      rw [← Real.sqrt_mul hv]
      apply Real.le_sqrt_of_sq_le
      simp only [V3.normSq]
      nlinarith [sq_nonneg (v.x * w.y - v.y * w.x), sq_nonneg (v.x * w.z - v.z * w.x), sq_nonneg (v.y * w.z - v.z * w.y)]
    have e3 : (v + w).normSq = v.normSq + w.normSq + 2 * (v.x * w.x + v.y * w.y + v.z * w.z) := by
      simp only [V3.normSq, V3.add_x, V3.add_y, V3.add_z]; ring
    rw [e3]
    nlinarith
  have sz : ∀ v : V3 ℝ, v.norm ≤ |v.x| + |v.y| + |v.z| := by
    intro v
    unfold V3.norm
    refine Real.sqrt_le_iff.2 ⟨by positivity, ?_⟩
    simp only [V3.normSq]
    rw [← sq_abs v.x, ← sq_abs v.y, ← sq_abs v.z]
    have := abs_nonneg v.x
    have := abs_nonneg v.y
    have := abs_nonneg v.z
    nlinarith [mul_nonneg (abs_nonneg v.x) (abs_nonneg v.y), mul_nonneg (abs_nonneg v.x) (abs_nonneg v.z), mul_nonneg (abs_nonneg v.y) (abs_nonneg v.z)]
  have h1 := tri (a - b) b
  have h2 := tri (b - a) a
  have e1 : a - b + b = a := by ext <;> simp
  have e2 : b - a + a = b := by ext <;> simp
  have s1 := sz (a - b)
  have s2 := sz (b - a)
  rw [e1] at h1
  rw [e2] at h2
  simp only [V3.sub_x, V3.sub_y, V3.sub_z] at s1 s2
  rw [abs_sub_comm b.x, abs_sub_comm b.y, abs_sub_comm b.z] at s2
  rw [abs_le]
  constructor <;> linarith

/-- The size of the ray of a pixel, with the influence of rounding errors of the angles. -/
noncomputable def raySize (k : Kind) (I : Intr) (p : V2 ℝ) : ℝ :=
  match k with
  | .rectilinear => size (rayR .rectilinear I p)
  | _ => panSize k I p

/-- The length by which a vector is divided. -/
theorem Normed.form {u : ℝ} (hu : 0 ≤ u) (hu1 : u ≤ 1 / 100000) {v q : V3 ℝ} (hv : 0 < v.norm) (h : Normed u v q) :
    ∃ n, 0 < n ∧ |n - v.norm| ≤ 82 / 10 * u * v.norm ∧ |n * q.x - v.x| ≤ u * |v.x| ∧ |n * q.y - v.y| ≤ u * |v.y| ∧ |n * q.z - v.z| ≤ u * |v.z| := by
  obtain ⟨s, n, hs, hn, q1, q2, q3⟩ := h
  have f0 : |(1 : ℝ) - 1| ≤ (1 + u) ^ 2 - 1 := by rw [sub_self, abs_zero]; nlinarith
  obtain ⟨k, hk, rfl⟩ := norm_near (v := v) (w := v) hu hu1 f0 f0 f0 (by ring) (by ring) (by ring) hv hs hn
  have hk0 : 0 < k := by
    have := (abs_le.1 hk).1
    linarith
  have hn0 : 0 < v.norm * k := mul_pos hv hk0
  have key : ∀ {x y : ℝ}, Rd u (x / (v.norm * k)) y → |v.norm * k * y - x| ≤ u * |x| := by
    intro x y h
    unfold Rd at h
    have := mul_le_mul_of_nonneg_left h hn0.le
    rw [abs_div, abs_of_pos hn0] at this
    rw [show v.norm * k * y - x = v.norm * k * (y - x / (v.norm * k)) by field_simp, abs_mul, abs_of_pos hn0]
    refine this.trans (le_of_eq ?_)
    field_simp
  refine ⟨_, hn0, ?_, key q1, key q2, key q3⟩
  rw [show v.norm * k - v.norm = v.norm * (k - 1) by ring, abs_mul, abs_of_pos hv]
  have := mul_le_mul_of_nonneg_left hk hv.le
  linarith

/-- The ray of a pixel of a rectilinear image. -/
theorem rect_near (I : Intr) {u : ℝ} (hu : 0 ≤ u) (hu1 : u ≤ 1 / 100000) (p : V2 ℝ) (r : V3 ℝ) (hr : RayRect u I p false r) :
    |r.x - (rayR .rectilinear I p).x| + |r.y - (rayR .rectilinear I p).y| + |r.z - (rayR .rectilinear I p).z| ≤ 42 / 10 * u * size (rayR .rectilinear I p) := by
  obtain ⟨A, B, C, E, g1, g2, g3, g4, g5⟩ := hr
  simp only [Bool.false_eq_true, if_false] at g5
  subst g5
  have h2 := two_steps hu hu1 g3 g4
  have g2' : Rd u (A / I.fx) (-B) := by
    unfold Rd at g2 ⊢
    rw [show -B - A / I.fx = -(B - -A / I.fx) by ring, abs_neg]
    rwa [show -A / I.fx = -(A / I.fx) by ring, abs_neg, show -(A / I.fx) = -A / I.fx by ring] at g2
  have h1 := two_steps hu hu1 g1 g2'
  simp only [rayR, size, V3.neg_x, V3.neg_y, V3.neg_z]
  have e1 : -E - -((p.y - I.cy) / I.fy) = -(E - (p.y - I.cy) / I.fy) := by ring
  have w3 := mul_nonneg hu (abs_nonneg ((p.x - I.cx) / I.fx))
  have w4 := mul_nonneg hu (abs_nonneg ((p.y - I.cy) / I.fy))
  simp only [e1, abs_neg, sub_neg_eq_add, neg_add_cancel, abs_zero, _root_.abs_one]
  linarith

theorem one_le_ray (k : Kind) (I : Intr) (p : V2 ℝ) : 1 ≤ (rayR k I p).norm := by
  unfold V3.norm
  rw [Real.one_le_sqrt]
  have h := Real.sin_sq_add_cos_sq ((p.x - I.cx) / I.fx)
  cases k <;> simp only [rayR, V3.normSq]
  · nlinarith [sq_nonneg ((p.x - I.cx) / I.fx), sq_nonneg ((p.y - I.cy) / I.fy)]
  · nlinarith [sq_nonneg ((p.y - I.cy) / I.fy)]
  · nlinarith [sq_nonneg (Real.tan ((p.y - I.cy) / I.fy))]

theorem ray_norm_le (r : V3 ℝ) : r.norm ≤ size r := by
  have := norm_sub_le r ⟨0, 0, 0⟩
  have h0 : (⟨0, 0, 0⟩ : V3 ℝ).norm = 0 := by simp [V3.norm, V3.normSq]
  simp only [sub_zero, h0] at this
  exact (le_abs_self _).trans this

/-- Dividing a vector that is known roughly by its length. -/
theorem normed_any {u N : ℝ} (hu : 0 ≤ u) (hu1 : u ≤ 1 / 100000) {v q r : V3 ℝ} (hn : |v.x - r.x| + |v.y - r.y| + |v.z - r.z| ≤ 42 / 10 * u * N)
    (hN : size r ≤ N) (h1 : 1 ≤ r.norm) (hsm : u * N ≤ 1 / 100) (h : Normed u (-v) q) :
    ∃ n, 0 < n ∧ |n - r.norm| ≤ 14 * u * N ∧ |n * (-q).x - r.x| + |n * (-q).y - r.y| + |n * (-q).z - r.z| ≤ 42 / 10 * (2 * u) * N := by
  have hnn : (-v).norm = v.norm := by simp [V3.norm, V3.normSq]
  have hd := (norm_sub_le v r).trans hn
  have hv0 : 0 < v.norm := by
    have := (abs_le.1 hd).1
    linarith
  obtain ⟨n, hn0, hn1, k1, k2, k3⟩ := h.form hu hu1 (by rw [hnn]; exact hv0)
  rw [hnn] at hn1
  simp only [V3.neg_x, V3.neg_y, V3.neg_z, abs_neg, sub_neg_eq_add] at k1 k2 k3
  have hrN : r.norm ≤ N := (ray_norm_le r).trans hN
  have huN : 0 ≤ u * N := mul_nonneg hu (by linarith)
  have hvN : u * v.norm ≤ 105 / 100 * (u * N) := by
    have h2 : v.norm ≤ r.norm + 42 / 10 * u * N := by linarith [(abs_le.1 hd).2]
    have h3 := mul_le_mul_of_nonneg_left (h2.trans (add_le_add_left hrN _)) hu
    have h4 : u * (42 / 10 * u * N) ≤ 42 / 10 * (1 / 100000) * (u * N) := by
      have := mul_le_mul_of_nonneg_right hu1 huN
      linarith
    linarith
  refine ⟨n, hn0, ?_, ?_⟩
  · have := abs_sub_le n v.norm r.norm
    linarith
  · have one : ∀ {a b c : ℝ}, |n * a + b| ≤ u * |b| → |n * -a - c| ≤ u * |c| + (1 + u) * |b - c| := by
      intro a b c h
      have e : n * -a - c = -(n * a + b) + (b - c) := by ring
      have h2 := abs_add_le (b - c) c
      rw [sub_add_cancel] at h2
      have h3 := mul_le_mul_of_nonneg_left h2 hu
      rw [e]
      refine (abs_add_le _ _).trans ?_
      rw [abs_neg]
      linarith
    have o1 := one (c := r.x) k1
    have o2 := one (c := r.y) k2
    have o3 := one (c := r.z) k3
    simp only [V3.neg_x, V3.neg_y, V3.neg_z]
    have hs := mul_le_mul_of_nonneg_left hN hu
    unfold size at hs
    have hm := mul_le_mul_of_nonneg_left hn (by linarith : 0 ≤ 1 + u)
    have h4 : u * (42 / 10 * u * N) ≤ 42 / 10 * (1 / 100000) * (u * N) := by
      have := mul_le_mul_of_nonneg_right hu1 huN
      linarith
    linarith

/-- The ray of a pixel, for the three projections. -/
def RayAny (u : ℝ) (k : Kind) (I : Intr) (p : V2 ℝ) (normed : Bool) (r : V3 ℝ) : Prop :=
  match k with
  | .rectilinear => RayRect u I p normed r
  | _ => RayPan u k I p normed r

/-- The ray of a pixel, up to a factor if it is normed. -/
theorem ray_any (k : Kind) (I : Intr) {u : ℝ} (hu : 0 ≤ u) (hu1 : u ≤ 1 / 100000) (p : V2 ℝ)
    (hpole : k = .equirectangular → 201 / 100 * u * |(p.y - I.cy) / I.fy| ≤ |Real.cos ((p.y - I.cy) / I.fy)| / 2 ∧ Real.cos ((p.y - I.cy) / I.fy) ≠ 0)
    (hsm : u * raySize k I p ≤ 1 / 100) (normed : Bool) (r' : V3 ℝ) (hr : RayAny u k I p normed r') :
    size (rayR k I p) ≤ raySize k I p ∧ ∃ n, 0 < n ∧ (normed = false → n = 1) ∧ (normed = true → |n - (rayR k I p).norm| ≤ 14 * u * raySize k I p) ∧
      |n * r'.x - (rayR k I p).x| + |n * r'.y - (rayR k I p).y| + |n * r'.z - (rayR k I p).z| ≤ 42 / 10 * (2 * u) * raySize k I p := by
  have h1 := one_le_ray k I p
  by_cases hk : k = .rectilinear
  · subst hk
    change RayRect u I p normed r' at hr
    have hN : size (rayR .rectilinear I p) ≤ raySize .rectilinear I p := le_rfl
    refine ⟨hN, ?_⟩
    have huN : 0 ≤ u * raySize .rectilinear I p := mul_nonneg hu ((size_nonneg _).trans hN)
    cases normed with
    | false =>
      refine ⟨1, one_pos, fun _ => rfl, fun h => by simp at h, ?_⟩
      simp only [one_mul]
      refine (rect_near I hu hu1 p r' hr).trans ?_
      show _ ≤ 42 / 10 * (2 * u) * raySize .rectilinear I p
      have : 42 / 10 * u * size (rayR .rectilinear I p) = 42 / 10 * (u * raySize .rectilinear I p) := by rw [mul_assoc]; rfl
      linarith
    | true =>
      obtain ⟨A, B, C, E, g1, g2, g3, g4, g5⟩ := hr
      rw [if_pos rfl] at g5
      obtain ⟨q, hq, rfl⟩ := g5
      have hv := rect_near I hu hu1 p (-⟨B, E, 1⟩) ⟨A, B, C, E, g1, g2, g3, g4, by simp⟩
      obtain ⟨n, a, b, c⟩ := normed_any hu hu1 hv hN h1 hsm (by rw [show -(-(⟨B, E, 1⟩ : V3 ℝ)) = ⟨B, E, 1⟩ by ext <;> simp]; exact hq)
      exact ⟨n, a, fun h => by simp at h, fun _ => b, c⟩
  · have hr : RayPan u k I p normed r' := by
      cases k with
      | rectilinear => exact absurd rfl hk
      | cylindrical => exact hr
      | equirectangular => exact hr
    have eN : raySize k I p = panSize k I p := by
      cases k with
      | rectilinear => exact absurd rfl hk
      | cylindrical => rfl
      | equirectangular => rfl
    rw [eN] at hsm ⊢
    cases normed with
    | false =>
      obtain ⟨g1, g2⟩ := ray_near k hk I hu hu1 p hpole r' hr
      refine ⟨g2, 1, one_pos, fun _ => rfl, fun h => by simp at h, ?_⟩
      simp only [one_mul]
      have huN : 0 ≤ u * panSize k I p := mul_nonneg hu ((size_nonneg _).trans g2)
      linarith
    | true =>
      obtain ⟨A, α, s, z, B, β, y, h1', h2, h3, h4, h5, h6, h7, hn⟩ := hr
      rw [if_pos rfl] at hn
      obtain ⟨q, hq, rfl⟩ := hn
      obtain ⟨g1, g2⟩ := ray_near k hk I hu hu1 p hpole (-⟨-s, y, z⟩) ⟨A, α, s, z, B, β, y, h1', h2, h3, h4, h5, h6, h7, by simp⟩
      obtain ⟨n, a, b, c⟩ := normed_any hu hu1 g1 g2 h1 hsm (by rw [show -(-(⟨-s, y, z⟩ : V3 ℝ)) = ⟨-s, y, z⟩ by ext <;> simp]; exact hq)
      exact ⟨g2, n, a, fun h => by simp at h, fun _ => b, c⟩

/-- The direction of the ray of a pixel, up to a factor if it is normed. -/
theorem direction_any (k : Kind) (I : Intr) {u e : ℝ} (hu : 0 ≤ u) (hu1 : u ≤ 1 / 200000) (he1 : e ≤ 1 / 1000) (o : Orient) (Rinv : M3)
    (hR : Near e Rinv o.mat.Rinv) (p : V2 ℝ)
    (hpole : k = .equirectangular → 201 / 100 * u * |(p.y - I.cy) / I.fy| ≤ |Real.cos ((p.y - I.cy) / I.fy)| / 2 ∧ Real.cos ((p.y - I.cy) / I.fy) ≠ 0)
    (hsm : u * raySize k I p ≤ 1 / 100) (normed : Bool) (dir : V3 ℝ) (hd : DirectionAny u k I Rinv p normed dir) :
    size (rayR k I p) ≤ raySize k I p ∧ (∀ j, |(o.mat.Rinv.applyR (rayR k I p)).get j| ≤ size (rayR k I p)) ∧
      ∃ n, 0 < n ∧ (normed = false → n = 1) ∧ (normed = true → |n - (rayR k I p).norm| ≤ 14 * u * raySize k I p) ∧
        ∀ j, |n * dir.get j - (o.mat.Rinv.applyR (rayR k I p)).get j| ≤ (e + 10 * u + 6 * u) * raySize k I p := by
  obtain ⟨r', hr', k1, k2, k3⟩ : ∃ r', RayAny u k I p normed r' ∧
      Dot u r' Rinv.r0 dir.x ∧ Dot u r' Rinv.r1 dir.y ∧ Dot u r' Rinv.r2 dir.z := by
    cases k with
    | rectilinear => exact hd
    | cylindrical => exact hd
    | equirectangular => exact hd
  obtain ⟨hN, n, n0, n1, n2, hn⟩ := ray_any k I hu (by linarith) p hpole hsm normed r' hr'
  obtain ⟨m1, m2, m3, m4, m5, m6, m7, m8, m9⟩ := hR
  have he : 0 ≤ e := (abs_nonneg _).trans m1
  have hb := inv_le o
  simp only [Near, sub_zero] at hb
  obtain ⟨b1, b2, b3, b4, b5, b6, b7, b8, b9⟩ := hb
  refine ⟨hN, fun j => ?_, n, n0, n1, n2, fun j => ?_⟩
  · fin_cases j
    · exact dot_le_size _ b1 b2 b3
    · exact dot_le_size _ b4 b5 b6
    · exact dot_le_size _ b7 b8 b9
  · have hu2 : 0 ≤ 2 * u := by linarith
    have hu3 : 2 * u ≤ 1 / 100000 := by linarith
    have huu : u ≤ 2 * u := by linarith
    have hn' : |(r'.mulS n).x - (rayR k I p).x| + |(r'.mulS n).y - (rayR k I p).y| + |(r'.mulS n).z - (rayR k I p).z| ≤ 42 / 10 * (2 * u) * raySize k I p := by
      simp only [V3.mulS_x, V3.mulS_y, V3.mulS_z]
      rw [mul_comm r'.x, mul_comm r'.y, mul_comm r'.z]
      exact hn
    have ee : (e + 10 * u + 6 * u) = e + 8 * (2 * u) := by ring
    rw [ee]
    fin_cases j
    · exact row_abs hu2 hu3 he he1 hn' hN m1 m2 m3 b1 b2 b3 ((k1.scaled n).mono huu)
    · exact row_abs hu2 hu3 he he1 hn' hN m4 m5 m6 b4 b5 b6 ((k2.scaled n).mono huu)
    · exact row_abs hu2 hu3 he he1 hn' hN m7 m8 m9 b7 b8 b9 ((k3.scaled n).mono huu)

/-- A point that is computed from a direction close to the ray of a pixel has an image close to the pixel. -/
theorem close_any (k : Kind) (I : Intr) (hfx : I.fx ≠ 0) (hfy : I.fy ≠ 0) {u e : ℝ} (hu : 0 ≤ u) (hu1 : u ≤ 1 / 200000) (he1 : e ≤ 1 / 2000)
    (o : Orient) (R : M3) (hR : Near e R o.mat.R) (p : V2 ℝ) (hx : |(p.x - I.cx) / I.fx| < Real.pi ∨ k = .rectilinear)
    (hy : k = .equirectangular → |(p.y - I.cy) / I.fy| < Real.pi / 2) {N s f Z : ℝ} (r d : V3 ℝ) (hrr : r = rayR k I p)
    (hdd : d = o.mat.Rinv.applyR r) (hSN : size r ≤ N) (hrz : r.z ≤ -(1 / 10)) (hs : 0 < s) (hf : 3 / 5 * s ≤ f) (hs0 : 40 * minDepth ≤ s) {dir : V3 ℝ}
    (hdir : ∀ j, |dir.get j - d.get j| ≤ (e + 10 * u + 6 * u) * N) (hle : ∀ j, |d.get j| ≤ N)
    (hZ : 3 * ((e + 19 * u) * N + 5 / 3 * u * size o.pos / s) + 31 / 10 * ((e + 6 * u) * N) ≤ Z) (hZ1 : Z ≤ 1 / 80) (g : V3 Num)
    (hg : PointAt u o.pos dir f g) :
    ∃ P : V3 ℝ, g.Is P ∧ ∀ out, ImageAny u k I o.pos R P out →
    ∃ w : V2 ℝ, out.Is w ∧
      |w.x - p.x| ≤ (7 * Z + 25 * u) * (|I.fx| + |p.x - I.cx|) + u * |I.cx| ∧
      |w.y - p.y| ≤ (7 * Z + 25 * u) * (|I.fy| + |p.y - I.cy|) + u * |I.cy| := by
  have he : 0 ≤ e := (abs_nonneg _).trans hR.1
  have hmp : 0 < minDepth := by norm_num [minDepth]
  have hN0 : 0 ≤ N := (size_nonneg r).trans hSN
  unfold PointAt at hg
  rw [if_neg (by linarith)] at hg
  obtain ⟨m1, m2, m3, x, y, z, i1, i2, i3, i4, i5, i6, hq⟩ := hg
  refine ⟨⟨x, y, z⟩, hq, fun out ho => ?_⟩
  obtain ⟨Y, hY⟩ : ∃ Y, Y = (e + 19 * u) * N + 5 / 3 * u * size o.pos / s := ⟨_, rfl⟩
  have he2 : e + 10 * u ≤ 1 / 1000 := by linarith
  have he3 : 0 ≤ e + 10 * u := by positivity
  have hpt : ∀ j, |((⟨x, y, z⟩ : V3 ℝ) - o.pos).get j - f * d.get j| ≤ f * Y := by
    intro j
    rw [hY, show e + 19 * u = e + 10 * u + 9 * u by ring]
    fin_cases j
    · exact point_near hu (by linarith) he3 he2 hN0 hs (pos_le o.pos 0) hf (hdir 0) (hle 0) i1 i2
    · exact point_near hu (by linarith) he3 he2 hN0 hs (pos_le o.pos 1) hf (hdir 1) (hle 1) i3 i4
    · exact point_near hu (by linarith) he3 he2 hN0 hs (pos_le o.pos 2) hf (hdir 2) (hle 2) i5 i6
  rw [← hY] at hZ
  rw [hdd] at hpt
  have hts : 0 ≤ 5 / 3 * u * size o.pos / s := div_nonneg (mul_nonneg (by positivity) (size_nonneg _)) hs.le
  have huN : 0 ≤ u * N := by positivity
  have heN : 0 ≤ e * N := by positivity
  have hY0 : 0 ≤ Y := by rw [hY]; nlinarith
  have hf0 : 0 < f := by linarith
  by_cases hk : k = .rectilinear
  · subst hk
    change ImageFromSpace u I o.pos R ⟨x, y, z⟩ true out at ho
    rw [hrr] at hpt hSN
    have hes := mul_le_mul_of_nonneg_left hSN (by positivity : 0 ≤ e + 6 * u)
    obtain ⟨w, w1, w2, w3⟩ := back I hfx hfy hu (by linarith) (by linarith) o R hR p true (f := f) (Z := Y) (by linarith) (by linarith)
      (by linarith) _ hpt out ho
    have hsz := mul_le_mul_of_nonneg_left hSN (by positivity : 0 ≤ 8 * e + 67 * u)
    have fin : ∀ G : ℝ, 0 ≤ G → ((8 * e + 67 * u) * size (rayR .rectilinear I p) + 10 / 3 * Y) * G ≤ (7 * Z + 25 * u) * G := by
      intro G hG
      refine mul_le_mul_of_nonneg_right ?_ hG
      linarith
    have f1 := fin (|I.fx| + |p.x - I.cx|) (by positivity)
    have f2 := fin (|I.fy| + |p.y - I.cy|) (by positivity)
    exact ⟨w, w1, by linarith, by linarith⟩
  · have ho : ImageFromSpacePan u k I o.pos R ⟨x, y, z⟩ out := by
      cases k with
      | rectilinear => exact absurd rfl hk
      | cylindrical => exact ho
      | equirectangular => exact ho
    have hz : 1 / 10 ≤ |r.z| := by rw [abs_of_neg (by linarith)]; linarith
    have hdep := mul_le_mul_of_nonneg_left hz hf0.le
    exact back_pan k hk I hfx hfy hu (by linarith) (by linarith) o R hR p (hx.resolve_right hk) hy hf0 r hrr hSN hZ (by linarith) (by linarith)
      (by linarith) (by linarith) _ hpt out ho

end Rounded

namespace Rounded

open Projection Camera Drawn

/-- What is known about a drawn camera and pixel, with the computed focal lengths. -/
structure Facts (k : Kind) (I : Intr) (t : V3 ℝ) (p : V2 ℝ) : Prop where
  fx : I.fx ≠ 0
  fy : I.fy ≠ 0
  fxle : |I.fx| ≤ 58000
  fyle : |I.fy| ≤ 58000
  px : |p.x - I.cx| ≤ 1000
  py : |p.y - I.cy| ≤ 1000
  cx : |I.cx| ≤ 1000
  cy : |I.cy| ≤ 1000
  x : |(p.x - I.cx) / I.fx| < Real.pi ∨ k = .rectilinear
  y : k = .equirectangular → |(p.y - I.cy) / I.fy| < Real.pi / 2
  pole : k = .equirectangular → 1 / 10 ≤ Real.cos ((p.y - I.cy) / I.fy)
  ylow : k = .equirectangular → |(p.y - I.cy) / I.fy| ≤ 2
  z : (rayR k I p).z ≤ -(1 / 10)
  size : size (rayR k I p) ≤ 13
  ray : raySize k I p ≤ 200
  pos : Rounded.size t ≤ 1200

theorem focal_le {d : Draw} (h : d.Ok) : focal d.kind d.width d.view ≤ 57400 := by
  have hw1 : (d.width : ℝ) ≤ 1000 := by exact_mod_cast h.width.2
  have hw : (0 : ℝ) < d.width := by exact_mod_cast (by have := h.width.1; omega : 0 < d.width)
  have hpi := Real.pi_gt_d2
  have hv := h.view.1
  have hlow : 314 / 18000 ≤ d.view * (Real.pi / 180) := by nlinarith
  have hx : (d.width : ℝ) / (d.view * (Real.pi / 180)) ≤ 57400 := by
    rw [div_le_iff₀ (by linarith)]
    linarith
  unfold focal
  cases d.kind <;> simp only
  · refine le_trans ?_ hx
    have ht := (view_tan h.view.1 h.view.2).1
    have hlt : d.view * (Real.pi / 180) / 2 ≤ Real.tan (d.view * (Real.pi / 180) / 2) := by
      refine (Real.lt_tan (by linarith) ?_).le
      nlinarith [h.view.2, Real.pi_pos]
    refine div_le_div_of_nonneg_left hw.le (by linarith) (by linarith)
  · exact hx
  · exact hx

theorem facts (c : Cam) (h : IsCamera c) (I : Intr) (hI : Computed c.intr I) (p : V2 ℝ) (hp : IsPixel c p) : Facts c.kind I c.orient.pos p := by
  obtain ⟨⟨d, hd, hk, hm⟩, ⟨o, ho, hoo⟩, -⟩ := h
  rw [makes_iff hd] at hm
  obtain ⟨e1, e2, -, -, e5, e6⟩ := hI
  have hf := focal_pos hd
  have hfl := focal_le hd
  obtain ⟨hx, hy⟩ := Drawn.pixel_near hd hm hp
  have hw1 : (d.width : ℝ) ≤ 1000 := by exact_mod_cast hd.width.2
  have hw : (0 : ℝ) < d.width := by exact_mod_cast (by have := hd.width.1; omega : 0 < d.width)
  have hh := (height_facts hd).2
  have hh0 : (0 : ℝ) ≤ d.height := Nat.cast_nonneg _
  have hpi := Real.pi_pos
  have hpi3 := Real.pi_gt_three
  have hpi4 := Real.pi_lt_d2
  obtain ⟨t1, t2⟩ := view_tan hd.view.1 hd.view.2
  obtain ⟨F, hF⟩ : ∃ F, F = focal d.kind d.width d.view := ⟨_, rfl⟩
  rw [← hF] at hf hfl
  have efx : c.intr.fx = F := by rw [hm, hF]; rfl
  have efy : c.intr.fy = F := by rw [hm, hF]; rfl
  have ecx : c.intr.cx = d.width / 2 := by rw [hm]; rfl
  have ecy : c.intr.cy = d.height / 2 := by rw [hm]; rfl
  have box : ∀ {f : ℝ}, Rd (1 / 100) F f → 99 / 100 * F ≤ f ∧ f ≤ 101 / 100 * F := by
    intro f h
    unfold Rd at h
    rw [abs_of_pos hf, abs_le] at h
    constructor <;> linarith
  rw [efx] at e5
  rw [efy] at e6
  obtain ⟨x1, x2⟩ := box e5
  obtain ⟨y1, y2⟩ := box e6
  rw [e1.symm] at hx
  rw [e2.symm] at hy
  have hfx : 0 < I.fx := by linarith
  have hfy : 0 < I.fy := by linarith
  obtain ⟨a, ha⟩ : ∃ a, a = (p.x - I.cx) / I.fx := ⟨_, rfl⟩
  obtain ⟨b, hb⟩ : ∃ b, b = (p.y - I.cy) / I.fy := ⟨_, rfl⟩
  have quo : ∀ {n f : ℝ}, |n| ≤ d.width → 99 / 100 * F ≤ f → |n / f| ≤ 81 / 80 * (d.width / F) := by
    intro n f h1 h2
    have hf' : 0 < f := by linarith
    rw [abs_div, abs_of_pos hf', div_le_iff₀ hf']
    refine h1.trans ?_
    have h3 := mul_le_mul_of_nonneg_left h2 (by positivity : 0 ≤ 81 / 80 * (d.width / F))
    refine le_trans ?_ h3
    rw [show 81 / 80 * ((d.width : ℝ) / F) * (99 / 100 * F) = 8019 / 8000 * d.width by field_simp; norm_num]
    linarith
  have qa : |a| ≤ 81 / 80 * (d.width / F) := by rw [ha]; exact quo hx x1
  have qb : |b| ≤ 81 / 80 * (d.width / F) := by rw [hb]; exact quo hy y1
  have lin : d.kind ≠ .rectilinear → 81 / 80 * (d.width / F) ≤ 9 / 20 * Real.pi := by
    intro hne
    have : F = d.width / (d.view * (Real.pi / 180)) := by
      rw [hF]; unfold focal; cases hkk : d.kind <;> simp_all
    rw [this, div_div_cancel₀ hw.ne']
    nlinarith [hd.view.2]
  have rct : d.kind = .rectilinear → 81 / 80 * (d.width / F) ≤ 81 / 40 := by
    intro hr
    have : F = d.width / (2 * Real.tan (d.view * (Real.pi / 180) / 2)) := by
      rw [hF]; unfold focal; rw [hr]
    rw [this, div_div_cancel₀ hw.ne']
    linarith
  have cosb : ∀ x : ℝ, |x| ≤ 9 / 20 * Real.pi → 1 / 10 ≤ Real.cos x := by
    intro x hx
    rw [← Real.cos_abs]
    have := Real.one_sub_mul_le_cos (abs_nonneg x) (by linarith : |x| ≤ Real.pi / 2)
    refine le_trans ?_ this
    have : 2 / Real.pi * |x| ≤ 2 / Real.pi * (9 / 20 * Real.pi) := mul_le_mul_of_nonneg_left hx (by positivity)
    have e : 2 / Real.pi * (9 / 20 * Real.pi) = 9 / 10 := by field_simp; norm_num
    linarith
  have tanb : ∀ x : ℝ, |x| ≤ 9 / 20 * Real.pi → |Real.tan x| ≤ 10 := by
    intro x hx
    have h1 := cosb x hx
    rw [Real.tan_eq_sin_div_cos, abs_div, abs_of_pos (by linarith : 0 < Real.cos x), div_le_iff₀ (by linarith)]
    linarith [Real.abs_sin_le_one x]
  have hpos : Rounded.size c.orient.pos ≤ 1200 := by
    rw [hoo]
    show |o.pos_x_m| + |o.pos_y_m| + |o.elevation_m| ≤ 1200
    have h1 := abs_le.2 ho.x
    have h2 := abs_le.2 ho.y
    have h3 : |o.elevation_m| ≤ 1000 := abs_le.2 ⟨by linarith [ho.elevation.1], ho.elevation.2⟩
    linarith
  have sa := Real.abs_sin_le_one a
  have ca := Real.abs_cos_le_one a
  have common : |I.fx| ≤ 58000 ∧ |I.fy| ≤ 58000 ∧ |I.cx| ≤ 1000 ∧ |I.cy| ≤ 1000 := by
    rw [abs_of_pos hfx, abs_of_pos hfy, e1, e2, ecx, ecy, abs_of_nonneg (by positivity), abs_of_nonneg (by positivity)]
    refine ⟨?_, ?_, ?_, ?_⟩ <;> linarith
  obtain ⟨o1, o2, o3, o4⟩ := common
  cases hkc : c.kind with
  | rectilinear =>
    have hl := rct (by rw [hk, hkc])
    have hsz : Rounded.size (rayR .rectilinear I p) ≤ 13 := by
      show |(p.x - I.cx) / I.fx| + |-((p.y - I.cy) / I.fy)| + |(-1 : ℝ)| ≤ 13
      rw [← ha, ← hb, abs_neg, abs_neg, _root_.abs_one]
      linarith
    exact ⟨hfx.ne', hfy.ne', o1, o2, hx.trans hw1, hy.trans hw1, o3, o4, .inr rfl, fun h => by simp at h, fun h => by simp at h, fun h => by simp at h,
      by show (-1 : ℝ) ≤ _; norm_num, hsz, hsz.trans (by norm_num), hpos⟩
  | cylindrical =>
    have hl := lin (by rw [hk, hkc]; simp)
    have h1 := cosb a (qa.trans hl)
    have hsz : Rounded.size (rayR .cylindrical I p) ≤ 13 := by
      show |Real.sin ((p.x - I.cx) / I.fx)| + |-((p.y - I.cy) / I.fy)| + |-Real.cos ((p.x - I.cx) / I.fx)| ≤ 13
      rw [← ha, ← hb, abs_neg, abs_neg]
      linarith
    refine ⟨hfx.ne', hfy.ne', o1, o2, hx.trans hw1, hy.trans hw1, o3, o4, .inl ?_, fun h => by simp at h, fun h => by simp at h, fun h => by simp at h,
      ?_, hsz, ?_, hpos⟩
    · rw [← ha]; linarith
    · show -Real.cos ((p.x - I.cx) / I.fx) ≤ _
      rw [← ha]; linarith
    · show 2 + |(p.x - I.cx) / I.fx| + |(p.y - I.cy) / I.fy| ≤ 200
      rw [← ha, ← hb]; linarith
  | equirectangular =>
    have hl := lin (by rw [hk, hkc]; simp)
    have h1 := cosb a (qa.trans hl)
    have h2 := cosb b (qb.trans hl)
    have h3 := tanb b (qb.trans hl)
    have hsz : Rounded.size (rayR .equirectangular I p) ≤ 13 := by
      show |Real.sin ((p.x - I.cx) / I.fx)| + |-Real.tan ((p.y - I.cy) / I.fy)| + |-Real.cos ((p.x - I.cx) / I.fx)| ≤ 13
      rw [← ha, ← hb, abs_neg, abs_neg]
      linarith
    refine ⟨hfx.ne', hfy.ne', o1, o2, hx.trans hw1, hy.trans hw1, o3, o4, .inl ?_, fun _ => ?_, fun _ => ?_, fun _ => ?_,
      ?_, hsz, ?_, hpos⟩
    · rw [← ha]; linarith
    · rw [← hb]; linarith
    · rw [← hb]; exact h2
    · rw [← hb]; linarith
    · show -Real.cos ((p.x - I.cx) / I.fx) ≤ _
      rw [← ha]; linarith
    · show 2 + |(p.x - I.cx) / I.fx| + (|Real.tan ((p.y - I.cy) / I.fy)| + |(p.y - I.cy) / I.fy| * (1 + Real.tan ((p.y - I.cy) / I.fy) ^ 2)) ≤ 200
      rw [← ha, ← hb]
      have h4 : 1 + Real.tan b ^ 2 ≤ 101 := by
        rw [← sq_abs]
        nlinarith [abs_nonneg (Real.tan b)]
      have h5 : |b| ≤ 3 / 2 := by linarith
      have h6 := mul_le_mul h5 h4 (by positivity) (by norm_num)
      linarith

end Rounded

namespace Rounded

open Projection Camera Drawn

theorem Near.mono {e e' : ℝ} {A B : M3} (h : e ≤ e') (hn : Near e A B) : Near e' A B := by
  obtain ⟨a1, a2, a3, a4, a5, a6, a7, a8, a9⟩ := hn
  exact ⟨a1.trans h, a2.trans h, a3.trans h, a4.trans h, a5.trans h, a6.trans h, a7.trans h, a8.trans h, a9.trans h⟩

theorem drawn_turn {c : Cam} (h : IsCamera c) : Turn c.orient := by
  obtain ⟨-, ⟨o, ho, hoo⟩, -⟩ := h
  rw [hoo]
  refine ⟨?_, ?_, ?_⟩
  · exact abs_le.2 ⟨by linarith [ho.tilt.1], by linarith [ho.tilt.2]⟩
  · exact abs_le.2 ⟨by linarith [ho.roll.1], by linarith [ho.roll.2]⟩
  · exact abs_le.2 ⟨by linarith [ho.heading.1], by linarith [ho.heading.2]⟩

theorem not_nan {g : V3 Num} {P : V3 ℝ} (h : g.Is P) (j : Fin 3) : g.get j ≠ .nan := by
  intro hn
  have := h.get j
  rw [hn] at this
  simp [Num.Is] at this

/-- The pixel of a point that was computed from the ray of a drawn pixel. -/
theorem drawn_close {k : Kind} {I : Intr} {o : Orient} {p : V2 ℝ} (F : Facts k I o.pos p) {u : ℝ} (hu0 : 0 ≤ u) (hu : u ≤ 1 / 10 ^ 15) {R Rinv : M3}
    (hR : Near (1 / 10 ^ 10) R o.mat.R) (hRi : Near (1 / 10 ^ 10) Rinv o.mat.Rinv) (normed : Bool) (dir : V3 ℝ)
    (hd : DirectionAny u k I Rinv p normed dir) :
    ∃ n, 0 < n ∧ (normed = false → n = 1) ∧ (normed = true → |n - (rayR k I p).norm| ≤ 1 / 10 ^ 10) ∧
      (∀ j, |n * dir.get j - (o.mat.Rinv.applyR (rayR k I p)).get j| ≤ 1 / 10 ^ 7) ∧ (∀ j, |n * dir.get j| ≤ 14) ∧
      ∀ f, 6 / 10 ^ 5 ≤ f → ∀ g, PointAt u o.pos (dir.mulS n) f g → ∃ P : V3 ℝ, g.Is P ∧ ∀ out, ImageAny u k I o.pos R P out →
        ∃ w : V2 ℝ, out.Is w ∧ |w.x - p.x| < 1 / 10 ∧ |w.y - p.y| < 1 / 10 := by
  have hN := F.ray
  have hpole : k = .equirectangular → 201 / 100 * u * |(p.y - I.cy) / I.fy| ≤ |Real.cos ((p.y - I.cy) / I.fy)| / 2 ∧ Real.cos ((p.y - I.cy) / I.fy) ≠ 0 := by
    intro hk
    have h1 := F.pole hk
    have h2 := F.ylow hk
    refine ⟨?_, by linarith⟩
    rw [abs_of_pos (show 0 < Real.cos ((p.y - I.cy) / I.fy) by linarith)]
    have := mul_le_mul hu h2 (abs_nonneg _) (by norm_num)
    norm_num at this
    linarith
  have hS0 : 0 ≤ raySize k I p := by
    unfold raySize
    cases k <;> simp only
    · exact size_nonneg _
    · unfold panSize; positivity
    · unfold panSize; positivity
  obtain ⟨hSN, hle, n, n0, n1, n2, hn⟩ := direction_any k I hu0 (by linarith [show (1 : ℝ) / 10 ^ 15 ≤ 1 / 200000 by norm_num]) (by norm_num) o Rinv hRi p hpole
    (by have := mul_le_mul hu hN hS0 (by norm_num); norm_num at this; linarith) normed dir hd
  have hn' : ∀ j, |n * dir.get j - (o.mat.Rinv.applyR (rayR k I p)).get j| ≤ (1 / 10 ^ 10 + 10 * u + 6 * u) * 200 := fun j =>
    (hn j).trans (mul_le_mul_of_nonneg_left hN (by positivity))
  have hsm : (1 / 10 ^ 10 + 10 * u + 6 * u) * 200 ≤ 1 / 10 ^ 7 := by
    norm_num at hu ⊢
    linarith
  refine ⟨n, n0, n1, fun hh => (n2 hh).trans ?_, fun j => (hn' j).trans hsm, fun j => ?_, fun f hf g hg => ?_⟩
  · have := mul_le_mul hu hN hS0 (by norm_num)
    norm_num at this ⊢
    linarith
  · have h1 := (hn' j).trans hsm
    have h2 := (hle j).trans F.size
    have h3 := abs_add_le (n * dir.get j - (o.mat.Rinv.applyR (rayR k I p)).get j) ((o.mat.Rinv.applyR (rayR k I p)).get j)
    rw [sub_add_cancel] at h3
    norm_num at h1
    linarith
  · have hT := F.pos
    have hT0 : 0 ≤ size o.pos := size_nonneg _
    have huT : u * size o.pos ≤ 1200 / 10 ^ 15 := by
      have := mul_le_mul hu hT hT0 (by norm_num)
      linarith
    have hget : ∀ j, (dir.mulS n).get j = n * dir.get j := by
      intro j
      fin_cases j
      · exact mul_comm _ _
      · exact mul_comm _ _
      · exact mul_comm _ _
    obtain ⟨P, hP, hw⟩ := close_any k I F.fx F.fy (u := u) (e := 1 / 10 ^ 10) hu0 (by norm_num at hu ⊢; linarith) (by norm_num) o R hR p F.x F.y (N := 200) (s := 1 / 10 ^ 4) (f := f)
      (Z := 19 / 10 ^ 8) _ _ rfl rfl (F.size.trans (by norm_num)) F.z (by norm_num) (by norm_num at hf ⊢; linarith) (by norm_num [minDepth])
      (dir := dir.mulS n) (fun j => by rw [hget]; exact hn' j) (fun j => (hle j).trans (F.size.trans (by norm_num)))
      (by
        rw [show (5 : ℝ) / 3 * u * size o.pos / (1 / 10 ^ 4) = 5 / 3 * 10 ^ 4 * (u * size o.pos) by ring]
        norm_num at huT hu ⊢
        linarith) (by norm_num) g hg
    refine ⟨P, hP, fun out ho => ?_⟩
    obtain ⟨w, h0, h1, h2⟩ := hw out ho
    have fin : ∀ {x f q c : ℝ}, |x| ≤ (7 * (19 / 10 ^ 8) + 25 * u) * (|f| + |q|) + u * |c| → |f| ≤ 58000 → |q| ≤ 1000 → |c| ≤ 1000 → |x| < 1 / 10 := by
      intro x f q c h a1 a2 a3
      have b1 := mul_le_mul_of_nonneg_left (add_le_add a1 a2) (by positivity : 0 ≤ 7 * (19 / 10 ^ 8) + 25 * u)
      have b2 := mul_le_mul_of_nonneg_left a3 hu0
      norm_num at hu b1 h ⊢
      linarith
    exact ⟨w, h0, fin h1 F.fxle F.px F.cx, fin h2 F.fyle F.py F.cy⟩

/-- A computed factor that is not negative is not small. -/
theorem factor_low {u w z a f : ℝ} (hu0 : 0 ≤ u) (hu : u ≤ 1 / 10 ^ 15) (hw : 1 / 1000 < |w|) (hz0 : z ≠ 0) (hz : |z| ≤ 14) (ha : Rd u w a)
    (hf : Rd u (a / z) f) (h : ¬ f < 0) : 6 / 10 ^ 5 ≤ f := by
  obtain ⟨ea, hea, rfl⟩ := ha.form hu0
  obtain ⟨ef, hef, rfl⟩ := hf.form hu0
  have hz1 : 0 < |z| := abs_pos.2 hz0
  have h1 : 99 / 100 ≤ ea := by have := (abs_le.1 hea).1; norm_num at hu; linarith
  have h2 : 99 / 100 ≤ ef := by have := (abs_le.1 hef).1; norm_num at hu; linarith
  rw [← abs_of_nonneg (not_lt.1 h), abs_mul, abs_div, abs_mul, abs_of_pos (by linarith : 0 < ea), abs_of_pos (by linarith : 0 < ef)]
  have h3 : 99 / 100000 ≤ |w| * ea := by
    have := mul_le_mul hw.le h1 (by norm_num) (abs_nonneg w)
    linarith
  have h4 : 99 / 100000 / 14 ≤ |w| * ea / |z| := div_le_div₀ (by linarith) h3 hz1 hz
  have := mul_le_mul h4 h2 (by norm_num) (by linarith [show (0 : ℝ) ≤ 99 / 100000 / 14 by norm_num])
  refine le_trans ?_ this
  norm_num

end Rounded

open Projection Rounded Camera Drawn in
/-- **C185** tests/test_transforms.py:286-298 `test_transWorldToCam` with rounding errors: for all cameras, pixels and heights it can draw, the pixel of the
point on the plane is nan or, in both coordinates, less than a tenth of a pixel from the given one; the test allows 0.15. -/
theorem C185_world (c : Cam) (h : IsCamera c) (I : Intr) (hI : Computed c.intr I) (u : ℝ) (hu0 : 0 ≤ u) (hu : u ≤ 1 / 10 ^ 15) (R Rinv : M3)
    (hR : Rotation u c.orient R) (hRi : Near (1 / 10 ^ 10) Rinv c.orient.mat.Rinv) (p : V2 ℝ) (hp : IsPixel c p) (Z : ℝ)
    (ha : 1 / 1000 < |Z - c.orient.pos.z|) (g : V3 Num) (hg : SpaceFromImageAny u c.kind I c.orient.pos Rinv p 2 Z g) (out : V2 Num)
    (ho : ImageNum u c.kind I c.orient.pos R g out) :
    out = V2.nan ∨ ∃ w : V2 ℝ, out.Is w ∧ |w.x - p.x| < 1 / 10 ∧ |w.y - p.y| < 1 / 10 := by
  have F := facts c h I hI p hp
  have hRn : Near (1 / 10 ^ 10) R c.orient.mat.R :=
    (C151_matrix c.orient (drawn_turn h) u hu0 (by norm_num at hu ⊢; linarith) R hR).mono (by norm_num at hu ⊢; linarith)
  obtain ⟨dir, a, hdir, hra, hcase⟩ := hg
  obtain ⟨n, -, n1, -, -, n4, n5⟩ := drawn_close F hu0 hu hRn hRi false dir hdir
  rw [n1 rfl] at n4 n5
  have hone : dir.mulS 1 = dir := by ext <;> simp
  rw [hone] at n5
  rcases ho with ⟨P, hP, hout⟩ | ⟨-, hnan⟩
  · right
    rcases hcase with ⟨-, hgn⟩ | ⟨hz0, f, hf, hpt⟩
    · exact absurd hgn (not_nan hP 2)
    · by_cases hneg : f < 0
      · unfold PointAt at hpt
        rw [if_pos hneg] at hpt
        rw [hpt] at hP
        exact absurd rfl (not_nan hP 2)
      · have hz : |dir.get 2| ≤ 14 := by have := n4 2; rwa [one_mul] at this
        have hfl := factor_low hu0 hu (w := Z - c.orient.pos.z) ha hz0 hz hra hf hneg
        obtain ⟨P', hP', hw⟩ := n5 f hfl g hpt
        rw [hP.unique hP'] at hout
        exact hw out hout
  · exact .inl hnan

open Projection Rounded Camera Drawn in
/-- **C185** tests/test_transforms.py:314-326 `test_rays` with rounding errors: the computed length of a normed ray differs from 1 by less than a millionth (the
test allows 0.015), and the points on it have a pixel less than a tenth from the given one. -/
theorem C185_rays (c : Cam) (h : IsCamera c) (I : Intr) (hI : Computed c.intr I) (u : ℝ) (hu0 : 0 ≤ u) (hu : u ≤ 1 / 10 ^ 15) (R Rinv : M3)
    (hR : Rotation u c.orient R) (hRi : Near (1 / 10 ^ 10) Rinv c.orient.mat.Rinv) (p : V2 ℝ) (hp : IsPixel c p) (dir : V3 ℝ)
    (hdir : DirectionAny u c.kind I Rinv p true dir) :
    (∀ s n, Dot u dir dir s → Rd u (Real.sqrt s) n → |n - 1| < 1 / 10 ^ 6) ∧
    ∀ D, 1 ≤ D → ∀ g, PointAt u c.orient.pos dir D g → ∀ out, ImageNum u c.kind I c.orient.pos R g out →
      ∃ w : V2 ℝ, out.Is w ∧ |w.x - p.x| < 1 / 10 ∧ |w.y - p.y| < 1 / 10 := by
  have F := facts c h I hI p hp
  have hRn : Near (1 / 10 ^ 10) R c.orient.mat.R :=
    (C151_matrix c.orient (drawn_turn h) u hu0 (by norm_num at hu ⊢; linarith) R hR).mono (by norm_num at hu ⊢; linarith)
  obtain ⟨n, n0, -, n2, n3, -, n5⟩ := drawn_close F hu0 hu hRn hRi true dir hdir
  have n2 := n2 rfl
  obtain ⟨L, hL⟩ : ∃ L, L = (rayR c.kind I p).norm := ⟨_, rfl⟩
  have hL1 : 1 ≤ L := by rw [hL]; exact one_le_ray _ _ _
  have hL2 : L ≤ 13 := by rw [hL]; exact (ray_norm_le _).trans F.size
  rw [← hL] at n2
  obtain ⟨n2a, n2b⟩ := abs_le.1 n2
  norm_num at n2a n2b
  have hdn : (c.orient.mat.Rinv.applyR (rayR c.kind I p)).norm = L := by
    rw [hL]
    unfold V3.norm
    rw [show c.orient.mat.Rinv = c.orient.mat.R.T from (rigid_mat c.orient).inv, M3.normSq_applyR (A := c.orient.mat.R.T) (rigid_mat c.orient).RT]
  have hsn : (dir.mulS n).norm = n * dir.norm := by
    unfold V3.norm
    rw [show (dir.mulS n).normSq = n ^ 2 * dir.normSq by simp [V3.normSq]; ring, Real.sqrt_mul (sq_nonneg n), Real.sqrt_sq n0.le]
  have hcl := norm_sub_le (dir.mulS n) (c.orient.mat.Rinv.applyR (rayR c.kind I p))
  rw [hdn, hsn, V3.mulS_x, V3.mulS_y, V3.mulS_z, mul_comm dir.x, mul_comm dir.y, mul_comm dir.z] at hcl
  have c0 := n3 0
  have c1 := n3 1
  have c2 := n3 2
  simp only [V3.get] at c0 c1 c2
  have hlen : |dir.norm - 1| ≤ 5 / 10 ^ 7 := by
    have h1 : |n * dir.norm - L| ≤ 3 / 10 ^ 7 := hcl.trans (by linarith)
    obtain ⟨h1a, h1b⟩ := abs_le.1 h1
    have h2 : |n * (dir.norm - 1)| ≤ 4 / 10 ^ 7 := by
      rw [abs_le]
      norm_num at h1a h1b ⊢
      constructor <;> linarith
    rw [abs_mul, abs_of_pos n0] at h2
    have h3 : 9 / 10 * |dir.norm - 1| ≤ n * |dir.norm - 1| := mul_le_mul_of_nonneg_right (by linarith) (abs_nonneg _)
    norm_num at h2 ⊢
    linarith
  refine ⟨fun s m hs hm => ?_, fun D hD g hg out ho => ?_⟩
  · obtain ⟨l1, l2⟩ := abs_le.1 hlen
    norm_num at l1 l2
    have f0 : |(1 : ℝ) - 1| ≤ (1 + u) ^ 2 - 1 := by rw [sub_self, abs_zero]; nlinarith
    obtain ⟨k, hk, rfl⟩ := norm_near (v := dir) (w := dir) hu0 (by norm_num at hu ⊢; linarith) f0 f0 f0 (by ring) (by ring) (by ring) (by linarith) hs hm
    have e : dir.norm * k - 1 = dir.norm * (k - 1) + (dir.norm - 1) := by ring
    rw [e]
    refine (abs_add_le _ _).trans_lt ?_
    rw [abs_mul, abs_of_pos (show 0 < dir.norm by linarith)]
    have h4 : dir.norm * |k - 1| ≤ 2 * (82 / 10 * u) := mul_le_mul (by linarith) hk (abs_nonneg _) (by norm_num)
    norm_num at hlen hu ⊢
    linarith
  · have hpt : PointAt u c.orient.pos (dir.mulS n) (D / n) g := by
      unfold PointAt at hg ⊢
      rw [if_neg (by linarith)] at hg
      rw [if_neg (not_lt.2 (by positivity))]
      simp only [V3.mulS_x, V3.mulS_y, V3.mulS_z]
      rw [show dir.x * n * (D / n) = dir.x * D by field_simp, show dir.y * n * (D / n) = dir.y * D by field_simp,
        show dir.z * n * (D / n) = dir.z * D by field_simp]
      exact hg
    obtain ⟨P', hP', hw⟩ := n5 (D / n) (by rw [le_div_iff₀ n0]; norm_num; linarith) g hpt
    rcases ho with ⟨P, hP, hout⟩ | ⟨⟨j, hj⟩, -⟩
    · rw [hP.unique hP'] at hout
      exact hw out hout
    · exact absurd hj (not_nan hP' j)

open Projection Rounded Camera Drawn in
/-- **C185** tests/test_helpers.py:81-90 `test_cameraCone` with rounding errors, for all projections: the pixel of a point of the cone, at a distance of at least
1, is closer to the corner it was made from than to every other whole number of pixels. -/
theorem C185_cone (c : Cam) (h : IsCamera c) (I : Intr) (hI : Computed c.intr I) (u : ℝ) (hu0 : 0 ≤ u) (hu : u ≤ 1 / 10 ^ 15) (R Rinv : M3)
    (hR : Rotation u c.orient R) (hRi : Near (1 / 10 ^ 10) Rinv c.orient.mat.Rinv) (m n : ℕ) (hp : IsPixel c ⟨m, n⟩) (dir : V3 ℝ)
    (hdir : DirectionAny u c.kind I Rinv ⟨m, n⟩ true dir) (D : ℝ) (hD : 1 ≤ D) (g : V3 Num) (hg : PointAt u c.orient.pos dir D g) (out : V2 Num)
    (ho : ImageNum u c.kind I c.orient.pos R g out) : ∃ w : V2 ℝ, out.Is w ∧ round w.x = (m : ℤ) ∧ round w.y = (n : ℤ) := by
  obtain ⟨w, hw, h1, h2⟩ := (C185_rays c h I hI u hu0 hu R Rinv hR hRi _ hp dir hdir).2 D hD g hg out ho
  have key : ∀ {x : ℝ} {k : ℕ}, |x - k| < 1 / 10 → round x = (k : ℤ) := by
    intro x k hx
    obtain ⟨a, b⟩ := abs_lt.1 hx
    rw [round_eq, Int.floor_eq_iff]
    push_cast
    constructor <;> linarith
  exact ⟨w, hw, key h1, key h2⟩

open Projection Rounded Camera in
/-- **C185** tests/test_helpers.py:101-106 `test_cameraOrigin` with rounding errors: the position of a rectilinear camera has no pixel, whatever the rotation
matrix is. -/
theorem C185_origin (I : Intr) (u : ℝ) (hu0 : 0 ≤ u) (t : V3 ℝ) (R : M3) (out : V2 Num) (ho : ImageAny u .rectilinear I t R t out) : out = V2.nan := by
  obtain ⟨q, ⟨d, d1, d2, d3, -, -, k⟩, hi⟩ := ho
  have z : ∀ {x y : ℝ}, Rd u (x - x) y → y = 0 := by
    intro x y h
    simpa [Rd] using h
  obtain ⟨a, b, e, -, -, -, hq⟩ := k.form hu0
  rw [z d1, z d2, z d3] at hq
  simp only [zero_mul, add_zero] at hq
  unfold ImageRect at hi
  rwa [if_pos (by rw [hq]; norm_num)] at hi

open Projection Rounded Camera Drawn in
/-- **C185** tests/test_transforms.py:300-312 `test_pointBehindCamera` with rounding errors: a point above the camera has no pixel, a point that is `2 minDepth`
or more below it has one.  Missing: the other points, for which C179 shows that the test can fail. -/
theorem C185_behind_partial (c : Cam) (P : V3 ℝ) (h : IsDown c P) (hk : c.kind = .rectilinear) (I : Intr) (u : ℝ) (hu0 : 0 ≤ u)
    (hu : u ≤ 1 / 10 ^ 15) (R : M3) (hR : Rotation u c.orient R) (hP : ¬ (30 - 2 * minDepth < P.z ∧ P.z ≤ 30)) (out : V2 Num)
    (ho : ImageAny u c.kind I c.orient.pos R P out) : (out = V2.nan ↔ P.z > c.orient.pos.z) ∧ (out = V2.nan ∨ ∃ p, out.Is p) := by
  rw [hk] at ho
  rw [h.2.1] at hR ho ⊢
  obtain ⟨tilt, roll, heading, ht, hr, hh, hrot⟩ := hR
  have zero : ∀ {y : ℝ}, Deg2rad u 0 y → y = 0 := by
    rintro y ⟨k, c, -, -, h⟩
    simpa [Rd] using h
  rw [zero ht, zero hr, zero hh] at hrot
  obtain ⟨cr, sr, ct, st, ch, sh, -, -, h3, h4, -, -, M, hM, hM2⟩ := hrot
  have est : st = 0 := by simpa [Rd] using h4
  obtain ⟨-, -, -, -, -, -, m1, m2, m3⟩ := hM
  obtain ⟨-, -, -, -, -, -, r1, r2, r3⟩ := hM2
  have cube : (1 + u) ^ 3 - 1 ≤ 1 / 100 := by
    have h1 : (1 + u) ^ 3 ≤ (1 + 1 / 1000) ^ 3 := pow_le_pow_left₀ (by linarith) (by norm_num at hu ⊢; linarith) 3
    norm_num at h1 ⊢
    linarith
  obtain ⟨a1, b1, e1, -, -, -, q1⟩ := m1.form hu0
  obtain ⟨a2, b2, e2, -, -, -, q2⟩ := m2.form hu0
  obtain ⟨a3, b3, e3, -, -, k3, q3⟩ := m3.form hu0
  obtain ⟨a4, b4, e4, -, -, -, q4⟩ := r1.form hu0
  obtain ⟨a5, b5, e5, -, -, -, q5⟩ := r2.form hu0
  obtain ⟨a6, b6, e6, -, -, k6, q6⟩ := r3.form hu0
  simp only [M3.T, est, zero_mul, mul_zero, add_zero, zero_add, one_mul, mul_one, neg_zero] at q1 q2 q3
  simp only [M3.T, q1, q2, q3, zero_mul, mul_zero, add_zero, zero_add, mul_one] at q4 q5 q6
  obtain ⟨q, ⟨d, -, -, d3, -, -, k⟩, hi⟩ := ho
  obtain ⟨a7, b7, e7, -, -, k7, q7⟩ := k.form hu0
  rw [q4, q5, q6] at q7
  obtain ⟨ed, hed, ed'⟩ := d3.form hu0
  obtain ⟨ec, hec, ec'⟩ := h3.form hu0
  rw [Real.cos_zero, one_mul] at ec'
  simp only [mul_zero, zero_mul, zero_add] at q7
  rw [ed', ec'] at q7
  have low : ∀ {x : ℝ}, |x - 1| ≤ 1 / 100 → 99 / 100 ≤ x := by
    intro x h
    linarith [(abs_le.1 h).1]
  have hu2 : u ≤ 1 / 100 := by norm_num at hu ⊢; linarith
  have l1 := low (k3.trans cube)
  have l2 := low (k6.trans cube)
  have l3 := low (k7.trans cube)
  have l4 := low (hed.trans hu2)
  have l5 := low (hec.trans hu2)
  obtain ⟨K, hK⟩ : ∃ K, K = ed * (ec * e3 * e6) * e7 := ⟨_, rfl⟩
  have hK2 : 1 / 2 < K := by
    have g1 := mul_le_mul l5 l1 (by norm_num) (by linarith)
    have g2 := mul_le_mul g1 l2 (by norm_num) (by positivity)
    have g3 := mul_le_mul l4 g2 (by norm_num) (by linarith)
    have g4 := mul_le_mul g3 l3 (by norm_num) (by positivity)
    rw [hK]
    refine lt_of_lt_of_le ?_ g4
    norm_num
  have hq : q.z = (P.z - 30) * K := by
    rw [q7, hK]
    show (P.z - 30) * ed * (ec * e3 * e6) * e7 = _
    ring
  have hm0 : 0 < minDepth := by norm_num [minDepth]
  show (out = V2.nan ↔ P.z > 30) ∧ _
  unfold ImageRect at hi
  by_cases hz : 30 < P.z
  · have hqz : 0 < q.z := by rw [hq]; exact mul_pos (by linarith) (by linarith)
    have : out = V2.nan := by
      by_cases h1 : |q.z| < 1 / 10 ^ 10
      · rwa [if_pos h1] at hi
      · rwa [if_neg h1, if_pos ⟨rfl, hqz⟩] at hi
    exact ⟨⟨fun _ => hz, fun _ => this⟩, .inl this⟩
  · have hz2 : P.z ≤ 30 - 2 * minDepth := by
      by_contra hc
      exact hP ⟨by linarith, by linarith⟩
    have hqz : q.z ≤ -minDepth := by
      rw [hq]
      nlinarith
    have h1 : ¬ |q.z| < 1 / 10 ^ 10 := by
      rw [abs_of_neg (by linarith)]
      have : minDepth = 1 / 10 ^ 10 := by norm_num [minDepth]
      linarith
    rw [if_neg h1, if_neg (by rintro ⟨-, h⟩; linarith)] at hi
    obtain ⟨a, b, x, c', d', y, -, -, -, -, -, -, hw⟩ := hi
    refine ⟨⟨fun hn => ?_, fun hc => absurd hc hz⟩, .inr ⟨_, hw⟩⟩
    rw [hn] at hw
    exact absurd hw (V2.not_is_nan _)

namespace Rounded

open Projection Camera Drawn

/-- A vector can be divided by its length. -/
theorem Normed.exists {u : ℝ} (hu : 0 ≤ u) (v : V3 ℝ) : ∃ q, Normed u v q :=
  ⟨⟨_, _, _⟩, _, _, Dot.exact hu _ _, Rd.exact hu _, Rd.exact hu _, Rd.exact hu _, Rd.exact hu _⟩

theorem DirectionAny.exists {u : ℝ} (hu : 0 ≤ u) (k : Kind) (I : Intr) (Rinv : M3) (p : V2 ℝ) (normed : Bool) : ∃ dir, DirectionAny u k I Rinv p normed dir := by
  have rect : ∃ r, RayRect u I p normed r := by
    obtain ⟨q, hq⟩ := Normed.exists hu ⟨-(p.x - I.cx) / I.fx, (p.y - I.cy) / I.fy, 1⟩
    cases normed
    · exact ⟨_, _, _, _, _, Rd.exact hu _, Rd.exact hu _, Rd.exact hu _, Rd.exact hu _, by simp only [Bool.false_eq_true, if_false]; rfl⟩
    · exact ⟨-q, _, _, _, _, Rd.exact hu _, Rd.exact hu _, Rd.exact hu _, Rd.exact hu _, by rw [if_pos rfl]; exact ⟨q, hq, rfl⟩⟩
  have pan : ∃ r, RayPan u k I p normed r := by
    obtain ⟨y, hy⟩ : ∃ y, (match k with | .equirectangular => Rd u (Real.tan ((p.y - I.cy) / I.fy)) y | _ => y = (p.y - I.cy) / I.fy) := by
      cases k
      · exact ⟨_, rfl⟩
      · exact ⟨_, rfl⟩
      · exact ⟨_, Rd.exact hu _⟩
    obtain ⟨q, hq⟩ := Normed.exists hu ⟨-Real.sin ((p.x - I.cx) / I.fx), y, Real.cos ((p.x - I.cx) / I.fx)⟩
    cases normed
    · exact ⟨_, _, _, _, _, _, _, _, Rd.exact hu _, Rd.exact hu _, Rd.exact hu _, Rd.exact hu _, Rd.exact hu _, Rd.exact hu _, hy,
        by simp only [Bool.false_eq_true, if_false]; rfl⟩
    · exact ⟨-q, _, _, _, _, _, _, _, Rd.exact hu _, Rd.exact hu _, Rd.exact hu _, Rd.exact hu _, Rd.exact hu _, Rd.exact hu _, hy,
        by rw [if_pos rfl]; exact ⟨q, hq, rfl⟩⟩
  obtain ⟨r1, h1⟩ := rect
  obtain ⟨r2, h2⟩ := pan
  cases k
  · exact ⟨⟨_, _, _⟩, r1, h1, Dot.exact hu _ _, Dot.exact hu _ _, Dot.exact hu _ _⟩
  · exact ⟨⟨_, _, _⟩, r2, h2, Dot.exact hu _ _, Dot.exact hu _ _, Dot.exact hu _ _⟩
  · exact ⟨⟨_, _, _⟩, r2, h2, Dot.exact hu _ _, Dot.exact hu _ _, Dot.exact hu _ _⟩

theorem PointAt.exists {u : ℝ} (hu : 0 ≤ u) (t dir : V3 ℝ) (f : ℝ) : ∃ g, PointAt u t dir f g ∧ (g = V3.nan ∨ ∃ P, g.Is P) := by
  unfold PointAt
  split_ifs
  · exact ⟨_, rfl, .inl rfl⟩
  · exact ⟨_, ⟨_, _, _, _, _, _, Rd.exact hu _, Rd.exact hu _, Rd.exact hu _, Rd.exact hu _, Rd.exact hu _, Rd.exact hu _, V3.is_num _⟩, .inr ⟨_, V3.is_num _⟩⟩

theorem ImageAny.exists {u : ℝ} (hu : 0 ≤ u) (k : Kind) (I : Intr) (t : V3 ℝ) (R : M3) (P : V3 ℝ) : ∃ out, ImageAny u k I t R P out := by
  cases k
  · exact ImageFromSpace.exists hu I t R P true
  · exact ImageFromSpacePan.exists hu _ I t R P
  · exact ImageFromSpacePan.exists hu _ I t R P

theorem ImageNum.exists {u : ℝ} (hu : 0 ≤ u) (k : Kind) (I : Intr) (t : V3 ℝ) (R : M3) {g : V3 Num} (h : (∃ j, g.get j = .nan) ∨ ∃ P, g.Is P) :
    ∃ out, ImageNum u k I t R g out := by
  rcases h with h | ⟨P, hP⟩
  · exact ⟨_, .inr ⟨h, rfl⟩⟩
  · obtain ⟨out, ho⟩ := ImageAny.exists hu k I t R P
    exact ⟨out, .inl ⟨P, hP, ho⟩⟩

theorem SpaceFromImageAny.exists {u : ℝ} (hu : 0 ≤ u) (k : Kind) (I : Intr) (t : V3 ℝ) (Rinv : M3) (p : V2 ℝ) (i : Fin 3) (v : ℝ) :
    ∃ g, SpaceFromImageAny u k I t Rinv p i v g ∧ ((∃ j, g.get j = .nan) ∨ ∃ P, g.Is P) := by
  obtain ⟨dir, hd⟩ := DirectionAny.exists hu k I Rinv p false
  by_cases h : dir.get i = 0
  · have hn : V3.nan.get i = .nan := by fin_cases i <;> rfl
    exact ⟨V3.nan, ⟨dir, _, hd, Rd.exact hu _, .inl ⟨h, hn⟩⟩, .inl ⟨i, hn⟩⟩
  · obtain ⟨g, hg, hc⟩ := PointAt.exists hu t dir ((v - t.get i) / dir.get i)
    refine ⟨g, ⟨dir, _, hd, Rd.exact hu _, .inr ⟨h, _, Rd.exact hu _, hg⟩⟩, ?_⟩
    rcases hc with rfl | hc
    · exact .inl ⟨0, rfl⟩
    · exact .inr hc

theorem Computed.refl (I : Intr) : Computed I I := ⟨rfl, rfl, rfl, rfl, Rd.exact (by norm_num) _, Rd.exact (by norm_num) _⟩

/-- A camera that can be drawn. -/
noncomputable def exDrawn (k : Kind) : Cam := ⟨k, (example_draw k).intr, .thr ⟨10, 45, 0, 0, 0, 0⟩, noDistortion⟩

theorem exDrawn_ok (k : Kind) : IsCamera (exDrawn k) ∧ IsPixel (exDrawn k) ⟨0, 0⟩ ∧ 1 / 1000 < |0 - (exDrawn k).orient.pos.z| := by
  refine ⟨⟨⟨example_draw k, example_ok k, rfl, (makes_iff (example_ok k) _).2 rfl⟩, ⟨⟨10, 45, 0, 0, 0, 0⟩, by constructor <;> norm_num, rfl⟩, rfl⟩,
    .inl ⟨le_rfl, ?_, le_rfl, ?_⟩, ?_⟩
  · simp [exDrawn, Draw.intr]
  · simp [exDrawn, Draw.intr]
  · show 1 / 1000 < |0 - (10 : ℝ)|
    norm_num

end Rounded

open Projection Rounded Camera Drawn in
example (k : Kind) : ∃ g out, IsCamera (exDrawn k) ∧ IsPixel (exDrawn k) ⟨0, 0⟩ ∧ Computed (exDrawn k).intr (exDrawn k).intr ∧
    Rotation (1 / 2 ^ 50) (exDrawn k).orient (exDrawn k).orient.mat.R ∧ Near (1 / 10 ^ 10) (exDrawn k).orient.mat.Rinv (exDrawn k).orient.mat.Rinv ∧
    1 / 1000 < |0 - (exDrawn k).orient.pos.z| ∧
    SpaceFromImageAny (1 / 2 ^ 50) k (exDrawn k).intr (exDrawn k).orient.pos (exDrawn k).orient.mat.Rinv ⟨0, 0⟩ 2 0 g ∧
    ImageNum (1 / 2 ^ 50) k (exDrawn k).intr (exDrawn k).orient.pos (exDrawn k).orient.mat.R g out := by
  obtain ⟨h1, h2, h3⟩ := exDrawn_ok k
  obtain ⟨g, hg, hc⟩ := SpaceFromImageAny.exists (u := 1 / 2 ^ 50) (by norm_num) k (exDrawn k).intr (exDrawn k).orient.pos (exDrawn k).orient.mat.Rinv ⟨0, 0⟩ 2 0
  obtain ⟨out, ho⟩ := ImageNum.exists (u := 1 / 2 ^ 50) (by norm_num) k (exDrawn k).intr (exDrawn k).orient.pos (exDrawn k).orient.mat.R hc
  exact ⟨g, out, h1, h2, Computed.refl _, Rotation.exact (by norm_num) _ (drawn_turn h1), Near.refl (by norm_num) _, h3, hg, ho⟩

open Projection Rounded Camera Drawn in
/-- The ray of a corner and a point on it, and its pixel. -/
example (k : Kind) : ∃ dir g out, IsCamera (exDrawn k) ∧ IsPixel (exDrawn k) ⟨((0 : ℕ) : ℝ), ((0 : ℕ) : ℝ)⟩ ∧
    DirectionAny (1 / 2 ^ 50) k (exDrawn k).intr (exDrawn k).orient.mat.Rinv ⟨((0 : ℕ) : ℝ), ((0 : ℕ) : ℝ)⟩ true dir ∧
    PointAt (1 / 2 ^ 50) (exDrawn k).orient.pos dir 1 g ∧ ImageNum (1 / 2 ^ 50) k (exDrawn k).intr (exDrawn k).orient.pos (exDrawn k).orient.mat.R g out := by
  obtain ⟨h1, h2, -⟩ := exDrawn_ok k
  obtain ⟨dir, hd⟩ := DirectionAny.exists (u := 1 / 2 ^ 50) (by norm_num) k (exDrawn k).intr (exDrawn k).orient.mat.Rinv ⟨((0 : ℕ) : ℝ), ((0 : ℕ) : ℝ)⟩ true
  obtain ⟨g, hg, hc⟩ := PointAt.exists (u := 1 / 2 ^ 50) (by norm_num) (exDrawn k).orient.pos dir 1
  obtain ⟨out, ho⟩ := ImageNum.exists (u := 1 / 2 ^ 50) (by norm_num) k (exDrawn k).intr (exDrawn k).orient.pos (exDrawn k).orient.mat.R
    (g := g) (by rcases hc with rfl | hc; exacts [.inl ⟨0, rfl⟩, .inr hc])
  exact ⟨dir, g, out, h1, by simpa using h2, hd, hg, ho⟩

open Projection Rounded Camera Drawn in
/-- A point below a camera that looks down, and the position of a camera. -/
example : (∃ c P R out, IsDown c P ∧ c.kind = .rectilinear ∧ Rotation (1 / 2 ^ 50) c.orient R ∧ ¬ (30 - 2 * minDepth < P.z ∧ P.z ≤ 30) ∧
    ImageAny (1 / 2 ^ 50) c.kind c.intr c.orient.pos R P out) ∧ ∀ (I : Intr) (t : V3 ℝ) (R : M3), ∃ out, ImageAny (1 / 2 ^ 50) .rectilinear I t R t out := by
  refine ⟨?_, fun I t R => ImageAny.exists (by norm_num) _ _ _ _ _⟩
  obtain ⟨c, hk, hc⟩ := C179_points ⟨0, 0, 0⟩ (by norm_num) (by norm_num) (by norm_num) .rectilinear
  obtain ⟨out, ho⟩ := ImageAny.exists (u := 1 / 2 ^ 50) (by norm_num) c.kind c.intr c.orient.pos c.orient.mat.R ⟨0, 0, 0⟩
  have ht : Turn c.orient := by
    rw [hc.2.1]
    refine ⟨?_, ?_, ?_⟩ <;> norm_num
  refine ⟨c, ⟨0, 0, 0⟩, _, out, hc, hk, Rotation.exact (by norm_num) _ ht, ?_, ho⟩
  norm_num [minDepth]
