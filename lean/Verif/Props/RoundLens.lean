import Verif.Model.Lens
import Verif.Model.RoundedLens
import Verif.Props.Lens
import Verif.Props.RoundMove

/-! # C188: the distortion of lenses with rounding errors -/

namespace Rounded

/-- The product of `n` rounding errors. -/
def Fac (u : ℝ) (n : ℕ) (g : ℝ) : Prop := |g - 1| ≤ (1 + u) ^ n - 1

theorem Fac.mul {u : ℝ} {m n : ℕ} {g h : ℝ} (hg : Fac u m g) (hh : Fac u n h) : Fac u (m + n) (g * h) := by
  have := fac_mul hg hh
  unfold Fac
  rw [pow_add]
  convert this using 2
  ring

theorem Fac.le {u : ℝ} (hu : 0 ≤ u) {m n : ℕ} {g : ℝ} (h : m ≤ n) (hg : Fac u m g) : Fac u n g :=
  le_trans hg (sub_le_sub_right (pow_le_pow_right₀ (by linarith) h) _)

theorem Fac.pow {u : ℝ} {m : ℕ} {g : ℝ} (hg : Fac u m g) : ∀ n : ℕ, Fac u (m * n) (g ^ n)
  | 0 => by simp [Fac]
  | n + 1 => by
    rw [pow_succ, Nat.mul_succ]
    exact (hg.pow n).mul hg

theorem Rd.fac {u x y : ℝ} (hu : 0 ≤ u) (h : Rd u x y) : ∃ g, Fac u 1 g ∧ y = x * g := by
  obtain ⟨g, hg, e⟩ := h.form hu
  exact ⟨g, by simpa [Fac] using hg, e⟩

/-- A sum of terms that have rounding errors. -/
theorem Fac.term {u x g : ℝ} {n : ℕ} (hg : Fac u n g) : |x * g - x| ≤ ((1 + u) ^ n - 1) * |x| := by
  rw [show x * g - x = x * (g - 1) by ring, abs_mul, mul_comm]
  exact mul_le_mul_of_nonneg_right hg (abs_nonneg _)

theorem Fac.small {u : ℝ} (hu : 0 ≤ u) (hu1 : u ≤ 1 / 100000) : (1 + u) ^ 55 - 1 ≤ 56 * u := by
  have hb : ∀ n : ℕ, n ≤ 55 → (1 + u) ^ n ≤ 1 + n * (1001 / 1000 * u) := by
    intro n
    induction n with
    | zero => intro _; simp
    | succ n ih =>
      intro hn
      have h1 := ih (by omega)
      have h2 : (n : ℝ) ≤ 55 := by exact_mod_cast (by omega : n ≤ 55)
      rw [pow_succ]
      push_cast
      have h3 := mul_le_mul_of_nonneg_right h1 (by linarith : 0 ≤ 1 + u)
      have h4 : (n : ℝ) * (1001 / 1000 * u) * u ≤ 1 / 1000 * u := by
        have := mul_le_mul h2 (mul_le_mul_of_nonneg_left hu1 hu) (by positivity) (by norm_num)
        linarith
      nlinarith
  have := hb 55 le_rfl
  push_cast at this
  linarith

/-- The computed radius. -/
theorem Hyp.fac {u x y a b n : ℝ} (hu : 0 ≤ u) (hu1 : u ≤ 1 / 100000) (ha : Fac u 2 a) (hb : Fac u 2 b) (h : Hyp u (x * a) (y * b) n) :
    ∃ g, Fac u 7 g ∧ 0 < g ∧ n = Real.sqrt (x ^ 2 + y ^ 2) * g := by
  obtain ⟨c1, c2, c3, k1, k2, k3, k4⟩ := h
  obtain ⟨e1, he1, rfl⟩ := k1.fac hu
  obtain ⟨e2, he2, rfl⟩ := k2.fac hu
  obtain ⟨e3, he3, rfl⟩ := k3.fac hu
  obtain ⟨e4, he4, rfl⟩ := k4.fac hu
  have pos : ∀ {g : ℝ}, Fac u 7 g → 0 < g := by
    intro g hg
    have h1 := (hg.le hu (show 7 ≤ 55 by norm_num)).trans (Fac.small hu hu1)
    have := (abs_le.1 h1).1
    linarith
  rcases (show 0 ≤ x ^ 2 + y ^ 2 by positivity).eq_or_lt with h0 | h0
  · have hx : x = 0 := by nlinarith [sq_nonneg x, sq_nonneg y]
    have hy : y = 0 := by nlinarith [sq_nonneg x, sq_nonneg y]
    refine ⟨1, by simpa [Fac] using one_le_pow₀ (by linarith : 1 ≤ 1 + u), one_pos, ?_⟩
    rw [hx, hy]
    simp
  · have fa : Fac u 6 (a ^ 2 * e1 * e3) := ((ha.pow 2).mul he1).mul he3
    have fb : Fac u 6 (b ^ 2 * e2 * e3) := ((hb.pow 2).mul he2).mul he3
    obtain ⟨G, hG⟩ : ∃ G, G = (x ^ 2 * (a ^ 2 * e1 * e3) + y ^ 2 * (b ^ 2 * e2 * e3)) / (x ^ 2 + y ^ 2) := ⟨_, rfl⟩
    have eG : ((x * a) ^ 2 * e1 + (y * b) ^ 2 * e2) * e3 = (x ^ 2 + y ^ 2) * G := by
      rw [hG]; field_simp
    have fG : Fac u 6 G := by
      unfold Fac
      have e : G - 1 = ((x ^ 2 * (a ^ 2 * e1 * e3) - x ^ 2) + (y ^ 2 * (b ^ 2 * e2 * e3) - y ^ 2)) / (x ^ 2 + y ^ 2) := by
        rw [hG]; field_simp; ring
      rw [e, abs_div, abs_of_pos h0, div_le_iff₀ h0]
      refine (abs_add_le _ _).trans ?_
      have t1 := fa.term (x := x ^ 2)
      have t2 := fb.term (x := y ^ 2)
      rw [abs_of_nonneg (sq_nonneg x)] at t1
      rw [abs_of_nonneg (sq_nonneg y)] at t2
      linarith
    have hG0 : 0 < G := pos (fG.le hu (by norm_num))
    have fs : Fac u 6 (Real.sqrt G) := by
      refine le_trans ?_ fG
      have hs := Real.sqrt_nonneg G
      have e : G - 1 = (Real.sqrt G - 1) * (Real.sqrt G + 1) := by
        rw [show (Real.sqrt G - 1) * (Real.sqrt G + 1) = Real.sqrt G ^ 2 - 1 by ring, Real.sq_sqrt hG0.le]
      rw [e, abs_mul, abs_of_pos (by linarith : 0 < Real.sqrt G + 1)]
      exact le_mul_of_one_le_right (abs_nonneg _) (by linarith)
    have f7 := fs.mul he4
    refine ⟨_, f7, pos f7, ?_⟩
    rw [eG, Real.sqrt_mul h0.le]
    ring

/-- What a radius function does to a computed radius: it multiplies it by a number close to `G`, also after six further rounding errors. -/
def Multiplies (u : ℝ) (f : ℝ → ℝ → Prop) (r G A : ℝ) : Prop :=
  ∀ g F, Fac u 7 g → f (r * g) F → ∃ H, F = r * g * H ∧ ∀ E, Fac u 6 E → |H * E - G| ≤ 56 * u * A

theorem brown_multiplies {u : ℝ} (hu : 0 ≤ u) (hu1 : u ≤ 1 / 100000) (k1 k2 k3 r : ℝ) :
    Multiplies u (BrownRadius u k1 k2 k3) r (1 + k1 * r ^ 2 + k2 * r ^ 4 + k3 * r ^ 6) (1 + |k1| * r ^ 2 + |k2| * r ^ 4 + |k3| * r ^ 6) := by
  rintro g F hg ⟨p2, p4, p6, t1, t2, t3, s1, s2, s3, h1, h2, h3, h4, h5, h6, h7, h8, h9, h10⟩
  obtain ⟨a1, ha1, rfl⟩ := h1.fac hu
  obtain ⟨a2, ha2, rfl⟩ := h2.fac hu
  obtain ⟨a3, ha3, rfl⟩ := h3.fac hu
  obtain ⟨b1, hb1, rfl⟩ := h4.fac hu
  obtain ⟨b2, hb2, rfl⟩ := h5.fac hu
  obtain ⟨b3, hb3, rfl⟩ := h6.fac hu
  obtain ⟨c1, hc1, rfl⟩ := h7.fac hu
  obtain ⟨c2, hc2, rfl⟩ := h8.fac hu
  obtain ⟨c3, hc3, rfl⟩ := h9.fac hu
  obtain ⟨c4, hc4, rfl⟩ := h10.fac hu
  refine ⟨_, mul_assoc _ _ _, fun E hE => ?_⟩
  have f0 := (((((hc1.mul hc2).mul hc3).mul hc4).mul hE).le hu (show _ ≤ 55 by norm_num)).term (x := 1)
  have f1 := (((((((((hg.pow 2).mul ha1).mul hb1).mul hc1).mul hc2).mul hc3).mul hc4).mul hE).le hu (show _ ≤ 55 by norm_num)).term (x := k1 * r ^ 2)
  have f2 := ((((((((hg.pow 4).mul ha2).mul hb2).mul hc2).mul hc3).mul hc4).mul hE).le hu (show _ ≤ 55 by norm_num)).term (x := k2 * r ^ 4)
  have f3 := (((((((hg.pow 6).mul ha3).mul hb3).mul hc3).mul hc4).mul hE).le hu (show _ ≤ 55 by norm_num)).term (x := k3 * r ^ 6)
  rw [_root_.abs_one] at f0
  rw [abs_mul, abs_of_nonneg (show 0 ≤ r ^ 2 by positivity)] at f1
  rw [abs_mul, abs_of_nonneg (show 0 ≤ r ^ 4 by positivity)] at f2
  rw [abs_mul, abs_of_nonneg (show 0 ≤ r ^ 6 by positivity)] at f3
  have hs := Fac.small hu hu1
  have hA : 0 ≤ 1 + |k1| * r ^ 2 + |k2| * r ^ 4 + |k3| * r ^ 6 := by positivity
  refine le_trans ?_ (mul_le_mul_of_nonneg_right hs hA)
  rw [show ((1 + k1 * ((r * g) ^ 2 * a1) * b1) * c1 + k2 * ((r * g) ^ 4 * a2) * b2) * c2 + k3 * ((r * g) ^ 6 * a3) * b3 = 0 + (((1 + k1 * ((r * g) ^ 2 * a1) * b1) * c1 + k2 * ((r * g) ^ 4 * a2) * b2) * c2 + k3 * ((r * g) ^ 6 * a3) * b3) by ring]
  refine le_trans (le_of_eq (congrArg abs ?_)) ((abs_add_le _ _).trans (add_le_add ((abs_add_le _ _).trans (add_le_add ((abs_add_le _ _).trans (add_le_add f0 f1)) f2)) f3) |>.trans (le_of_eq (by ring)))
  ring

theorem abc_multiplies {u : ℝ} (hu : 0 ≤ u) (hu1 : u ≤ 1 / 100000) (a b c : ℝ) {r : ℝ} (hr : 0 ≤ r) :
    Multiplies u (AbcRadius u a b c) r (1 - a - b - c + c * r + b * r ^ 2 + a * r ^ 3) (1 + |a| + |b| + |c| + |c| * r + |b| * r ^ 2 + |a| * r ^ 3) := by
  rintro g F hg ⟨d1, d2, d, p2, p3, p4, t1, t2, t3, t4, s1, s2, h1, h2, h3, h4, h5, h6, h7, h8, h9, h10, h11, h12, h13⟩
  obtain ⟨x1, hx1, rfl⟩ := h1.fac hu
  obtain ⟨x2, hx2, rfl⟩ := h2.fac hu
  obtain ⟨x3, hx3, rfl⟩ := h3.fac hu
  obtain ⟨a2, ha2, rfl⟩ := h4.fac hu
  obtain ⟨a3, ha3, rfl⟩ := h5.fac hu
  obtain ⟨a4, ha4, rfl⟩ := h6.fac hu
  obtain ⟨b1, hb1, rfl⟩ := h7.fac hu
  obtain ⟨b2, hb2, rfl⟩ := h8.fac hu
  obtain ⟨b3, hb3, rfl⟩ := h9.fac hu
  obtain ⟨b4, hb4, rfl⟩ := h10.fac hu
  obtain ⟨c1, hc1, rfl⟩ := h11.fac hu
  obtain ⟨c2, hc2, rfl⟩ := h12.fac hu
  obtain ⟨c3, hc3, rfl⟩ := h13.fac hu
  refine ⟨(((((1 - a) * x1 - b) * x2 - c) * x3 * b1 + c * (r * g * a2) * b2) * c1 + b * ((r * g) ^ 2 * a3) * b3) * c2 * c3 + a * ((r * g) ^ 3 * a4) * b4 * c3, by ring,
    fun E hE => ?_⟩
  have T := (((hb1.mul hc1).mul hc2).mul hc3).mul hE
  have f0 := ((((hx1.mul hx2).mul hx3).mul T).le hu (show _ ≤ 55 by norm_num)).term (x := 1)
  have f1 := ((((hx1.mul hx2).mul hx3).mul T).le hu (show _ ≤ 55 by norm_num)).term (x := -a)
  have f2 := (((hx2.mul hx3).mul T).le hu (show _ ≤ 55 by norm_num)).term (x := -b)
  have f3 := ((hx3.mul T).le hu (show _ ≤ 55 by norm_num)).term (x := -c)
  have f4 := (((((((hg.mul ha2).mul hb2).mul hc1).mul hc2).mul hc3).mul hE).le hu (show _ ≤ 55 by norm_num)).term (x := c * r)
  have f5 := (((((((hg.pow 2).mul ha3).mul hb3).mul hc2).mul hc3).mul hE).le hu (show _ ≤ 55 by norm_num)).term (x := b * r ^ 2)
  have f6 := ((((((hg.pow 3).mul ha4).mul hb4).mul hc3).mul hE).le hu (show _ ≤ 55 by norm_num)).term (x := a * r ^ 3)
  rw [_root_.abs_one] at f0
  rw [abs_neg] at f1 f2 f3
  rw [abs_mul, abs_of_nonneg hr] at f4
  rw [abs_mul, abs_of_nonneg (show 0 ≤ r ^ 2 by positivity)] at f5
  rw [abs_mul, abs_of_nonneg (show 0 ≤ r ^ 3 by positivity)] at f6
  have hs := Fac.small hu hu1
  have hA : 0 ≤ 1 + |a| + |b| + |c| + |c| * r + |b| * r ^ 2 + |a| * r ^ 3 := by positivity
  refine le_trans ?_ (mul_le_mul_of_nonneg_right hs hA)
  have h2 := (abs_add_le _ _).trans (add_le_add f0 f1)
  have h3 := (abs_add_le _ _).trans (add_le_add h2 f2)
  have h4 := (abs_add_le _ _).trans (add_le_add h3 f3)
  have h5 := (abs_add_le _ _).trans (add_le_add h4 f4)
  have h6 := (abs_add_le _ _).trans (add_le_add h5 f5)
  have h7 := (abs_add_le _ _).trans (add_le_add h6 f6)
  refine le_trans (le_of_eq (congrArg abs ?_)) (h7.trans (le_of_eq (by ring)))
  ring

/-- One coordinate of a distorted point. -/
theorem distorted_coord {u p o s r g G A H q n m v x : ℝ} {a b F : ℝ} (hu : 0 ≤ u) (hs : s ≠ 0) (hr : r ≠ 0) (hg : g ≠ 0) (ha : Fac u 1 a) (hb : Fac u 1 b)
    (hq : q = (p - o) * a / s * b) (hF : F = r * g * H) (hH : ∀ E, Fac u 6 E → |H * E - G| ≤ 56 * u * A) (h1 : Rd u (q / (r * g)) n) (h2 : Rd u (n * F) m)
    (h3 : Rd u (m * s) v) (h4 : Rd u (v + o) x) : |x - (G * (p - o) + o)| ≤ 56 * u * A * |p - o| + u * |o| := by
  obtain ⟨e1, k1, rfl⟩ := h1.fac hu
  obtain ⟨e2, k2, rfl⟩ := h2.fac hu
  obtain ⟨e3, k3, rfl⟩ := h3.fac hu
  obtain ⟨e4, k4, rfl⟩ := h4.fac hu
  have fE : Fac u 6 (a * b * e1 * e2 * e3 * e4) := ((((ha.mul hb).mul k1).mul k2).mul k3).mul k4
  have e : (q / (r * g) * e1 * F * e2 * s * e3 + o) * e4 - (G * (p - o) + o) =
      (H * (a * b * e1 * e2 * e3 * e4) - G) * (p - o) + o * (e4 - 1) := by
    rw [hq, hF]
    field_simp
    ring
  rw [e]
  refine (abs_add_le _ _).trans (add_le_add ?_ ?_)
  · rw [abs_mul]
    exact mul_le_mul_of_nonneg_right (hH _ fE) (abs_nonneg _)
  · rw [abs_mul, mul_comm]
    refine mul_le_mul_of_nonneg_right ?_ (abs_nonneg _)
    simpa [Fac] using k4

theorem distorted_near {u : ℝ} (hu : 0 ≤ u) (hu1 : u ≤ 1 / 100000) {f : ℝ → ℝ → Prop} {s o p : V2 ℝ} (hx : s.x ≠ 0) (hy : s.y ≠ 0) {G A : ℝ}
    (hf : Multiplies u f (LensSpec.radius s o p) G A) {out : V2 Num} (h : Distorted u f s o p out) :
    (p = o ∧ out = V2.nan) ∨ (p ≠ o ∧ ∃ q : V2 ℝ, out.Is q ∧ |q.x - (G * (p.x - o.x) + o.x)| ≤ 56 * u * A * |p.x - o.x| + u * |o.x| ∧
      |q.y - (G * (p.y - o.y) + o.y)| ≤ 56 * u * A * |p.y - o.y| + u * |o.y|) := by
  obtain ⟨ax, ay, qx, qy, r, h1, h2, h3, h4, h5, h⟩ := h
  obtain ⟨a1, k1, rfl⟩ := h1.fac hu
  obtain ⟨a2, k2, rfl⟩ := h2.fac hu
  obtain ⟨b1, m1, e1⟩ := h3.fac hu
  obtain ⟨b2, m2, e2⟩ := h4.fac hu
  have hh : Hyp u ((p.x - o.x) / s.x * (a1 * b1)) ((p.y - o.y) / s.y * (a2 * b2)) r := by
    convert h5 using 1
    · rw [e1]; ring
    · rw [e2]; ring
  obtain ⟨g, hg, hg0, er⟩ := hh.fac hu hu1 (k1.mul m1) (k2.mul m2)
  have hrad : LensSpec.radius s o p = Real.sqrt (((p.x - o.x) / s.x) ^ 2 + ((p.y - o.y) / s.y) ^ 2) := by
    unfold LensSpec.radius
    congr 1
  rw [← hrad] at er
  have hc : p = o ↔ LensSpec.radius s o p = 0 := by
    rw [hrad]
    constructor
    · rintro rfl
      simp
    · intro h0
      have h0' := (Real.sqrt_eq_zero (by positivity)).1 h0
      have z1 : (p.x - o.x) / s.x = 0 := by nlinarith [sq_nonneg ((p.x - o.x) / s.x), sq_nonneg ((p.y - o.y) / s.y)]
      have z2 : (p.y - o.y) / s.y = 0 := by nlinarith [sq_nonneg ((p.x - o.x) / s.x), sq_nonneg ((p.y - o.y) / s.y)]
      ext
      · exact sub_eq_zero.1 ((div_eq_zero_iff.1 z1).resolve_right hx)
      · exact sub_eq_zero.1 ((div_eq_zero_iff.1 z2).resolve_right hy)
  rcases h with ⟨h0, ho⟩ | ⟨h0, F, nx, ny, mx, my, vx, vy, x, y, hF, j1, j2, j3, j4, j5, j6, j7, j8, ho⟩
  · left
    rw [er] at h0
    exact ⟨hc.2 ((mul_eq_zero.1 h0).resolve_right hg0.ne'), ho⟩
  · right
    rw [er] at h0 hF j1 j2
    have hr0 := (mul_ne_zero_iff.1 h0).1
    obtain ⟨H, hH, hE⟩ := hf g F hg hF
    exact ⟨fun h => hr0 (hc.1 h), ⟨x, y⟩, ho, distorted_coord hu hx hr0 hg0.ne' k1 m1 e1 hH hE j1 j3 j5 j7, distorted_coord hu hy hr0 hg0.ne' k2 m2 e2 hH hE j2 j4 j6 j8⟩

end Rounded

open LensModel Rounded in
/-- **C188** The distortion of a Brown lens with rounding errors: the centre of the image has no distorted point, and every other pixel has one, which differs from the
exact one by a multiple of the rounding error. -/
theorem C188_brown (spline : Spline) (I : Projection.Intr) (hfx : I.fx ≠ 0) (hfy : I.fy ≠ 0) (k1 k2 k3 u : ℝ) (hu : 0 ≤ u) (hu1 : u ≤ 1 / 100000) (p : V2 ℝ)
    (r A : ℝ) (hr : r = Real.sqrt (((p.x - I.cx) / I.fx) ^ 2 + ((p.y - I.cy) / I.fy) ^ 2)) (hA : A = 1 + |k1| * r ^ 2 + |k2| * r ^ 4 + |k3| * r ^ 6) (out : V2 Num)
    (h : Distorted u (BrownRadius u k1 k2 k3) ⟨I.fx, I.fy⟩ ⟨I.cx, I.cy⟩ p out) :
    (p = ⟨I.cx, I.cy⟩ ∧ out = V2.nan) ∨ p ≠ ⟨I.cx, I.cy⟩ ∧ ∃ q w : V2 ℝ, ((brown spline I k1 k2 k3).lens.distortedFromImage p.num).Is q ∧ out.Is w ∧
      |w.x - q.x| ≤ 56 * u * A * |p.x - I.cx| + u * |I.cx| ∧ |w.y - q.y| ≤ 56 * u * A * |p.y - I.cy| + u * |I.cy| := by
  have hrad : LensSpec.radius ⟨I.fx, I.fy⟩ ⟨I.cx, I.cy⟩ p = r := by rw [hr]; rfl
  have hm := brown_multiplies hu hu1 k1 k2 k3 r
  rw [← hA] at hm
  rcases distorted_near hu hu1 (s := ⟨I.fx, I.fy⟩) (o := ⟨I.cx, I.cy⟩) hfx hfy (hrad.symm ▸ hm) h with h | ⟨hne, w, hw, hx, hy⟩
  · exact .inl h
  · refine .inr ⟨hne, ?_⟩
    rw [hrad] at hx hy
    have hr0 : r ≠ 0 := by
      intro h0
      rw [hr] at h0
      have h0' := (Real.sqrt_eq_zero (by positivity)).1 h0
      have z1 : (p.x - I.cx) / I.fx = 0 := by nlinarith [sq_nonneg ((p.x - I.cx) / I.fx), sq_nonneg ((p.y - I.cy) / I.fy)]
      have z2 : (p.y - I.cy) / I.fy = 0 := by nlinarith [sq_nonneg ((p.x - I.cx) / I.fx), sq_nonneg ((p.y - I.cy) / I.fy)]
      refine hne ?_
      ext
      · exact sub_eq_zero.1 ((div_eq_zero_iff.1 z1).resolve_right hfx)
      · exact sub_eq_zero.1 ((div_eq_zero_iff.1 z2).resolve_right hfy)
    have ht := transform_is (L := brown spline I k1 k2 k3) (V2.is_num p) hfx hfy (by show LensSpec.radius ⟨I.fx, I.fy⟩ ⟨I.cx, I.cy⟩ p ≠ 0; rw [hrad]; exact hr0)
      (fun m hm => brownRadius_is (k1 := k1) (k2 := k2) (k3 := k3) hm)
    refine ⟨_, w, ht, hw, ?_, ?_⟩
    · show |w.x - (LensSpec.brownPoly k1 k2 k3 (LensSpec.radius ⟨I.fx, I.fy⟩ ⟨I.cx, I.cy⟩ p) / LensSpec.radius ⟨I.fx, I.fy⟩ ⟨I.cx, I.cy⟩ p * (p.x - I.cx) + I.cx)| ≤ _
      rw [hrad, LensSpec.brownPoly, mul_div_cancel_left₀ _ hr0]
      exact hx
    · show |w.y - (LensSpec.brownPoly k1 k2 k3 (LensSpec.radius ⟨I.fx, I.fy⟩ ⟨I.cx, I.cy⟩ p) / LensSpec.radius ⟨I.fx, I.fy⟩ ⟨I.cx, I.cy⟩ p * (p.y - I.cy) + I.cy)| ≤ _
      rw [hrad, LensSpec.brownPoly, mul_div_cancel_left₀ _ hr0]
      exact hy

open LensModel Rounded in
/-- **C188** The distortion of an ABC lens with rounding errors. -/
theorem C188_abc (spline : Spline) (I : Projection.Intr) (a b c u : ℝ) (hu : 0 ≤ u) (hu1 : u ≤ 1 / 100000) (p : V2 ℝ) (s r A : ℝ) (hs : s = min I.w I.h / 2)
    (hs0 : s ≠ 0) (hr : r = Real.sqrt (((p.x - I.cx) / s) ^ 2 + ((p.y - I.cy) / s) ^ 2)) (hA : A = 1 + |a| + |b| + |c| + |c| * r + |b| * r ^ 2 + |a| * r ^ 3)
    (out : V2 Num) (h : Distorted u (AbcRadius u a b c) ⟨s, s⟩ ⟨I.cx, I.cy⟩ p out) :
    (p = ⟨I.cx, I.cy⟩ ∧ out = V2.nan) ∨ p ≠ ⟨I.cx, I.cy⟩ ∧ ∃ q w : V2 ℝ, ((abc spline I a b c).lens.distortedFromImage p.num).Is q ∧ out.Is w ∧
      |w.x - q.x| ≤ 56 * u * A * |p.x - I.cx| + u * |I.cx| ∧ |w.y - q.y| ≤ 56 * u * A * |p.y - I.cy| + u * |I.cy| := by
  have hrad : LensSpec.radius ⟨s, s⟩ ⟨I.cx, I.cy⟩ p = r := by rw [hr]; rfl
  have hm := abc_multiplies hu hu1 a b c (show 0 ≤ r by rw [hr]; exact Real.sqrt_nonneg _)
  rw [← hA] at hm
  rcases distorted_near hu hu1 (s := ⟨s, s⟩) (o := ⟨I.cx, I.cy⟩) hs0 hs0 (hrad.symm ▸ hm) h with h | ⟨hne, w, hw, hx, hy⟩
  · exact .inl h
  · refine .inr ⟨hne, ?_⟩
    rw [hrad] at hx hy
    have hr0 : r ≠ 0 := by
      intro h0
      rw [hr] at h0
      have h0' := (Real.sqrt_eq_zero (by positivity)).1 h0
      have z1 : (p.x - I.cx) / s = 0 := by nlinarith [sq_nonneg ((p.x - I.cx) / s), sq_nonneg ((p.y - I.cy) / s)]
      have z2 : (p.y - I.cy) / s = 0 := by nlinarith [sq_nonneg ((p.x - I.cx) / s), sq_nonneg ((p.y - I.cy) / s)]
      refine hne ?_
      ext
      · exact sub_eq_zero.1 ((div_eq_zero_iff.1 z1).resolve_right hs0)
      · exact sub_eq_zero.1 ((div_eq_zero_iff.1 z2).resolve_right hs0)
    subst hs
    have ht := transform_is (L := abc spline I a b c) (V2.is_num p) hs0 hs0
      (by show LensSpec.radius ⟨min I.w I.h / 2, min I.w I.h / 2⟩ ⟨I.cx, I.cy⟩ p ≠ 0; rw [hrad]; exact hr0)
      (fun m hm => abcRadius_is (a := a) (b := b) (c := c) hm)
    have hd : LensSpec.abcPoly a b c r / r = 1 - a - b - c + c * r + b * r ^ 2 + a * r ^ 3 := by
      rw [LensSpec.abcPoly, div_eq_iff hr0]; ring
    refine ⟨_, w, ht, hw, ?_, ?_⟩
    · show |w.x - (LensSpec.abcPoly a b c (LensSpec.radius ⟨min I.w I.h / 2, min I.w I.h / 2⟩ ⟨I.cx, I.cy⟩ p) /
        LensSpec.radius ⟨min I.w I.h / 2, min I.w I.h / 2⟩ ⟨I.cx, I.cy⟩ p * (p.x - I.cx) + I.cx)| ≤ _
      rw [hrad, hd]
      exact hx
    · show |w.y - (LensSpec.abcPoly a b c (LensSpec.radius ⟨min I.w I.h / 2, min I.w I.h / 2⟩ ⟨I.cx, I.cy⟩ p) /
        LensSpec.radius ⟨min I.w I.h / 2, min I.w I.h / 2⟩ ⟨I.cx, I.cy⟩ p * (p.y - I.cy) + I.cy)| ≤ _
      rw [hrad, hd]
      exact hy

namespace Rounded

theorem BrownRadius.exists {u : ℝ} (hu : 0 ≤ u) (k1 k2 k3 r : ℝ) : ∃ F, BrownRadius u k1 k2 k3 r F :=
  ⟨_, _, _, _, _, _, _, _, _, _, Rd.exact hu _, Rd.exact hu _, Rd.exact hu _, Rd.exact hu _, Rd.exact hu _, Rd.exact hu _, Rd.exact hu _, Rd.exact hu _, Rd.exact hu _,
    Rd.exact hu _⟩

theorem AbcRadius.exists {u : ℝ} (hu : 0 ≤ u) (a b c r : ℝ) : ∃ F, AbcRadius u a b c r F :=
  ⟨_, _, _, _, _, _, _, _, _, _, _, _, _, Rd.exact hu _, Rd.exact hu _, Rd.exact hu _, Rd.exact hu _, Rd.exact hu _, Rd.exact hu _, Rd.exact hu _, Rd.exact hu _,
    Rd.exact hu _, Rd.exact hu _, Rd.exact hu _, Rd.exact hu _, Rd.exact hu _⟩

theorem Distorted.exists {u : ℝ} (hu : 0 ≤ u) {f : ℝ → ℝ → Prop} (hf : ∀ r, ∃ F, f r F) (s o p : V2 ℝ) : ∃ out, Distorted u f s o p out := by
  by_cases h : Real.sqrt (((p.x - o.x) / s.x) ^ 2 + ((p.y - o.y) / s.y) ^ 2) = 0
  · exact ⟨V2.nan, _, _, _, _, _, Rd.exact hu _, Rd.exact hu _, Rd.exact hu _, Rd.exact hu _,
      ⟨_, _, _, Rd.exact hu _, Rd.exact hu _, Rd.exact hu _, Rd.exact hu _⟩, .inl ⟨h, rfl⟩⟩
  · obtain ⟨F, hF⟩ := hf (Real.sqrt (((p.x - o.x) / s.x) ^ 2 + ((p.y - o.y) / s.y) ^ 2))
    exact ⟨V2.num ⟨_, _⟩, _, _, _, _, _, Rd.exact hu _, Rd.exact hu _, Rd.exact hu _, Rd.exact hu _,
      ⟨_, _, _, Rd.exact hu _, Rd.exact hu _, Rd.exact hu _, Rd.exact hu _⟩, .inr ⟨h, F, _, _, _, _, _, _, _, _, hF, Rd.exact hu _, Rd.exact hu _, Rd.exact hu _,
      Rd.exact hu _, Rd.exact hu _, Rd.exact hu _, Rd.exact hu _, Rd.exact hu _, V2.is_num _⟩⟩

end Rounded

open LensModel Rounded in
/-- A pixel off the centre and the centre, for a Brown lens. -/
example : (∃ out w, Distorted (1 / 2 ^ 53) (BrownRadius (1 / 2 ^ 53) (1 / 10) 0 0) ⟨100, 100⟩ ⟨50, 25⟩ ⟨60, 25⟩ out ∧ out.Is w) ∧
    Distorted (1 / 2 ^ 53) (BrownRadius (1 / 2 ^ 53) (1 / 10) 0 0) ⟨100, 100⟩ ⟨50, 25⟩ ⟨50, 25⟩ V2.nan := by
  have hu : (0 : ℝ) ≤ 1 / 2 ^ 53 := by norm_num
  constructor
  · obtain ⟨out, h⟩ := Distorted.exists hu (BrownRadius.exists hu (1 / 10) 0 0) ⟨100, 100⟩ ⟨50, 25⟩ ⟨60, 25⟩
    rcases C188_brown (fun _ _ => none) ⟨100, 100, 50, 25, 100, 50⟩ (by norm_num) (by norm_num) (1 / 10) 0 0 (1 / 2 ^ 53) hu (by norm_num) ⟨60, 25⟩ _ _ rfl rfl out h with
      ⟨h0, -⟩ | ⟨-, q, w, -, hw, -⟩
    · have := congrArg V2.x h0
      norm_num at this
    · exact ⟨out, w, h, hw⟩
  · obtain ⟨out, h⟩ := Distorted.exists hu (BrownRadius.exists hu (1 / 10) 0 0) ⟨100, 100⟩ ⟨50, 25⟩ ⟨50, 25⟩
    rcases C188_brown (fun _ _ => none) ⟨100, 100, 50, 25, 100, 50⟩ (by norm_num) (by norm_num) (1 / 10) 0 0 (1 / 2 ^ 53) hu (by norm_num) ⟨50, 25⟩ _ _ rfl rfl out h with
      ⟨-, rfl⟩ | ⟨h0, -⟩
    · exact h
    · exact absurd rfl h0

open LensModel Rounded in
/-- A pixel off the centre, for an ABC lens. -/
example : ∃ out w, Distorted (1 / 2 ^ 53) (AbcRadius (1 / 2 ^ 53) (1 / 10) 0 0) ⟨25, 25⟩ ⟨50, 25⟩ ⟨60, 25⟩ out ∧ out.Is w := by
  have hu : (0 : ℝ) ≤ 1 / 2 ^ 53 := by norm_num
  obtain ⟨out, h⟩ := Distorted.exists hu (AbcRadius.exists hu (1 / 10) 0 0) ⟨25, 25⟩ ⟨50, 25⟩ ⟨60, 25⟩
  rcases C188_abc (fun _ _ => none) ⟨100, 100, 50, 25, 100, 50⟩ (1 / 10) 0 0 (1 / 2 ^ 53) hu (by norm_num) ⟨60, 25⟩ 25 _ _ (by norm_num) (by norm_num) rfl rfl out h with
    ⟨h0, -⟩ | ⟨-, q, w, -, hw, -⟩
  · have := congrArg V2.x h0
    norm_num at this
  · exact ⟨out, w, h, hw⟩
