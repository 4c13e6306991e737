import Verif.Model.RoundedLines
import Verif.Props.Stereo
import Verif.Props.RoundDistance
import Verif.Props.RoundRay
import Verif.Props.RoundLens
import Verif.Props.RoundObject

/-! # C191: the distance between rays and the baseline with rounding errors -/

open Classical

namespace Rounded

open Projection Camera

theorem Dot.comm {u y : ℝ} {p q : V3 ℝ} (h : Dot u p q y) : Dot u q p y := by
  obtain ⟨a, b, c, h1, h2, h3, h4⟩ := h
  exact ⟨a, b, c, by rwa [mul_comm], by rwa [mul_comm], by rwa [mul_comm], h4⟩

theorem NormOf.near {u n : ℝ} {v : V3 ℝ} (hu : 0 ≤ u) (hu1 : u ≤ 1 / 100000) (h : NormOf u v n) : |n - v.norm| ≤ 401 / 100 * u * v.norm := by
  obtain ⟨s, hs, hn⟩ := h
  have h1 := hs.norm_near hu hu1
  rw [V3.dot_self, ← V3.norm_sq] at h1
  have hN := V3.norm_nonneg v
  have h2 : |Real.sqrt s - v.norm| ≤ 3001 / 1000 * u * v.norm := by
    rcases hN.eq_or_lt with h0 | h0
    · rw [← h0] at h1 ⊢
      have : s = 0 := by
        have := abs_nonpos_iff.1 (h1.trans (by simp))
        linarith
      rw [this]
      simp
    · have hs0 : 0 ≤ s := by
        have := (abs_le.1 h1).1
        nlinarith
      have hq := Real.sqrt_nonneg s
      have e : s - v.norm ^ 2 = (Real.sqrt s - v.norm) * (Real.sqrt s + v.norm) := by
        rw [show (Real.sqrt s - v.norm) * (Real.sqrt s + v.norm) = Real.sqrt s ^ 2 - v.norm ^ 2 by ring, Real.sq_sqrt hs0]
      rw [e, abs_mul, abs_of_pos (by linarith : 0 < Real.sqrt s + v.norm)] at h1
      refine le_of_mul_le_mul_right ?_ h0
      have := mul_le_mul_of_nonneg_left (by linarith : v.norm ≤ Real.sqrt s + v.norm) (abs_nonneg (Real.sqrt s - v.norm))
      linarith
  have h3 : |Real.sqrt s| ≤ v.norm + 3001 / 1000 * u * v.norm := abs_close h2 (le_of_eq (abs_of_nonneg hN))
  refine (rd_close hu hn h2 h3).trans ?_
  have h4 : 0 ≤ u * v.norm := mul_nonneg hu hN
  have : u * (u * v.norm) ≤ 1 / 100000 * (u * v.norm) := mul_le_mul_of_nonneg_right hu1 h4
  linarith

theorem cross_coord {u a b x y z : ℝ} (hu : 0 ≤ u) (hu1 : u ≤ 1 / 100000) (ha : Rd u x a) (hb : Rd u y b) (hz : Rd u (a - b) z) :
    |z - (x - y)| ≤ 2001 / 1000 * u * (|x| + |y|) := by
  obtain ⟨e, he, rfl⟩ := ha.form hu
  obtain ⟨f, hf, rfl⟩ := hb.form hu
  obtain ⟨g, hg, rfl⟩ := hz.form hu
  have h1 : |e * g - 1| ≤ 2001 / 1000 * u := (fac_mul he hg).trans (by nlinarith)
  have h2 : |f * g - 1| ≤ 2001 / 1000 * u := (fac_mul hf hg).trans (by nlinarith)
  rw [show (x * e - y * f) * g - (x - y) = x * (e * g - 1) - y * (f * g - 1) by ring]
  refine (abs_sub _ _).trans ?_
  rw [abs_mul, abs_mul]
  have t1 := mul_le_mul_of_nonneg_left h1 (abs_nonneg x)
  have t2 := mul_le_mul_of_nonneg_left h2 (abs_nonneg y)
  linarith

theorem Cross.near {u : ℝ} {v w c : V3 ℝ} (hu : 0 ≤ u) (hu1 : u ≤ 1 / 100000) (h : Cross u v w c) : (c - v.cross w).norm ≤ 3 * u * (v.norm * w.norm) := by
  obtain ⟨a1, a2, a3, a4, a5, a6, h1, h2, h3, h4, h5, h6, k1, k2, k3⟩ := h
  have c1 := cross_coord hu hu1 h1 h2 k1
  have c2 := cross_coord hu hu1 h3 h4 k2
  have c3 := cross_coord hu hu1 h5 h6 k3
  have sq : ∀ {z X a b c d : ℝ}, |z| ≤ 2001 / 1000 * u * (|a * b| + |c * d|) → X = (a ^ 2 + c ^ 2) * (b ^ 2 + d ^ 2) → z ^ 2 ≤ (2001 / 1000 * u) ^ 2 * X := by
    intro z X a b c d hz hX
    have h1 : z ^ 2 ≤ (2001 / 1000 * u * (|a * b| + |c * d|)) ^ 2 := by rw [← sq_abs z]; exact pow_le_pow_left₀ (abs_nonneg _) hz 2
    have h2 : (|a * b| + |c * d|) ^ 2 ≤ X := by
      rw [abs_mul, abs_mul, hX, ← sq_abs a, ← sq_abs b, ← sq_abs c, ← sq_abs d]
      nlinarith [sq_nonneg (|a| * |d| - |c| * |b|)]
    rw [mul_pow] at h1
    exact h1.trans (mul_le_mul_of_nonneg_left h2 (sq_nonneg _))
  have q1 := sq c1 rfl
  have q2 := sq c2 rfl
  have q3 := sq c3 rfl
  have hn := V3.norm_nonneg v
  have hm := V3.norm_nonneg w
  refine Real.sqrt_le_iff.2 ⟨by positivity, ?_⟩
  have e : (c - v.cross w).normSq = (c.x - (v.y * w.z - v.z * w.y)) ^ 2 + (c.y - (v.z * w.x - v.x * w.z)) ^ 2 + (c.z - (v.x * w.y - v.y * w.x)) ^ 2 := by
    simp only [V3.normSq, V3.cross, V3.sub_x, V3.sub_y, V3.sub_z]
  rw [e, mul_pow, mul_pow, mul_pow, V3.norm_sq, V3.norm_sq]
  have hX : (v.y ^ 2 + v.z ^ 2) * (w.z ^ 2 + w.y ^ 2) + (v.z ^ 2 + v.x ^ 2) * (w.x ^ 2 + w.z ^ 2) + (v.x ^ 2 + v.y ^ 2) * (w.y ^ 2 + w.x ^ 2) ≤ 2 * (v.normSq * w.normSq) := by
    unfold V3.normSq
    have : 0 ≤ v.x ^ 2 * w.y ^ 2 + v.x ^ 2 * w.z ^ 2 + v.y ^ 2 * w.x ^ 2 + v.y ^ 2 * w.z ^ 2 + v.z ^ 2 * w.x ^ 2 + v.z ^ 2 * w.y ^ 2 := by positivity
    linarith
  have hXu := mul_le_mul_of_nonneg_left hX (sq_nonneg (2001 / 1000 * u))
  have : 0 ≤ u ^ 2 * (v.normSq * w.normSq) := mul_nonneg (sq_nonneg _) (mul_nonneg (V3.normSq_nonneg _) (V3.normSq_nonneg _))
  linarith

theorem norm_diff (a b : V3 ℝ) : |a.norm - b.norm| ≤ (a - b).norm := by
  have h1 := nrm_add b (a - b)
  have h2 := nrm_add a ((a - b).mulS (-1))
  rw [show b + (a - b) = a by ext <;> simp] at h1
  rw [show a + (a - b).mulS (-1) = b by ext <;> simp, nrm_mulS, abs_neg, _root_.abs_one, one_mul] at h2
  rw [abs_le]
  constructor <;> linarith

/-- A quotient of numbers with errors. -/
theorem quot_near {u a a' b b' w α β out : ℝ} (hu : 0 ≤ u) (ha : |a' - a| ≤ α) (hb : |b' - b| ≤ β) (hb0 : 0 < b) (hb' : 0 < b') (hw : |a / b| ≤ w)
    (h : Rd u (a' / b') out) : |out - a / b| ≤ (α + w * β) / b' * (1 + u) + u * w := by
  have h1 : |a' / b' - a / b| ≤ (α + w * β) / b' := by
    rw [show a' / b' - a / b = ((a' - a) + a / b * (b - b')) / b' by field_simp; ring, abs_div, abs_of_pos hb']
    refine div_le_div_of_nonneg_right ?_ hb'.le
    refine (abs_add_le _ _).trans (add_le_add ha ?_)
    rw [abs_mul, abs_sub_comm b b']
    exact mul_le_mul hw hb (abs_nonneg _) ((abs_nonneg _).trans hw)
  have h2 := abs_close h1 hw
  have := rd_close hu h h1 h2
  linarith

theorem dist_sub (P1 P2 : V3 ℝ) : (P2 - P1).norm = P1.dist P2 := by
  unfold V3.dist V3.norm
  congr 1
  simp only [V3.normSq, V3.sub_x, V3.sub_y, V3.sub_z]
  ring

theorem dist_unique {o d o' d' : V3 ℝ} {D E : ℝ} (h : Geo.IsDistLineLine o d o' d' D) (h' : Geo.IsDistLineLine o d o' d' E) : D = E := by
  obtain ⟨⟨s, t, h1⟩, h2⟩ := h
  obtain ⟨⟨s', t', h1'⟩, h2'⟩ := h'
  exact le_antisymm (h1' ▸ h2 s' t') (h1 ▸ h2' s t)

end Rounded

open Rounded in
/-- **C191** The distance of two lines that are not parallel, with rounding errors.  The error grows with the inverse of the sine of the angle between the lines. -/
theorem C191_skew (u : ℝ) (hu : 0 ≤ u) (hu1 : u ≤ 1 / 100000) (P1 V1 P2 V2 : V3 ℝ) (D S : ℝ) (hD : Geo.IsDistLineLine P1 V1 P2 V2 D) (hS : S = V1.norm * V2.norm)
    (h1 : 20 * u * S ≤ (V1.cross V2).norm) (h2 : 1 / 10 ^ 8 + 8 * u * S < (V1.cross V2).norm) (out : ℝ) (h : TwoLines u P1 V1 P2 V2 out) :
    |out - D| ≤ 25 * u * P1.dist P2 * (S / (V1.cross V2).norm) := by
  have hS0 : 0 ≤ S := by rw [hS]; exact mul_nonneg (V3.norm_nonneg _) (V3.norm_nonneg _)
  have huS : 0 ≤ u * S := mul_nonneg hu hS0
  have huuS : u * (u * S) ≤ 1 / 100000 * (u * S) := mul_le_mul_of_nonneg_right hu1 huS
  obtain ⟨C, hC⟩ : ∃ C, C = V1.cross V2 := ⟨_, rfl⟩
  have hCS : C.norm ≤ S := by rw [hC, hS]; exact nrm_cross _ _
  rw [← hC] at h1 h2 ⊢
  have hC0 : 0 < C.norm := by linarith [(by norm_num : (0 : ℝ) < 1 / 10 ^ 8)]
  have hne : V1.cross V2 ≠ ⟨0, 0, 0⟩ := by
    intro h0
    rw [← hC] at h0
    rw [h0, V3.norm_eq_zero.2 rfl] at hC0
    exact lt_irrefl _ hC0
  have eD := dist_unique hD (Ray.skew_dist P1 V1 P2 V2 hne)
  rw [← hC] at eD
  obtain ⟨W, hW⟩ : ∃ W, W = P2 - P1 := ⟨_, rfl⟩
  have hw : W.norm = P1.dist P2 := by rw [hW]; exact dist_sub _ _
  have hw0 := V3.norm_nonneg W
  rw [← hW] at eD
  rw [← hw]
  obtain ⟨d, c, n, d1, d2, d3, hc, hn, h⟩ := h
  have kc := hc.near hu hu1
  rw [← hC, ← hS] at kc
  have kcn := (norm_diff c C).trans kc
  have kn := hn.near hu hu1
  have hcS : c.norm ≤ S + 3 * u * S := by linarith [(abs_le.1 kcn).2]
  have kn' : |n - C.norm| ≤ 71 / 10 * (u * S) := by
    have t1 := abs_sub_le n c.norm C.norm
    have t2 := mul_le_mul_of_nonneg_left hcS (by positivity : 0 ≤ 401 / 100 * u)
    linarith
  have hnlo : 64 / 100 * C.norm ≤ n := by linarith [(abs_le.1 kn').1]
  have hn0 : 0 < n := by linarith
  rw [if_neg (not_le.2 (by linarith [(abs_le.1 kn').1]))] at h
  obtain ⟨p, hp, ho⟩ := h
  have kp : |p - W.dot C| ≤ 71 / 10 * (u * S) * W.norm := by
    have t1 := hp.comm.diff_near (q := W) hu hu1 (by rw [hW]; exact d1) (by rw [hW]; exact d2) (by rw [hW]; exact d3)
    have t2 := Ray.abs_dot_le W (c - C)
    have e : W.dot (c - C) = c.dot W - W.dot C := by simp only [V3.dot, V3.sub_x, V3.sub_y, V3.sub_z]; ring
    rw [e] at t2
    have t3 := mul_le_mul_of_nonneg_left kc hw0
    have t4 := abs_sub_le p (c.dot W) (W.dot C)
    have t5 := mul_le_mul_of_nonneg_right hcS hw0
    have t6 := mul_le_mul_of_nonneg_left t5 (by positivity : 0 ≤ 4002 / 1000 * u)
    have t7 := mul_le_mul_of_nonneg_right huuS hw0
    have t8 : 0 ≤ u * S * W.norm := mul_nonneg huS hw0
    linarith
  have kp' : abs (|p| - |W.dot C|) ≤ 71 / 10 * (u * S) * W.norm := (abs_abs_sub_abs_le _ _).trans kp
  have hDw : |(|W.dot C| / C.norm)| ≤ W.norm := by
    rw [abs_div, abs_abs, abs_of_pos hC0, div_le_iff₀ hC0]
    exact Ray.abs_dot_le _ _
  have hq := quot_near hu kp' kn' hC0 hn0 hDw ho
  rw [← eD] at hq
  refine hq.trans ?_
  obtain ⟨X, hX⟩ : ∃ X, X = u * W.norm * (S / C.norm) := ⟨_, rfl⟩
  have hX0 : 0 ≤ X := by rw [hX]; positivity
  have hu' : u * W.norm ≤ X := by
    rw [hX]
    exact le_mul_of_one_le_right (by positivity) ((one_le_div hC0).2 hCS)
  have hq1 : (71 / 10 * (u * S) * W.norm + W.norm * (71 / 10 * (u * S))) / n ≤ 2220 / 100 * X := by
    rw [div_le_iff₀ hn0]
    have e : X * C.norm = u * S * W.norm := by rw [hX]; field_simp
    have t : X * (64 / 100 * C.norm) ≤ X * n := mul_le_mul_of_nonneg_left hnlo hX0
    have t' : 0 ≤ u * S * W.norm := mul_nonneg huS hw0
    linarith
  have hXu : X * u ≤ X * (1 / 100000) := mul_le_mul_of_nonneg_left hu1 hX0
  have hq2 := mul_le_mul_of_nonneg_right hq1 (by linarith : 0 ≤ 1 + u)
  rw [show 25 * u * W.norm * (S / C.norm) = 25 * X by rw [hX]; ring]
  linarith

theorem Rounded.sub_norm_near {u : ℝ} (hu : 0 ≤ u) {W d : V3 ℝ} (d1 : Rounded.Rd u W.x d.x) (d2 : Rounded.Rd u W.y d.y) (d3 : Rounded.Rd u W.z d.z) :
    (d - W).norm ≤ u * W.norm := by
  have hw0 := V3.norm_nonneg W
  refine Real.sqrt_le_iff.2 ⟨by positivity, ?_⟩
  rw [mul_pow, V3.norm_sq]
  have sq : ∀ {x y : ℝ}, Rounded.Rd u x y → (y - x) ^ 2 ≤ u ^ 2 * x ^ 2 := by
    intro x y h
    rw [← sq_abs (y - x), ← sq_abs x, ← mul_pow]
    exact pow_le_pow_left₀ (abs_nonneg _) h 2
  have s1 := sq d1
  have s2 := sq d2
  have s3 := sq d3
  simp only [V3.normSq, V3.sub_x, V3.sub_y, V3.sub_z]
  linarith

open Rounded in
/-- The distance of a point from a line, computed from a rounded difference `d` of the two points. -/
theorem Rounded.point_line {u : ℝ} (hu : 0 ≤ u) (hu1 : u ≤ 1 / 100000) {W V1 d k : V3 ℝ} {n1 m out : ℝ} (d1 : Rd u W.x d.x) (d2 : Rd u W.y d.y) (d3 : Rd u W.z d.z)
    (hN : 0 < V1.norm) (hn1 : NormOf u V1 n1) (hk : Cross u d V1 k) (hm : NormOf u k m) (ho : Rd u (m / n1) out) :
    |out - (W.cross V1).norm / V1.norm| ≤ 14 * u * W.norm := by
  have hw0 := V3.norm_nonneg W
  have kn1 := hn1.near hu hu1
  have hn1lo : (1 - 5 * u) * V1.norm ≤ n1 := by linarith [(abs_le.1 kn1).1, mul_nonneg hu hN.le]
  have kd : (d - W).norm ≤ u * W.norm := sub_norm_near hu d1 d2 d3
  have kdn := (abs_le.1 ((norm_diff d W).trans kd)).2
  obtain ⟨Y, hY⟩ : ∃ Y, Y = W.norm * V1.norm := ⟨_, rfl⟩
  have hY0 : 0 ≤ Y := by rw [hY]; positivity
  have huY : 0 ≤ u * Y := mul_nonneg hu hY0
  have huuY : u * (u * Y) ≤ 1 / 100000 * (u * Y) := mul_le_mul_of_nonneg_right hu1 huY
  have kk : (k - W.cross V1).norm ≤ 401 / 100 * (u * Y) := by
    have t1 := hk.near hu hu1
    have t2 := nrm_cross (d - W) V1
    have t3 := nrm_add (k - d.cross V1) ((d - W).cross V1)
    rw [show k - d.cross V1 + (d - W).cross V1 = k - W.cross V1 by ext <;> simp [V3.cross] <;> ring] at t3
    have t4 := mul_le_mul_of_nonneg_right kd hN.le
    have t5 := mul_le_mul_of_nonneg_right (by linarith : d.norm ≤ W.norm + u * W.norm) hN.le
    have t6 := mul_le_mul_of_nonneg_left t5 (by positivity : 0 ≤ 3 * u)
    rw [hY] at huuY huY ⊢
    linarith
  have kkn := (norm_diff k (W.cross V1)).trans kk
  have hWV : (W.cross V1).norm ≤ Y := by rw [hY]; exact nrm_cross _ _
  have km : |m - (W.cross V1).norm| ≤ 81 / 10 * (u * Y) := by
    have t1 := hm.near hu hu1
    have t2 : k.norm ≤ Y + 401 / 100 * (u * Y) := by linarith [(abs_le.1 kkn).2]
    have t3 := mul_le_mul_of_nonneg_left t2 (by positivity : 0 ≤ 401 / 100 * u)
    have t4 := abs_sub_le m k.norm (W.cross V1).norm
    linarith
  have hDw : |(W.cross V1).norm / V1.norm| ≤ W.norm := by
    rw [abs_div, abs_of_pos hN, abs_of_nonneg (V3.norm_nonneg _), div_le_iff₀ hN, ← hY]
    exact hWV
  have hn10 : 0 < n1 := lt_of_lt_of_le (mul_pos (by linarith) hN) hn1lo
  have hq := quot_near hu km kn1 hN hn10 hDw ho
  refine hq.trans ?_
  have huw : 0 ≤ u * W.norm := by positivity
  have hq1 : (81 / 10 * (u * Y) + W.norm * (401 / 100 * u * V1.norm)) / n1 ≤ 122 / 10 * (u * W.norm) := by
    rw [div_le_iff₀ hn10, hY]
    have t1 := mul_le_mul_of_nonneg_left hn1lo (by positivity : 0 ≤ 122 / 10 * (u * W.norm))
    have t2 : u * (u * W.norm * V1.norm) ≤ 1 / 100000 * (u * W.norm * V1.norm) := mul_le_mul_of_nonneg_right hu1 (by positivity)
    have t3 : 0 ≤ u * W.norm * V1.norm := by positivity
    linarith
  have hq2 := mul_le_mul_of_nonneg_right hq1 (by linarith : 0 ≤ 1 + u)
  have hq3 : u * (u * W.norm) ≤ 1 / 100000 * (u * W.norm) := mul_le_mul_of_nonneg_right hu1 huw
  linarith

open Rounded in
/-- **C191** The distance of two parallel lines with rounding errors. -/
theorem C191_parallel (u : ℝ) (hu : 0 ≤ u) (hu1 : u ≤ 1 / 100000) (P1 V1 P2 V2 : V3 ℝ) (D : ℝ) (hD : Geo.IsDistLineLine P1 V1 P2 V2 D)
    (hx : V1.cross V2 = ⟨0, 0, 0⟩) (h1 : 31 / 10 * u * (V1.norm * V2.norm) ≤ 1 / 10 ^ 8) (h2 : 1 / 10 ^ 8 < (1 - 5 * u) * V1.norm) (out : ℝ)
    (h : TwoLines u P1 V1 P2 V2 out) : |out - D| ≤ 14 * u * P1.dist P2 := by
  have hN : 0 < V1.norm := by
    by_contra h0
    have := mul_nonpos_of_nonneg_of_nonpos (by linarith : 0 ≤ 1 - 5 * u) (not_lt.1 h0)
    linarith [(by norm_num : (0 : ℝ) < 1 / 10 ^ 8)]
  have hne : V1 ≠ ⟨0, 0, 0⟩ := by
    intro h0
    rw [h0, V3.norm_eq_zero.2 rfl] at hN
    exact lt_irrefl _ hN
  have eD := dist_unique hD (Ray.parallel_dist P1 V1 P2 V2 hx hne)
  obtain ⟨W, hW⟩ : ∃ W, W = P2 - P1 := ⟨_, rfl⟩
  have hw : W.norm = P1.dist P2 := by rw [hW]; exact dist_sub _ _
  have hw0 := V3.norm_nonneg W
  rw [← hW] at eD
  rw [← hw]
  obtain ⟨d, c, n, d1, d2, d3, hc, hn, h⟩ := h
  have kc := hc.near hu hu1
  have ec : (c - V1.cross V2).norm = c.norm := by rw [hx]; congr 1; ext <;> simp
  rw [ec] at kc
  have kn := hn.near hu hu1
  have hS0 : 0 ≤ V1.norm * V2.norm := mul_nonneg hN.le (V3.norm_nonneg _)
  have hnle : n ≤ 1 / 10 ^ 8 := by
    have t1 := (abs_le.1 kn).2
    have t2 := mul_le_mul_of_nonneg_left kc (by positivity : 0 ≤ 1 + 401 / 100 * u)
    have t3 := mul_le_mul_of_nonneg_right hu1 (mul_nonneg hu hS0)
    have t4 := mul_nonneg hu hS0
    linarith
  rw [if_pos hnle] at h
  obtain ⟨n1, hn1, h⟩ := h
  have kn1 := hn1.near hu hu1
  have hn1lo : (1 - 5 * u) * V1.norm ≤ n1 := by linarith [(abs_le.1 kn1).1, mul_nonneg hu hN.le]
  rw [if_neg (not_le.2 (by linarith))] at h
  obtain ⟨k, m, hk, hm, ho⟩ := h
  rw [eD]
  exact point_line hu hu1 (by rw [hW]; exact d1) (by rw [hW]; exact d2) (by rw [hW]; exact d3) hN hn1 hk hm ho

open Rounded in
/-- **C191** A direction without length: the line is a point, and the result is its distance from the other line, or from the other point. -/
theorem C191_point (u : ℝ) (hu : 0 ≤ u) (hu1 : u ≤ 1 / 100000) (P1 P2 V2 : V3 ℝ) (D : ℝ) (hD : Geo.IsDistLineLine P1 ⟨0, 0, 0⟩ P2 V2 D)
    (h2 : 1 / 10 ^ 8 < (1 - 5 * u) * V2.norm ∨ V2 = ⟨0, 0, 0⟩) (out : ℝ) (h : TwoLines u P1 ⟨0, 0, 0⟩ P2 V2 out) : |out - D| ≤ 14 * u * P1.dist P2 := by
  have z0 : (⟨0, 0, 0⟩ : V3 ℝ).norm = 0 := V3.norm_eq_zero.2 rfl
  have zn : ∀ {w : V3 ℝ} {n : ℝ}, w.norm ≤ 0 → NormOf u w n → n ≤ 1 / 10 ^ 8 := by
    intro w n hw hn
    have h0 : w.norm = 0 := le_antisymm hw (V3.norm_nonneg _)
    have := hn.near hu hu1
    rw [h0, mul_zero, sub_zero] at this
    have := (abs_le.1 this).2
    linarith [(by norm_num : (0 : ℝ) < 1 / 10 ^ 8)]
  obtain ⟨W, hW⟩ : ∃ W, W = P2 - P1 := ⟨_, rfl⟩
  have hw : W.norm = P1.dist P2 := by rw [hW]; exact dist_sub _ _
  have hw0 := V3.norm_nonneg W
  rw [← hw]
  obtain ⟨d, c, n, d1, d2, d3, hc, hn, h⟩ := h
  have kc := hc.near hu hu1
  have ex : (⟨0, 0, 0⟩ : V3 ℝ).cross V2 = ⟨0, 0, 0⟩ := by simp [V3.cross]
  rw [ex, show c - (⟨0, 0, 0⟩ : V3 ℝ) = c by ext <;> simp, z0, zero_mul, mul_zero] at kc
  rw [if_pos (zn kc hn)] at h
  obtain ⟨n1, hn1, h⟩ := h
  rw [if_pos (zn z0.le hn1)] at h
  obtain ⟨n2, hn2, h⟩ := h
  rcases h2 with h2 | h2
  · have hN : 0 < V2.norm := by
      by_contra h0
      have := mul_nonpos_of_nonneg_of_nonpos (by linarith : 0 ≤ 1 - 5 * u) (not_lt.1 h0)
      linarith [(by norm_num : (0 : ℝ) < 1 / 10 ^ 8)]
    have hne : V2 ≠ ⟨0, 0, 0⟩ := by
      intro h0
      rw [h0, z0] at hN
      exact lt_irrefl _ hN
    have kn2 := hn2.near hu hu1
    rw [if_neg (not_le.2 (by linarith [(abs_le.1 kn2).1, mul_nonneg hu hN.le]))] at h
    obtain ⟨k, m, hk, hm, ho⟩ := h
    have hs := (Ray.parallel_dist P2 V2 P1 ⟨0, 0, 0⟩ (by simp [V3.cross]) hne).symm
    have e : ((P1 - P2).cross V2).norm = ((P2 - P1).cross V2).norm := by
      unfold V3.norm; congr 1; simp only [V3.normSq, V3.cross, V3.sub_x, V3.sub_y, V3.sub_z]; ring
    rw [e] at hs
    rw [dist_unique hD hs, ← hW]
    exact point_line hu hu1 (by rw [hW]; exact d1) (by rw [hW]; exact d2) (by rw [hW]; exact d3) hN hn2 hk hm ho
  · rw [h2] at hD hn2
    rw [if_pos (zn z0.le hn2)] at h
    obtain ⟨⟨s, t, hD⟩, -⟩ := hD
    have eD : D = W.norm := by
      rw [hw, ← hD]
      congr 1 <;> (ext <;> simp [Geo.at'])
    rw [eD]
    have kd : (d - W).norm ≤ u * W.norm := sub_norm_near hu (by rw [hW]; exact d1) (by rw [hW]; exact d2) (by rw [hW]; exact d3)
    have kdn := (norm_diff d W).trans kd
    have ko := h.near hu hu1
    have t1 := abs_sub_le out d.norm W.norm
    have t2 := mul_le_mul_of_nonneg_left (by linarith [(abs_le.1 kdn).2] : d.norm ≤ W.norm + u * W.norm) (by positivity : 0 ≤ 401 / 100 * u)
    have t3 : u * (u * W.norm) ≤ 1 / 100000 * (u * W.norm) := mul_le_mul_of_nonneg_right hu1 (by positivity)
    have t4 : 0 ≤ u * W.norm := by positivity
    linarith

open Rounded Stereo in
/-- **C191** `getBaseline` with rounding errors. -/
theorem C191_baseline (c1 c2 : Camera.Cam) (u : ℝ) (hu : 0 ≤ u) (hu1 : u ≤ 1 / 100000) (out : ℝ) (h : Baseline u c1.orient.pos c2.orient.pos out) :
    ∃ L, Num.Is (getBaseline c1 c2) L ∧ |out - L| ≤ 8 * u * L := by
  obtain ⟨a, b, h1, h2, h⟩ := h
  obtain ⟨e, he, rfl⟩ := h1.fac hu
  obtain ⟨f, hf, rfl⟩ := h2.fac hu
  obtain ⟨g, hg, -, rfl⟩ := h.fac hu hu1 (he.le hu (by norm_num)) (hf.le hu (by norm_num))
  refine ⟨Real.sqrt ((c1.orient.pos.x - c2.orient.pos.x) ^ 2 + (c1.orient.pos.y - c2.orient.pos.y) ^ 2), ?_, ?_⟩
  · exact ((((Num.is_fin _).sub (Num.is_fin _)).npow 2).add (((Num.is_fin _).sub (Num.is_fin _)).npow 2)).sqrt (by positivity)
  · have t := hg.term (x := Real.sqrt ((c1.orient.pos.x - c2.orient.pos.x) ^ 2 + (c1.orient.pos.y - c2.orient.pos.y) ^ 2))
    rw [abs_of_nonneg (Real.sqrt_nonneg _)] at t
    refine t.trans (mul_le_mul_of_nonneg_right ?_ (Real.sqrt_nonneg _))
    have h2 : u ^ 2 ≤ 1 / 100000 * u := by nlinarith
    have h3 : u ^ 3 ≤ 1 / 100000 * u := by nlinarith
    have e : (1 + u) ^ 7 - 1 = 7 * u + 21 * u ^ 2 + u ^ 3 * (35 + 35 * u + 21 * u ^ 2 + 7 * u ^ 3 + u ^ 4) := by ring
    have h4 : 35 + 35 * u + 21 * u ^ 2 + 7 * u ^ 3 + u ^ 4 ≤ 100 := by
      have : u ^ 4 ≤ 1 := pow_le_one₀ hu (by linarith)
      nlinarith
    have h5 := mul_le_mul_of_nonneg_left h4 (by positivity : 0 ≤ u ^ 3)
    rw [e]
    linarith

open Projection Rounded Camera in
/-- The computed direction of a normed ray is near the true one. -/
theorem Rounded.direction_unit_near (I : Intr) (hfx : I.fx ≠ 0) (hfy : I.fy ≠ 0) {u e : ℝ} (hu : 0 ≤ u) (hu1 : u ≤ 1 / 600000) (he1 : e ≤ 1 / 1000) (o : Orient)
    (Rinv : M3) (hR : Near e Rinv o.mat.Rinv) (p : V2 ℝ) (v E : V3 ℝ) (hv : Direction u I Rinv p true v)
    (hE : (getRay ⟨.rectilinear, I, o, noDistortion⟩ p.num true).2.Is E) : (v - E).norm ≤ 31 / 10 * (e + 36 * u) ∧ E.norm = 1 := by
  have he : 0 ≤ e := (abs_nonneg _).trans hR.1
  obtain ⟨r, hr⟩ : ∃ r, r = rayR .rectilinear I p := ⟨_, rfl⟩
  have hpos : 0 < r.norm := by rw [hr]; exact ray_norm_pos I p
  have hj := direction_normed_near I hu hu1 he1 o Rinv hR p v r hr hv
  obtain ⟨s, -, -, hs, hdir⟩ := getRay_dir ⟨.rectilinear, I, o, noDistortion⟩ hfx hfy (V2.is_num p) true
  have hinv : o.mat.Rinv = o.mat.R.T := by cases o <;> exact Spatial.inv_rot _ _ _
  have hdr : dirR ⟨.rectilinear, I, o, noDistortion⟩ p = o.mat.Rinv.applyR r := by rw [hinv, hr]; rfl
  have hnorm : (dirR ⟨.rectilinear, I, o, noDistortion⟩ p).norm = r.norm := by
    rw [hr]
    unfold dirR V3.norm
    rw [M3.normSq_applyR (A := o.mat.R.T) (rigid_mat o).RT]
  have hsr : s = 1 / r.norm := by rw [hs rfl, hnorm]
  have eE := hE.unique hdir
  have hN : size r / r.norm ≤ 7 / 4 := by
    rw [div_le_iff₀ hpos]
    exact size_le_norm r
  have hb : (e + 36 * u) * (size r / r.norm) ≤ 7 / 4 * (e + 36 * u) := by
    have := mul_le_mul_of_nonneg_left hN (by positivity : 0 ≤ e + 36 * u)
    linarith
  have sq : ∀ {x : ℝ}, |x| ≤ (e + 36 * u) * (size r / r.norm) → x ^ 2 ≤ (7 / 4 * (e + 36 * u)) ^ 2 := by
    intro x hx
    rw [← sq_abs x]
    exact pow_le_pow_left₀ (abs_nonneg _) (hx.trans hb) 2
  have x1 : E.x = (o.mat.Rinv.applyR r).x / r.norm := by rw [eE, hdr, hsr]; show _ * _ = _; ring
  have x2 : E.y = (o.mat.Rinv.applyR r).y / r.norm := by rw [eE, hdr, hsr]; show _ * _ = _; ring
  have x3 : E.z = (o.mat.Rinv.applyR r).z / r.norm := by rw [eE, hdr, hsr]; show _ * _ = _; ring
  have s1 : (v.x - E.x) ^ 2 ≤ (7 / 4 * (e + 36 * u)) ^ 2 := by rw [x1]; exact sq (hj 0).1
  have s2 : (v.y - E.y) ^ 2 ≤ (7 / 4 * (e + 36 * u)) ^ 2 := by rw [x2]; exact sq (hj 1).1
  have s3 : (v.z - E.z) ^ 2 ≤ (7 / 4 * (e + 36 * u)) ^ 2 := by rw [x3]; exact sq (hj 2).1
  constructor
  · refine Real.sqrt_le_iff.2 ⟨by positivity, ?_⟩
    show (v.x - E.x) ^ 2 + (v.y - E.y) ^ 2 + (v.z - E.z) ^ 2 ≤ _
    have : 0 ≤ (e + 36 * u) ^ 2 := sq_nonneg _
    linarith
  · rw [eE, nrm_mulS, hnorm, hsr, abs_of_pos (by positivity)]
    field_simp

open Projection Rounded Camera in
/-- **C191** The distance between the rays of two cameras that belong to two pixels, with rounding errors: `D` is the distance of the exact rays, `s` the sine of the
angle between them. -/
theorem C191_cameras (I1 I2 : Intr) (hfx1 : I1.fx ≠ 0) (hfy1 : I1.fy ≠ 0) (hfx2 : I2.fx ≠ 0) (hfy2 : I2.fy ≠ 0) (u e : ℝ) (hu : 0 ≤ u) (hu1 : u ≤ 1 / 600000)
    (he1 : e ≤ 1 / 1000) (o1 o2 : Orient) (Rinv1 Rinv2 : M3) (hR1 : Near e Rinv1 o1.mat.Rinv) (hR2 : Near e Rinv2 o2.mat.Rinv) (p1 p2 : V2 ℝ) (E1 E2 : V3 ℝ)
    (hE1 : (getRay ⟨.rectilinear, I1, o1, noDistortion⟩ p1.num true).2.Is E1) (hE2 : (getRay ⟨.rectilinear, I2, o2, noDistortion⟩ p2.num true).2.Is E2)
    (D s : ℝ) (hD : Geo.IsDistLineLine o1.pos E1 o2.pos E2 D) (hs : s = (E1.cross E2).norm) (hbig : 2 / 10 ^ 8 + 20 * (e + 36 * u) ≤ s) (out : ℝ)
    (h : BetweenRays u I1 o1.pos Rinv1 p1 I2 o2.pos Rinv2 p2 out) : |out - D| ≤ (19 * e + 710 * u) * (o1.pos.dist o2.pos / s) := by
  have he : 0 ≤ e := (abs_nonneg _).trans hR1.1
  obtain ⟨v1, v2, k1, k2, h⟩ := h
  obtain ⟨n1, u1⟩ := direction_unit_near I1 hfx1 hfy1 hu hu1 he1 o1 Rinv1 hR1 p1 v1 E1 k1 hE1
  obtain ⟨n2, u2⟩ := direction_unit_near I2 hfx2 hfy2 hu hu1 he1 o2 Rinv2 hR2 p2 v2 E2 k2 hE2
  obtain ⟨g, hg⟩ : ∃ g, g = e + 36 * u := ⟨_, rfl⟩
  have hg0 : 0 ≤ g := by rw [hg]; positivity
  have hg1 : g ≤ 107 / 100000 := by rw [hg]; linarith
  rw [← hg] at n1 n2 hbig
  have m1 := (norm_diff v1 E1).trans n1
  have m2 := (norm_diff v2 E2).trans n2
  rw [u1] at m1
  rw [u2] at m2
  have a1 := abs_le.1 m1
  have a2 := abs_le.1 m2
  have v10 := V3.norm_nonneg v1
  have v20 := V3.norm_nonneg v2
  have hcr : (v1.cross v2 - E1.cross E2).norm ≤ 624 / 100 * g := by
    have t1 := nrm_cross (v1 - E1) v2
    have t2 := nrm_cross E1 (v2 - E2)
    have t3 := nrm_add ((v1 - E1).cross v2) (E1.cross (v2 - E2))
    rw [show (v1 - E1).cross v2 + E1.cross (v2 - E2) = v1.cross v2 - E1.cross E2 by ext <;> simp [V3.cross] <;> ring] at t3
    rw [u1, one_mul] at t2
    have t4 := mul_le_mul n1 (by linarith : v2.norm ≤ 1 + 332 / 100000) v20 (by positivity)
    linarith
  have hcd := (norm_diff _ _).trans hcr
  rw [← hs] at hcd
  have hlo : 68 / 100 * s + 1 / 10 ^ 8 / 2 ≤ (v1.cross v2).norm := by
    have := (abs_le.1 hcd).1
    linarith [(by norm_num : (0 : ℝ) < 1 / 10 ^ 8)]
  have hs0 : 0 < s := by linarith [(by norm_num : (0 : ℝ) < 1 / 10 ^ 8)]
  have hC0 : 0 < (v1.cross v2).norm := by linarith [(by norm_num : (0 : ℝ) < 1 / 10 ^ 8)]
  have hne : ∀ {w : V3 ℝ}, 0 < w.norm → w ≠ ⟨0, 0, 0⟩ := by
    intro w hw h0
    rw [h0, V3.norm_eq_zero.2 rfl] at hw
    exact lt_irrefl _ hw
  have hS : v1.norm * v2.norm ≤ 101 / 100 := by
    have := mul_le_mul (by linarith : v1.norm ≤ 1 + 332 / 100000) (by linarith : v2.norm ≤ 1 + 332 / 100000) v20 (by norm_num)
    linarith
  have hS0 : 0 ≤ v1.norm * v2.norm := mul_nonneg v10 v20
  have huS := mul_le_mul_of_nonneg_left hS hu
  have hgu : 36 * u ≤ g := by rw [hg]; linarith
  have eD := dist_unique hD (Ray.skew_dist o1.pos E1 o2.pos E2 (hne (by rw [← hs]; exact hs0)))
  rw [← hs] at eD
  have hsk := C191_skew u hu (by linarith) o1.pos v1 o2.pos v2 _ _ (Ray.skew_dist _ _ _ _ (hne hC0)) rfl (by linarith)
    (by linarith [(by norm_num : (0 : ℝ) < 1 / 10 ^ 8)]) out h
  obtain ⟨W, hW⟩ : ∃ W, W = o2.pos - o1.pos := ⟨_, rfl⟩
  have hw : W.norm = o1.pos.dist o2.pos := by rw [hW]; exact dist_sub _ _
  have hw0 := V3.norm_nonneg W
  rw [← hW] at eD
  rw [← hw, ← hW] at hsk
  rw [← hw]
  have kp : abs (|W.dot (v1.cross v2)| - |W.dot (E1.cross E2)|) ≤ 624 / 100 * g * W.norm := by
    refine (abs_abs_sub_abs_le _ _).trans ?_
    have t2 := Ray.abs_dot_le W (v1.cross v2 - E1.cross E2)
    rw [show W.dot (v1.cross v2 - E1.cross E2) = W.dot (v1.cross v2) - W.dot (E1.cross E2) by simp only [V3.dot, V3.sub_x, V3.sub_y, V3.sub_z]; ring] at t2
    have t3 := mul_le_mul_of_nonneg_left hcr hw0
    linarith
  have hDw : |(|W.dot (E1.cross E2)| / s)| ≤ W.norm := by
    rw [abs_div, abs_abs, abs_of_pos hs0, div_le_iff₀ hs0, hs]
    exact Ray.abs_dot_le _ _
  have hq := quot_near (u := 0) le_rfl kp hcd hs0 hC0 hDw (Rd.exact le_rfl _)
  rw [← eD] at hq
  obtain ⟨X, hX⟩ : ∃ X, X = W.norm / s := ⟨_, rfl⟩
  have hX0 : 0 ≤ X := by rw [hX]; positivity
  have eX : X * s = W.norm := by rw [hX]; field_simp
  rw [← hX]
  have hlo' : X * (68 / 100 * s) ≤ X * (v1.cross v2).norm := mul_le_mul_of_nonneg_left (by linarith [(by norm_num : (0 : ℝ) < 1 / 10 ^ 8)]) hX0
  have q1 : (624 / 100 * g * W.norm + W.norm * (624 / 100 * g)) / (v1.cross v2).norm ≤ 1836 / 100 * g * X := by
    rw [div_le_iff₀ hC0]
    have := mul_le_mul_of_nonneg_left hlo' (by positivity : 0 ≤ 1836 / 100 * g)
    have t : 0 ≤ g * W.norm := mul_nonneg hg0 hw0
    rw [← eX] at t ⊢
    linarith
  have q2 : 25 * u * W.norm * (v1.norm * v2.norm / (v1.cross v2).norm) ≤ 372 / 10 * u * X := by
    rw [← mul_div_assoc, div_le_iff₀ hC0]
    have := mul_le_mul_of_nonneg_left hlo' (by positivity : 0 ≤ 372 / 10 * u)
    have t := mul_le_mul_of_nonneg_left hS (by positivity : 0 ≤ 25 * u * W.norm)
    have t' : 0 ≤ u * W.norm := mul_nonneg hu hw0
    rw [← eX] at t t' ⊢
    linarith
  have t1 := abs_sub_le out (|W.dot (v1.cross v2)| / (v1.cross v2).norm) D
  have t2 : 0 ≤ e * X := by positivity
  have t3 : 0 ≤ u * X := by positivity
  rw [hg] at q1 hq
  linarith

namespace Rounded

open Projection Camera

theorem Cross.exact {u : ℝ} (hu : 0 ≤ u) (v w : V3 ℝ) : Cross u v w (v.cross w) :=
  ⟨_, _, _, _, _, _, Rd.exact hu _, Rd.exact hu _, Rd.exact hu _, Rd.exact hu _, Rd.exact hu _, Rd.exact hu _, Rd.exact hu _, Rd.exact hu _, Rd.exact hu _⟩

theorem NormOf.exact {u : ℝ} (hu : 0 ≤ u) (v : V3 ℝ) : NormOf u v (Real.sqrt (v.dot v)) := ⟨_, Dot.exact hu _ _, Rd.exact hu _⟩

theorem TwoLines.exists {u : ℝ} (hu : 0 ≤ u) (p1 v1 p2 v2 : V3 ℝ) : ∃ out, TwoLines u p1 v1 p2 v2 out := by
  have key : ∀ out n, n = Real.sqrt ((v1.cross v2).dot (v1.cross v2)) → (if n ≤ 1 / 10 ^ 8 then
      ∃ n1, NormOf u v1 n1 ∧
        if n1 ≤ 1 / 10 ^ 8 then
          ∃ n2, NormOf u v2 n2 ∧ if n2 ≤ 1 / 10 ^ 8 then NormOf u (p2 - p1) out else ∃ k m, Cross u (p2 - p1) v2 k ∧ NormOf u k m ∧ Rd u (m / n2) out
        else ∃ k m, Cross u (p2 - p1) v1 k ∧ NormOf u k m ∧ Rd u (m / n1) out
    else ∃ p, Dot u (p2 - p1) (v1.cross v2) p ∧ Rd u (|p| / n) out) → TwoLines u p1 v1 p2 v2 out := by
    intro out n hn h
    exact ⟨p2 - p1, v1.cross v2, n, Rd.exact hu _, Rd.exact hu _, Rd.exact hu _, Cross.exact hu _ _, by rw [hn]; exact NormOf.exact hu _, h⟩
  by_cases h0 : Real.sqrt ((v1.cross v2).dot (v1.cross v2)) ≤ 1 / 10 ^ 8
  · by_cases h1 : Real.sqrt (v1.dot v1) ≤ 1 / 10 ^ 8
    · by_cases h2 : Real.sqrt (v2.dot v2) ≤ 1 / 10 ^ 8
      · exact ⟨_, key _ _ rfl (by rw [if_pos h0]; exact ⟨_, NormOf.exact hu _, by rw [if_pos h1]; exact ⟨_, NormOf.exact hu _, by rw [if_pos h2]; exact NormOf.exact hu _⟩⟩)⟩
      · exact ⟨_, key _ _ rfl (by
          rw [if_pos h0]
          exact ⟨_, NormOf.exact hu _, by
            rw [if_pos h1]
            exact ⟨_, NormOf.exact hu _, by rw [if_neg h2]; exact ⟨_, _, Cross.exact hu _ _, NormOf.exact hu _, Rd.exact hu _⟩⟩⟩)⟩
    · exact ⟨_, key _ _ rfl (by
        rw [if_pos h0]
        exact ⟨_, NormOf.exact hu _, by rw [if_neg h1]; exact ⟨_, _, Cross.exact hu _ _, NormOf.exact hu _, Rd.exact hu _⟩⟩)⟩
  · exact ⟨_, key _ _ rfl (by rw [if_neg h0]; exact ⟨_, Dot.exact hu _ _, Rd.exact hu _⟩)⟩

theorem BetweenRays.exists {u : ℝ} (hu : 0 ≤ u) (I1 : Intr) (t1 : V3 ℝ) (Rinv1 : M3) (q1 : V2 ℝ) (I2 : Intr) (t2 : V3 ℝ) (Rinv2 : M3) (q2 : V2 ℝ) :
    ∃ out, BetweenRays u I1 t1 Rinv1 q1 I2 t2 Rinv2 q2 out := by
  obtain ⟨v1, h1⟩ := DirectionAny.exists hu .rectilinear I1 Rinv1 q1 true
  obtain ⟨v2, h2⟩ := DirectionAny.exists hu .rectilinear I2 Rinv2 q2 true
  obtain ⟨out, h⟩ := TwoLines.exists hu t1 v1 t2 v2
  exact ⟨out, v1, v2, h1, h2, h⟩

/-- A camera beside that of the other examples. -/
noncomputable def exOrient2 : Orient := .thr ⟨10, 0, 0, 0, 0, 5⟩

theorem exOrient2_inv : exOrient2.mat.Rinv = M3.one := exOrient_mat.2

theorem exUnit (o : Orient) (ho : o.mat.Rinv = M3.one) (p : V2 ℝ) (n : ℝ) (hn : 0 < n)
    (h : (⟨(p.x - 50) / 100, -((p.y - 25) / 100), -1⟩ : V3 ℝ).normSq = n ^ 2) :
    (Camera.getRay ⟨.rectilinear, ⟨100, 100, 50, 25, 100, 50⟩, o, noDistortion⟩ p.num true).2.Is ((⟨(p.x - 50) / 100, -((p.y - 25) / 100), -1⟩ : V3 ℝ).mulS (1 / n)) := by
  have er : rayR .rectilinear ⟨100, 100, 50, 25, 100, 50⟩ p = ⟨(p.x - 50) / 100, -((p.y - 25) / 100), -1⟩ := by simp [rayR]
  have hr := Projection.getRay_normed_is .rectilinear (I := ⟨100, 100, 50, 25, 100, 50⟩) (by norm_num) (by norm_num) (V2.is_num p)
  rw [er, show V3.norm _ = n by unfold V3.norm; rw [h, Real.sqrt_sq hn.le]] at hr
  have h1 := M3.apply_is (A := o.mat.Rinv) hr
  refine V3.Is.congr h1 ?_
  rw [ho]
  ext <;> simp [M3.applyR, M3.one, V3.dot]

end Rounded

open Rounded in
/-- Two lines at distance 5 that are perpendicular to each other, and two parallel lines at distance 3. -/
example : (∃ out, TwoLines (1 / 2 ^ 53) ⟨0, 0, 0⟩ ⟨1, 0, 0⟩ ⟨0, 0, 5⟩ ⟨0, 1, 0⟩ out ∧ |out - 5| ≤ 1 / 10 ^ 13) ∧
    ∃ out, TwoLines (1 / 2 ^ 53) ⟨0, 0, 0⟩ ⟨1, 0, 0⟩ ⟨0, 3, 0⟩ ⟨2, 0, 0⟩ out ∧ |out - 3| ≤ 1 / 10 ^ 13 := by
  have nx : ∀ x : ℝ, 0 ≤ x → (⟨x, 0, 0⟩ : V3 ℝ).norm = x := fun x hx => by simp [V3.norm, V3.normSq, Real.sqrt_sq hx]
  have ny : ∀ x : ℝ, 0 ≤ x → (⟨0, x, 0⟩ : V3 ℝ).norm = x := fun x hx => by simp [V3.norm, V3.normSq, Real.sqrt_sq hx]
  have nz : ∀ x : ℝ, 0 ≤ x → (⟨0, 0, x⟩ : V3 ℝ).norm = x := fun x hx => by simp [V3.norm, V3.normSq, Real.sqrt_sq hx]
  constructor
  · obtain ⟨out, h⟩ := TwoLines.exists (u := 1 / 2 ^ 53) (by norm_num) ⟨0, 0, 0⟩ ⟨1, 0, 0⟩ ⟨0, 0, 5⟩ ⟨0, 1, 0⟩
    have ec : (⟨1, 0, 0⟩ : V3 ℝ).cross ⟨0, 1, 0⟩ = ⟨0, 0, 1⟩ := by simp [V3.cross]
    have hd := Ray.skew_dist (⟨0, 0, 0⟩ : V3 ℝ) ⟨1, 0, 0⟩ ⟨0, 0, 5⟩ ⟨0, 1, 0⟩ (by rw [ec]; simp)
    have e5 : V3.dist (⟨0, 0, 0⟩ : V3 ℝ) ⟨0, 0, 5⟩ = 5 := by rw [← dist_sub, show (⟨0, 0, 5⟩ : V3 ℝ) - ⟨0, 0, 0⟩ = ⟨0, 0, 5⟩ by ext <;> simp, nz 5 (by norm_num)]
    rw [ec, nz 1 (by norm_num)] at hd
    have hb := C191_skew (1 / 2 ^ 53) (by norm_num) (by norm_num) _ _ _ _ _ 1 hd (by rw [nx 1 (by norm_num), ny 1 (by norm_num), mul_one])
      (by rw [ec, nz 1 (by norm_num)]; norm_num) (by rw [ec, nz 1 (by norm_num)]; norm_num) out h
    rw [ec, nz 1 (by norm_num), e5] at hb
    refine ⟨out, h, ?_⟩
    rw [show |((⟨0, 0, 5⟩ : V3 ℝ) - ⟨0, 0, 0⟩).dot ⟨0, 0, 1⟩| / 1 = 5 by simp [V3.dot]] at hb
    exact hb.trans (by norm_num)
  · obtain ⟨out, h⟩ := TwoLines.exists (u := 1 / 2 ^ 53) (by norm_num) ⟨0, 0, 0⟩ ⟨1, 0, 0⟩ ⟨0, 3, 0⟩ ⟨2, 0, 0⟩
    have ec : (⟨1, 0, 0⟩ : V3 ℝ).cross ⟨2, 0, 0⟩ = ⟨0, 0, 0⟩ := by simp [V3.cross]
    have hd := Ray.parallel_dist (⟨0, 0, 0⟩ : V3 ℝ) ⟨1, 0, 0⟩ ⟨0, 3, 0⟩ ⟨2, 0, 0⟩ ec (by simp)
    have ew : (⟨0, 3, 0⟩ : V3 ℝ) - ⟨0, 0, 0⟩ = ⟨0, 3, 0⟩ := by ext <;> simp
    have e3 : V3.dist (⟨0, 0, 0⟩ : V3 ℝ) ⟨0, 3, 0⟩ = 3 := by rw [← dist_sub, ew, ny 3 (by norm_num)]
    have hb := C191_parallel (1 / 2 ^ 53) (by norm_num) (by norm_num) _ _ _ _ _ hd ec (by rw [nx 1 (by norm_num), nx 2 (by norm_num)]; norm_num)
      (by rw [nx 1 (by norm_num)]; norm_num) out h
    rw [e3] at hb
    refine ⟨out, h, ?_⟩
    rw [ew, show (⟨0, 3, 0⟩ : V3 ℝ).cross ⟨1, 0, 0⟩ = (⟨0, 0, 3⟩ : V3 ℝ).mulS (-1) by ext <;> simp [V3.cross], nrm_mulS, nz 3 (by norm_num), nx 1 (by norm_num)] at hb
    norm_num at hb ⊢
    exact hb.trans (by norm_num)

open Projection Rounded Camera in
/-- Two cameras 5 m from each other that look down.  The rays of these two pixels are 5 m apart. -/
example : ∃ out, BetweenRays (1 / 2 ^ 53) ⟨100, 100, 50, 25, 100, 50⟩ exOrient.pos exOrient.mat.Rinv ⟨50, 25⟩ ⟨100, 100, 50, 25, 100, 50⟩ exOrient2.pos exOrient2.mat.Rinv
    ⟨125, 25⟩ out ∧ |out - 5| ≤ 1 / 10 ^ 11 := by
  obtain ⟨out, h⟩ := BetweenRays.exists (u := 1 / 2 ^ 53) (by norm_num) ⟨100, 100, 50, 25, 100, 50⟩ exOrient.pos exOrient.mat.Rinv ⟨50, 25⟩
    ⟨100, 100, 50, 25, 100, 50⟩ exOrient2.pos exOrient2.mat.Rinv ⟨125, 25⟩
  have h1 := (exUnit exOrient exOrient_mat.2 ⟨50, 25⟩ 1 (by norm_num) (by norm_num [V3.normSq])).congr (show _ = (⟨0, 0, -1⟩ : V3 ℝ) by ext <;> norm_num)
  have h2 := (exUnit exOrient2 exOrient2_inv ⟨125, 25⟩ (5 / 4) (by norm_num) (by norm_num [V3.normSq])).congr (show _ = (⟨3 / 5, 0, -(4 / 5)⟩ : V3 ℝ) by ext <;> norm_num)
  have ny : ∀ x : ℝ, (⟨0, x, 0⟩ : V3 ℝ).norm = |x| := fun x => by simp [V3.norm, V3.normSq, Real.sqrt_sq_eq_abs]
  have ec : (⟨0, 0, -1⟩ : V3 ℝ).cross ⟨3 / 5, 0, -(4 / 5)⟩ = ⟨0, -(3 / 5), 0⟩ := by ext <;> simp [V3.cross]
  have en : (⟨0, -(3 / 5), 0⟩ : V3 ℝ).norm = 3 / 5 := by rw [ny, abs_neg, abs_of_pos (by norm_num)]
  have hd := Ray.skew_dist exOrient.pos ⟨0, 0, -1⟩ exOrient2.pos ⟨3 / 5, 0, -(4 / 5)⟩ (by rw [ec]; simp)
  have ew : exOrient2.pos - exOrient.pos = ⟨0, 5, 0⟩ := by ext <;> norm_num [exOrient, exOrient2, Orient.pos]
  rw [ew, ec, en, show |(⟨0, 5, 0⟩ : V3 ℝ).dot ⟨0, -(3 / 5), 0⟩| / (3 / 5) = 5 by norm_num [V3.dot, abs_of_nonpos]] at hd
  have hb := C191_cameras _ _ (by norm_num) (by norm_num) (by norm_num) (by norm_num) (1 / 2 ^ 53) 0 (by norm_num) (by norm_num) (by norm_num) exOrient exOrient2 _ _
    (Near.refl le_rfl _) (Near.refl le_rfl _) ⟨50, 25⟩ ⟨125, 25⟩ _ _ h1 h2 5 (3 / 5) hd (by rw [ec, en]) (by norm_num) out h
  rw [← dist_sub, ew, ny, abs_of_pos (show (0 : ℝ) < 5 by norm_num)] at hb
  exact ⟨out, h, hb.trans (by norm_num)⟩

open Rounded in
example : ∃ out, Baseline (1 / 2 ^ 53) exOrient.pos exOrient2.pos out :=
  ⟨_, _, _, Rd.exact (by norm_num) _, Rd.exact (by norm_num) _, _, _, _, Rd.exact (by norm_num) _, Rd.exact (by norm_num) _, Rd.exact (by norm_num) _, Rd.exact (by norm_num) _⟩

open Rounded in
example : (∃ out, TwoLines (1 / 2 ^ 53) ⟨1, 2, 3⟩ ⟨0, 0, 0⟩ ⟨0, 3, 0⟩ ⟨2, 0, 0⟩ out ∧ ∃ D, Geo.IsDistLineLine ⟨1, 2, 3⟩ ⟨0, 0, 0⟩ ⟨0, 3, 0⟩ ⟨2, 0, 0⟩ D) ∧
    (1 : ℝ) / 10 ^ 8 < (1 - 5 * (1 / 2 ^ 53)) * (⟨2, 0, 0⟩ : V3 ℝ).norm := by
  obtain ⟨out, h⟩ := TwoLines.exists (u := 1 / 2 ^ 53) (by norm_num) ⟨1, 2, 3⟩ ⟨0, 0, 0⟩ ⟨0, 3, 0⟩ ⟨2, 0, 0⟩
  refine ⟨⟨out, h, _, (Ray.parallel_dist ⟨0, 3, 0⟩ ⟨2, 0, 0⟩ ⟨1, 2, 3⟩ ⟨0, 0, 0⟩ (by simp [V3.cross]) (by simp)).symm⟩, ?_⟩
  rw [show (⟨2, 0, 0⟩ : V3 ℝ).norm = 2 by simp [V3.norm, V3.normSq]]
  norm_num
