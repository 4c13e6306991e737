import Verif.Model.RoundedFoot
import Verif.Props.Ray
import Verif.Props.RoundLines
import Verif.Props.RoundArea

/-! # C193: distances of points from lines and closest points on lines with rounding errors -/

namespace Rounded

theorem Cross.swap {u : ℝ} {v w c : V3 ℝ} (h : Cross u v w c) : Cross u w v (-c) := by
  obtain ⟨a1, a2, a3, a4, a5, a6, h1, h2, h3, h4, h5, h6, k1, k2, k3⟩ := h
  refine ⟨a2, a1, a4, a3, a6, a5, by rwa [mul_comm], by rwa [mul_comm], by rwa [mul_comm], by rwa [mul_comm], by rwa [mul_comm], by rwa [mul_comm], ?_, ?_, ?_⟩
  · have := k1.neg; rwa [neg_sub] at this
  · have := k2.neg; rwa [neg_sub] at this
  · have := k3.neg; rwa [neg_sub] at this

theorem NormOf.neg {u n : ℝ} {v : V3 ℝ} (h : NormOf u v n) : NormOf u (-v) n := by
  obtain ⟨s, ⟨a, b, c, h1, h2, h3, h4⟩, hn⟩ := h
  exact ⟨s, ⟨a, b, c, by rw [V3.neg_x, neg_mul_neg]; exact h1, by rw [V3.neg_y, neg_mul_neg]; exact h2, by rw [V3.neg_z, neg_mul_neg]; exact h3, h4⟩, hn⟩

end Rounded

open Rounded in
/-- **C193** The distance of a point from a line with rounding errors. -/
theorem C193_distance (u : ℝ) (hu : 0 ≤ u) (hu1 : u ≤ 1 / 100000) (p1 v1 p2 : V3 ℝ) (hv : v1 ≠ ⟨0, 0, 0⟩) (D : ℝ) (hD : Geo.IsDistPointLine p1 v1 p2 D) (out : ℝ)
    (h : LinePoint u p1 v1 p2 out) : |out - D| ≤ 14 * u * p1.dist p2 := by
  obtain ⟨E, hE, hE'⟩ := C29_distance_line_point p1 v1 p2 hv
  have eE := hE.unique ((((V3.is_num v1).cross ((V3.is_num p1).sub (V3.is_num p2))).normN).div (V3.is_num v1).normN (V3.norm_pos hv).ne')
  have eD : D = E := by
    obtain ⟨⟨t, ht⟩, h2⟩ := hD
    obtain ⟨⟨t', ht'⟩, h2'⟩ := hE'
    exact le_antisymm (ht' ▸ h2 t') (ht ▸ h2' t)
  obtain ⟨d, k, m, n, d1, d2, d3, hk, hm, hn, ho⟩ := h
  have := point_line (W := p1 - p2) hu hu1 d1 d2 d3 (V3.norm_pos hv) hn hk.swap hm.neg ho
  have ec : ((p1 - p2).cross v1).norm = (v1.cross (p1 - p2)).norm := by
    unfold V3.norm; congr 1; simp only [V3.normSq, V3.cross, V3.sub_x, V3.sub_y, V3.sub_z]; ring
  rw [ec, ← eE, ← eD] at this
  exact this

open Rounded in
/-- A coordinate of the foot. -/
theorem Rounded.foot_coord {u f F L wx ex ox a out : ℝ} (hu : 0 ≤ u) (hu1 : u ≤ 1 / 100000) (hL : 0 ≤ L) (hf : |f - F| ≤ 92 / 10 * u * L) (hF : |F| ≤ L)
    (hw : |wx - ex| ≤ 51 / 10 * u) (he : |ex| ≤ 1) (ha : Rd u (f * wx) a) (ho : Rd u (ox + a) out) : |out - (ox + ex * F)| ≤ 17 * u * L + u * |ox| := by
  have huL : 0 ≤ u * L := mul_nonneg hu hL
  have huuL : u * (u * L) ≤ 1 / 100000 * (u * L) := mul_le_mul_of_nonneg_right hu1 huL
  have h1 : |f * wx - ex * F| ≤ 1431 / 100 * u * L := by
    rw [show f * wx - ex * F = (f - F) * ex + F * (wx - ex) + (f - F) * (wx - ex) by ring]
    have t1 : |(f - F) * ex| ≤ 92 / 10 * u * L * 1 := by rw [abs_mul]; exact mul_le_mul hf he (abs_nonneg _) (by positivity)
    have t2 : |F * (wx - ex)| ≤ L * (51 / 10 * u) := by rw [abs_mul]; exact mul_le_mul hF hw (abs_nonneg _) hL
    have t3 : |(f - F) * (wx - ex)| ≤ 92 / 10 * u * L * (51 / 10 * u) := by rw [abs_mul]; exact mul_le_mul hf hw (abs_nonneg _) (by positivity)
    refine (abs_add_three _ _ _).trans ?_
    linarith
  have h0 : |ex * F| ≤ L := by
    rw [abs_mul]
    have := mul_le_mul he hF (abs_nonneg _) zero_le_one
    linarith
  have h2 : |a - ex * F| ≤ 1532 / 100 * u * L := (rd_close hu ha h1 (abs_close h1 h0)).trans (by linarith)
  have h3 : |ox + a - (ox + ex * F)| ≤ 1532 / 100 * u * L := by rwa [add_sub_add_left_eq_sub]
  have h4 : |ox + ex * F| ≤ |ox| + L := (abs_add_le _ _).trans (by linarith)
  refine (rd_close hu ho h3 (abs_close h3 h4)).trans ?_
  linarith

open Rounded in
/-- **C193** The point of a line that is closest to a given point, with rounding errors, and what becomes of the caller's direction. -/
theorem C193_closest (u : ℝ) (hu : 0 ≤ u) (hu1 : u ≤ 1 / 100000) (o v p : V3 ℝ) (hv : v ≠ ⟨0, 0, 0⟩) (E Q : V3 ℝ)
    (hE : (Ray.getClosestPointFromLine o.num v.num p.num).1.Is E) (hQ : (Ray.getClosestPointFromLine o.num v.num p.num).2.Is Q) (w out : V3 ℝ)
    (h : Foot u o v p w out) :
    (∀ j, |w.get j - E.get j| ≤ 51 / 10 * u * |E.get j|) ∧ ∀ j, |out.get j - Q.get j| ≤ 17 * u * o.dist p + u * |o.get j| := by
  have hN := V3.norm_pos hv
  have hr := (V3.is_num v).divS (V3.is_num v).normN hN.ne'
  have eE := hE.unique hr
  have eQ := hQ.unique ((V3.is_num o).add (hr.mulS (hr.dot ((V3.is_num p).sub (V3.is_num o)))))
  rw [← eE] at eQ
  obtain ⟨d, n, f, a, b, c, d1, d2, d3, hn, w1, w2, w3, hf, a1, a2, a3, o1, o2, o3⟩ := h
  have kn := hn.near hu hu1
  have huN : 0 ≤ u * v.norm := by positivity
  have hnlo : (1 - 401 / 100 * u) * v.norm ≤ n := by linarith [(abs_le.1 kn).1]
  have hn0 : 0 < n := lt_of_lt_of_le (mul_pos (by linarith) hN) hnlo
  have key : ∀ {x y : ℝ}, Rd u (x / n) y → |y - x / v.norm| ≤ 51 / 10 * u * |x / v.norm| := by
    intro x y hy
    have e : x / n = x / v.norm * (v.norm / n) := by field_simp
    have hfac : |v.norm / n - 1| ≤ 402 / 100 * u := by
      rw [show v.norm / n - 1 = (v.norm - n) / n by field_simp, abs_div, abs_of_pos hn0, div_le_iff₀ hn0, abs_sub_comm]
      refine kn.trans ?_
      have t := mul_le_mul_of_nonneg_left hnlo (by positivity : 0 ≤ 402 / 100 * u)
      have t' : u * (u * v.norm) ≤ 1 / 100000 * (u * v.norm) := mul_le_mul_of_nonneg_right hu1 huN
      linarith
    obtain ⟨g, hg, rfl⟩ := hy.form hu
    rw [e, mul_assoc, show x / v.norm * (v.norm / n * g) - x / v.norm = x / v.norm * (v.norm / n * g - 1) by ring, abs_mul, mul_comm]
    refine mul_le_mul_of_nonneg_right ((fac_mul hfac hg).trans ?_) (abs_nonneg _)
    have : u * u ≤ 1 / 100000 * u := mul_le_mul_of_nonneg_right hu1 hu
    linarith
  have x1 : E.x = v.x / v.norm := by rw [eE]; rfl
  have x2 : E.y = v.y / v.norm := by rw [eE]; rfl
  have x3 : E.z = v.z / v.norm := by rw [eE]; rfl
  have k1 := key w1
  have k2 := key w2
  have k3 := key w3
  rw [← x1] at k1
  rw [← x2] at k2
  rw [← x3] at k3
  have hE1 : E.norm = 1 := by
    have : E.normSq = 1 := by
      have h2 := V3.norm_sq v
      unfold V3.normSq at h2 ⊢
      rw [x1, x2, x3, div_pow, div_pow, div_pow, ← add_div, ← add_div, ← h2, div_self (by positivity)]
    unfold V3.norm
    rw [this, Real.sqrt_one]
  have c1 : |E.x| ≤ 1 := by rw [← hE1]; exact nrm_coord E 0
  have c2 : |E.y| ≤ 1 := by rw [← hE1]; exact nrm_coord E 1
  have c3 : |E.z| ≤ 1 := by rw [← hE1]; exact nrm_coord E 2
  have hwE : (w - E).norm ≤ 51 / 10 * u := by
    refine Real.sqrt_le_iff.2 ⟨by positivity, ?_⟩
    have sq : ∀ {y x : ℝ}, |y - x| ≤ 51 / 10 * u * |x| → (y - x) ^ 2 ≤ (51 / 10 * u) ^ 2 * x ^ 2 := by
      intro y x h
      rw [← sq_abs (y - x), ← sq_abs x, ← mul_pow]
      exact pow_le_pow_left₀ (abs_nonneg _) h 2
    have s1 := sq k1
    have s2 := sq k2
    have s3 := sq k3
    have e1 : E.x ^ 2 + E.y ^ 2 + E.z ^ 2 = 1 := by
      have := V3.norm_sq E
      rw [hE1] at this
      unfold V3.normSq at this
      linarith
    show (w.x - E.x) ^ 2 + (w.y - E.y) ^ 2 + (w.z - E.z) ^ 2 ≤ _
    have : (51 / 10 * u) ^ 2 * (E.x ^ 2 + E.y ^ 2 + E.z ^ 2) = (51 / 10 * u) ^ 2 := by rw [e1, mul_one]
    linarith
  have hw : w.norm ≤ 1 + 51 / 10 * u := by
    have := (abs_le.1 (norm_diff w E)).2
    linarith
  obtain ⟨W, hW⟩ : ∃ W, W = p - o := ⟨_, rfl⟩
  have hL : W.norm = o.dist p := by rw [hW]; exact dist_sub _ _
  have hL0 := V3.norm_nonneg W
  have hF : |E.dot W| ≤ W.norm := by
    have := Ray.abs_dot_le E W
    rwa [hE1, one_mul] at this
  have hfF : |f - E.dot W| ≤ 92 / 10 * u * W.norm := by
    have t1 := hf.diff_near (q := W) hu hu1 (by rw [hW]; exact d1) (by rw [hW]; exact d2) (by rw [hW]; exact d3)
    have t2 := Ray.abs_dot_le (w - E) W
    rw [show (w - E).dot W = w.dot W - E.dot W by simp only [V3.dot, V3.sub_x, V3.sub_y, V3.sub_z]; ring] at t2
    have t3 := mul_le_mul_of_nonneg_right hwE hL0
    have t4 := abs_sub_le f (w.dot W) (E.dot W)
    have t5 := mul_le_mul_of_nonneg_right hw hL0
    have t6 := mul_le_mul_of_nonneg_left t5 (by positivity : 0 ≤ 4002 / 1000 * u)
    have t7 : u * (u * W.norm) ≤ 1 / 100000 * (u * W.norm) := mul_le_mul_of_nonneg_right hu1 (by positivity)
    have t8 : 0 ≤ u * W.norm := by positivity
    linarith
  have kw : ∀ {y x : ℝ}, |y - x| ≤ 51 / 10 * u * |x| → |x| ≤ 1 → |y - x| ≤ 51 / 10 * u := by
    intro y x h hx
    have := mul_le_mul_of_nonneg_left hx (by positivity : 0 ≤ 51 / 10 * u)
    linarith
  rw [← hL]
  refine ⟨fun j => ?_, fun j => ?_⟩
  · fin_cases j
    · exact k1
    · exact k2
    · exact k3
  · rw [eQ, ← hW]
    fin_cases j
    · exact foot_coord hu hu1 hL0 hfF hF (kw k1 c1) c1 a1 o1
    · exact foot_coord hu hu1 hL0 hfF hF (kw k2 c2) c2 a2 o2
    · exact foot_coord hu hu1 hL0 hfF hF (kw k3 c3) c3 a3 o3

open Rounded in
theorem Rounded.Foot.exists {u : ℝ} (hu : 0 ≤ u) (o v p : V3 ℝ) : ∃ w out, Foot u o v p w out :=
  ⟨⟨_, _, _⟩, ⟨_, _, _⟩, p - o, _, _, _, _, _, Rd.exact hu _, Rd.exact hu _, Rd.exact hu _, NormOf.exact hu v, Rd.exact hu _, Rd.exact hu _, Rd.exact hu _, Dot.exact hu _ _,
    Rd.exact hu _, Rd.exact hu _, Rd.exact hu _, Rd.exact hu _, Rd.exact hu _, Rd.exact hu _⟩

open Rounded in
example : ∃ w out E Q, Foot (1 / 2 ^ 53) ⟨0, 0, 0⟩ ⟨2, 0, 0⟩ ⟨7, 3, 4⟩ w out ∧
    (Ray.getClosestPointFromLine (V3.num ⟨0, 0, 0⟩) (V3.num ⟨2, 0, 0⟩) (V3.num ⟨7, 3, 4⟩)).1.Is E ∧
    (Ray.getClosestPointFromLine (V3.num ⟨0, 0, 0⟩) (V3.num ⟨2, 0, 0⟩) (V3.num ⟨7, 3, 4⟩)).2.Is Q ∧ ∀ j, |out.get j - Q.get j| ≤ 17 * (1 / 2 ^ 53) * V3.dist ⟨0, 0, 0⟩ ⟨7, 3, 4⟩ := by
  have hv : (⟨2, 0, 0⟩ : V3 ℝ) ≠ ⟨0, 0, 0⟩ := by intro h; simpa using congrArg V3.x h
  obtain ⟨w, out, h⟩ := Foot.exists (u := 1 / 2 ^ 53) (by norm_num) ⟨0, 0, 0⟩ ⟨2, 0, 0⟩ ⟨7, 3, 4⟩
  obtain ⟨E, hE, -⟩ := C83_closest_point_violated ⟨0, 0, 0⟩ ⟨2, 0, 0⟩ ⟨7, 3, 4⟩ hv
  obtain ⟨Q, hQ, -⟩ := C30_closest_point ⟨0, 0, 0⟩ ⟨2, 0, 0⟩ ⟨7, 3, 4⟩ hv
  refine ⟨w, out, E, Q, h, hE, hQ, fun j => ?_⟩
  have := (C193_closest (1 / 2 ^ 53) (by norm_num) (by norm_num) _ _ _ hv E Q hE hQ w out h).2 j
  have e : (⟨0, 0, 0⟩ : V3 ℝ).get j = 0 := by fin_cases j <;> rfl
  rw [e, abs_zero, mul_zero, add_zero] at this
  exact this

open Rounded in
example : ∃ out D, LinePoint (1 / 2 ^ 53) ⟨0, 0, 0⟩ ⟨2, 0, 0⟩ ⟨7, 3, 4⟩ out ∧ Geo.IsDistPointLine ⟨0, 0, 0⟩ ⟨2, 0, 0⟩ ⟨7, 3, 4⟩ D := by
  have hu : (0 : ℝ) ≤ 1 / 2 ^ 53 := by norm_num
  obtain ⟨D, -, hD⟩ := C29_distance_line_point ⟨0, 0, 0⟩ ⟨2, 0, 0⟩ ⟨7, 3, 4⟩ (by intro h; simpa using congrArg V3.x h)
  exact ⟨_, D, ⟨⟨0, 0, 0⟩ - ⟨7, 3, 4⟩, _, _, _, Rd.exact hu _, Rd.exact hu _, Rd.exact hu _, Cross.exact hu _ _, NormOf.exact hu _, NormOf.exact hu _, Rd.exact hu _⟩, hD⟩
