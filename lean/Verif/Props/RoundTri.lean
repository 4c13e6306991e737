import Verif.Model.RoundedTri
import Verif.Props.RoundPlane

/-! # C195: rays and triangles with rounding errors -/

open Classical

namespace Rounded

theorem dot_both {u y α β : ℝ} (hu : 0 ≤ u) (hu1 : u ≤ 1 / 100000) {P Q P0 Q0 : V3 ℝ} (hP : (P - P0).norm ≤ α) (hQ : (Q - Q0).norm ≤ β) (h : Dot u P Q y) :
    |y - P0.dot Q0| ≤ 3001 / 1000 * u * ((P0.norm + α) * (Q0.norm + β)) + α * (Q0.norm + β) + P0.norm * β := by
  have hα : 0 ≤ α := (V3.norm_nonneg _).trans hP
  have hβ : 0 ≤ β := (V3.norm_nonneg _).trans hQ
  have hp := V3.norm_nonneg P0
  have hq := V3.norm_nonneg Q0
  have kP : P.norm ≤ P0.norm + α := by linarith [(abs_le.1 ((norm_diff P P0).trans hP)).2]
  have kQ : Q.norm ≤ Q0.norm + β := by linarith [(abs_le.1 ((norm_diff Q Q0).trans hQ)).2]
  have t1 := h.norm_near hu hu1
  have t2 := mul_le_mul_of_nonneg_left (mul_le_mul kP kQ (V3.norm_nonneg _) (by positivity)) (by positivity : 0 ≤ 3001 / 1000 * u)
  have t3 := Ray.abs_dot_le (P - P0) Q
  have t4 := Ray.abs_dot_le P0 (Q - Q0)
  have t5 := mul_le_mul hP kQ (V3.norm_nonneg _) hα
  have t6 := mul_le_mul_of_nonneg_left hQ hp
  have e : y - P0.dot Q0 = (y - P.dot Q) + (P - P0).dot Q + P0.dot (Q - Q0) := by
    simp only [V3.dot, V3.sub_x, V3.sub_y, V3.sub_z]; ring
  rw [e]
  refine (abs_add_three _ _ _).trans ?_
  linarith

/-- The scalar product of two rounded edges. -/
theorem dot_edges {u y : ℝ} (hu : 0 ≤ u) (hu1 : u ≤ 1 / 100000) {P Q P0 Q0 : V3 ℝ} (hP : (P - P0).norm ≤ u * P0.norm) (hQ : (Q - Q0).norm ≤ u * Q0.norm) (h : Dot u P Q y) :
    |y - P0.dot Q0| ≤ 51 / 10 * u * (P0.norm * Q0.norm) := by
  have hp := V3.norm_nonneg P0
  have hq := V3.norm_nonneg Q0
  refine (dot_both hu hu1 hP hQ h).trans ?_
  obtain ⟨S, hS⟩ : ∃ S, S = P0.norm * Q0.norm := ⟨_, rfl⟩
  have hS0 : 0 ≤ S := by rw [hS]; positivity
  have b1 : u * (u * S) ≤ 1 / 100000 * (u * S) := mul_le_mul_of_nonneg_right hu1 (by positivity)
  have b2 : u * (u * (u * S)) ≤ 1 / 100000 * (u * (u * S)) := mul_le_mul_of_nonneg_right hu1 (by positivity)
  have b3 : 0 ≤ u * S := by positivity
  have e : 3001 / 1000 * u * ((P0.norm + u * P0.norm) * (Q0.norm + u * Q0.norm)) + u * P0.norm * (Q0.norm + u * Q0.norm) + P0.norm * (u * Q0.norm) =
      5001 / 1000 * (u * S) + 7002 / 1000 * (u * (u * S)) + 3001 / 1000 * (u * (u * (u * S))) := by rw [hS]; ring
  rw [e, ← hS]
  linarith

/-- The scalar product of the point with a rounded edge. -/
theorem dot_point {u y G ω : ℝ} (hu : 0 ≤ u) (hu1 : u ≤ 1 / 100000) {w w0 V Y : V3 ℝ} (hw : (w - w0).norm ≤ G) (hω : w0.norm ≤ ω) (huω : 25 * (u * ω) ≤ G)
    (hV : (V - Y).norm ≤ u * Y.norm) (h : Dot u w V y) : |y - w0.dot Y| ≤ 12 / 10 * G * Y.norm := by
  have hG : 0 ≤ G := (V3.norm_nonneg _).trans hw
  have hy := V3.norm_nonneg Y
  have hw0 := V3.norm_nonneg w0
  have t := dot_both hu hu1 hw hV h
  refine t.trans ?_
  have huw : u * w0.norm ≤ 1 / 25 * G := by
    have := mul_le_mul_of_nonneg_left hω hu
    linarith
  have c1 : u * w0.norm * Y.norm ≤ 1 / 25 * (G * Y.norm) := by
    have := mul_le_mul_of_nonneg_right huw hy
    linarith
  have c2 : u * (G * Y.norm) ≤ 1 / 100000 * (G * Y.norm) := mul_le_mul_of_nonneg_right hu1 (by positivity)
  have c3 : u * (u * w0.norm * Y.norm) ≤ 1 / 100000 * (u * w0.norm * Y.norm) := mul_le_mul_of_nonneg_right hu1 (by positivity)
  have c4 : u * (u * (G * Y.norm)) ≤ 1 / 100000 * (u * (G * Y.norm)) := mul_le_mul_of_nonneg_right hu1 (by positivity)
  have c5 : 0 ≤ G * Y.norm := by positivity
  linarith

theorem bary_prod {u a A b B c p r H ω : ℝ} (hu : 0 ≤ u) (hu1 : u ≤ 1 / 100000) (hp : 0 ≤ p) (hr : 0 ≤ r) (hH : 0 ≤ H) (huω : 30 * (u * ω) ≤ H)
    (ha : |a - A| ≤ 51 / 10 * u * p) (hA : |A| ≤ p) (hb : |b - B| ≤ H * r) (hB : |B| ≤ ω * r) (hc : Rd u (a * b) c) :
    |c - A * B| ≤ 122 / 100 * (H * (p * r)) ∧ |A * B| ≤ ω * (p * r) := by
  have hpr : 0 ≤ p * r := by positivity
  have h0 : |A * B| ≤ ω * (p * r) := by
    rw [abs_mul]
    have := mul_le_mul hA hB (abs_nonneg _) hp
    linarith
  have k1 : u * ω * (p * r) ≤ 1 / 30 * (H * (p * r)) := by
    have := mul_le_mul_of_nonneg_right huω hpr
    linarith
  have k2 : u * (H * (p * r)) ≤ 1 / 100000 * (H * (p * r)) := mul_le_mul_of_nonneg_right hu1 (by positivity)
  have k3 : 0 ≤ H * (p * r) := by positivity
  have h1 : |a * b - A * B| ≤ 1171 / 1000 * (H * (p * r)) := by
    rw [show a * b - A * B = (a - A) * b + A * (b - B) by ring]
    have hb' : |b| ≤ ω * r + H * r := by
      have := abs_add_le B (b - B)
      rw [add_sub_cancel] at this
      linarith
    have t1 : |(a - A) * b| ≤ 51 / 10 * u * p * (ω * r + H * r) := by rw [abs_mul]; exact mul_le_mul ha hb' (abs_nonneg _) (by positivity)
    have t2 : |A * (b - B)| ≤ p * (H * r) := by rw [abs_mul]; exact mul_le_mul hA hb (abs_nonneg _) hp
    refine (abs_add_le _ _).trans ?_
    linarith
  refine ⟨(rd_close hu hc h1 (abs_close h1 h0)).trans ?_, h0⟩
  linarith

/-- One of the two numerators. -/
theorem bary_num {u uv vv wv wu e1 e2 ns UV VV WV WU x y H ω : ℝ} (hu : 0 ≤ u) (hu1 : u ≤ 1 / 100000) (hx : 0 ≤ x) (hy : 0 ≤ y) (hH : 0 ≤ H)
    (huω : 30 * (u * ω) ≤ H) (h1 : |uv - UV| ≤ 51 / 10 * u * (x * y)) (h1' : |UV| ≤ x * y) (h2 : |vv - VV| ≤ 51 / 10 * u * (y * y)) (h2' : |VV| ≤ y * y)
    (h3 : |wv - WV| ≤ H * y) (h3' : |WV| ≤ ω * y) (h4 : |wu - WU| ≤ H * x) (h4' : |WU| ≤ ω * x) (k1 : Rd u (uv * wv) e1) (k2 : Rd u (vv * wu) e2)
    (k3 : Rd u (e1 - e2) ns) : |ns - (UV * WV - VV * WU)| ≤ 26 / 10 * (H * (x * y * y)) := by
  have q1 := bary_prod hu hu1 (by positivity) hy hH huω h1 h1' h3 h3' k1
  have q2 := bary_prod hu hu1 (by positivity) hx hH huω h2 h2' h4 h4' k2
  rw [show y * y * x = x * y * y by ring] at q2
  have hZ : 0 ≤ x * y * y := by positivity
  have e1' : |e1 - e2 - (UV * WV - VV * WU)| ≤ 244 / 100 * (H * (x * y * y)) := by
    rw [show e1 - e2 - (UV * WV - VV * WU) = (e1 - UV * WV) - (e2 - VV * WU) by ring]
    refine (abs_sub _ _).trans ?_
    linarith [q1.1, q2.1]
  have e2' : |UV * WV - VV * WU| ≤ 2 * (ω * (x * y * y)) := (abs_sub _ _).trans (by linarith [q1.2, q2.2])
  refine (rd_close hu k3 e1' (abs_close e1' e2')).trans ?_
  have c1 : u * ω * (x * y * y) ≤ 1 / 30 * (H * (x * y * y)) := by
    have := mul_le_mul_of_nonneg_right huω hZ
    linarith
  have c2 : u * (H * (x * y * y)) ≤ 1 / 100000 * (H * (x * y * y)) := mul_le_mul_of_nonneg_right hu1 (by positivity)
  have c3 : 0 ≤ H * (x * y * y) := by positivity
  linarith

/-- The denominator. -/
theorem bary_den {u uv uu vv UV a b den x y : ℝ} (hu : 0 ≤ u) (hu1 : u ≤ 1 / 100000) (hx : 0 ≤ x) (hy : 0 ≤ y) (h1 : |uv - UV| ≤ 51 / 10 * u * (x * y)) (h1' : |UV| ≤ x * y)
    (h2 : |uu - x ^ 2| ≤ 51 / 10 * u * (x * x)) (h3 : |vv - y ^ 2| ≤ 51 / 10 * u * (y * y)) (k1 : Rd u (uv * uv) a) (k2 : Rd u (uu * vv) b) (k3 : Rd u (a - b) den) :
    |den - (UV * UV - x ^ 2 * y ^ 2)| ≤ 25 * u * (x * y) ^ 2 := by
  have pr : ∀ {p q P Q s t c : ℝ}, 0 ≤ s → 0 ≤ t → |p - P| ≤ 51 / 10 * u * s → |P| ≤ s → |q - Q| ≤ 51 / 10 * u * t → |Q| ≤ t → Rd u (p * q) c →
      |c - P * Q| ≤ 113 / 10 * u * (s * t) ∧ |P * Q| ≤ s * t := by
    intro p q P Q s t c hs ht hp hP hq hQ hc
    have hst : 0 ≤ s * t := by positivity
    have b1 : u * (u * (s * t)) ≤ 1 / 100000 * (u * (s * t)) := mul_le_mul_of_nonneg_right hu1 (by positivity)
    have b2 : u * (u * (u * (s * t))) ≤ 1 / 100000 * (u * (u * (s * t))) := mul_le_mul_of_nonneg_right hu1 (by positivity)
    have b3 : 0 ≤ u * (s * t) := by positivity
    have h0 : |P * Q| ≤ s * t := by rw [abs_mul]; exact mul_le_mul hP hQ (abs_nonneg _) hs
    have h1 : |p * q - P * Q| ≤ 1021 / 100 * (u * (s * t)) := by
      rw [show p * q - P * Q = (p - P) * Q + P * (q - Q) + (p - P) * (q - Q) by ring]
      have t1 : |(p - P) * Q| ≤ 51 / 10 * u * s * t := by rw [abs_mul]; exact mul_le_mul hp hQ (abs_nonneg _) (by positivity)
      have t2 : |P * (q - Q)| ≤ s * (51 / 10 * u * t) := by rw [abs_mul]; exact mul_le_mul hP hq (abs_nonneg _) hs
      have t3 : |(p - P) * (q - Q)| ≤ 51 / 10 * u * s * (51 / 10 * u * t) := by rw [abs_mul]; exact mul_le_mul hp hq (abs_nonneg _) (by positivity)
      refine (abs_add_three _ _ _).trans ?_
      linarith
    refine ⟨(rd_close hu hc h1 (abs_close h1 h0)).trans ?_, h0⟩
    linarith
  have q1 := pr (by positivity) (by positivity) h1 h1' h1 h1' k1
  have q2 := pr (by positivity) (by positivity) h2 (by rw [abs_of_nonneg (by positivity)]; linarith [sq x]) h3 (by rw [abs_of_nonneg (by positivity)]; linarith [sq y]) k2
  obtain ⟨Z, hZ⟩ : ∃ Z, Z = (x * y) ^ 2 := ⟨_, rfl⟩
  have hZ0 : 0 ≤ Z := by rw [hZ]; positivity
  rw [show x * y * (x * y) = Z by rw [hZ]; ring] at q1
  rw [show x * x * (y * y) = Z by rw [hZ]; ring] at q2
  have b1 : u * (u * Z) ≤ 1 / 100000 * (u * Z) := mul_le_mul_of_nonneg_right hu1 (by positivity)
  have b3 : 0 ≤ u * Z := by positivity
  have h0 : |UV * UV - x ^ 2 * y ^ 2| ≤ 2 * Z := (abs_sub _ _).trans (by linarith [q1.2, q2.2])
  have h4 : |a - b - (UV * UV - x ^ 2 * y ^ 2)| ≤ 226 / 10 * (u * Z) := by
    rw [show a - b - (UV * UV - x ^ 2 * y ^ 2) = (a - UV * UV) - (b - x ^ 2 * y ^ 2) by ring]
    refine (abs_sub _ _).trans ?_
    linarith [q1.1, q2.1]
  rw [← hZ]
  refine (rd_close hu k3 h4 (abs_close h4 h0)).trans ?_
  linarith

/-- One of the two coordinates with respect to the edges. -/
theorem bary_coord {u ns den D s si x y n σ H ω : ℝ} (hu : 0 ≤ u) (hu1 : u ≤ 1 / 100000) (hx : 0 < x) (hy : 0 < y) (hn : 0 < n) (hσ : 1 ≤ σ) (hH : 0 ≤ H) (hω : 0 ≤ ω)
    (huω : 30 * (u * ω) ≤ H) (hS : x * y ≤ σ * n) (hD : D = -n ^ 2) (hs : |s| * n ≤ ω * y) (hden : |den - D| ≤ 25 * u * (x * y) ^ 2) (hσ2 : 2500 * u * σ ^ 2 ≤ 1)
    (hns : |ns - s * D| ≤ 26 / 10 * (H * (x * y * y))) : den ≠ 0 ∧ (Rd u (ns / den) si → |si - s| * x ≤ 36 / 10 * (σ ^ 3 * H)) := by
  have hn2 : 0 < n ^ 2 := by positivity
  have hS2 : (x * y) ^ 2 ≤ σ ^ 2 * n ^ 2 := by
    rw [← mul_pow]
    exact pow_le_pow_left₀ (by positivity) hS 2
  have hdl : 99 / 100 * n ^ 2 ≤ |den| := by
    have t1 := mul_le_mul_of_nonneg_left hS2 (by positivity : 0 ≤ 25 * u)
    have t2 := mul_le_mul_of_nonneg_right hσ2 hn2.le
    have t3 := abs_abs_sub_abs_le_abs_sub den D
    have t4 : |D| = n ^ 2 := by rw [hD, abs_neg, abs_of_pos hn2]
    rw [t4] at t3
    linarith [(abs_le.1 (t3.trans hden)).1]
  have hd0 : den ≠ 0 := by
    rintro rfl
    rw [abs_zero] at hdl
    linarith
  refine ⟨hd0, fun hsi => ?_⟩
  obtain ⟨X, hX⟩ : ∃ X, X = ns / den := ⟨_, rfl⟩
  have hXd : X * den = ns := by rw [hX]; field_simp
  rw [← hX] at hsi
  have hσ0 : 0 < σ := by linarith
  have hsx : |s| * x ≤ σ * ω := by
    have t1 := mul_le_mul_of_nonneg_right hs hx.le
    have t2 := mul_le_mul_of_nonneg_left hS hω
    have t3 : (|s| * x) * n ≤ (σ * ω) * n := by linarith
    exact le_of_mul_le_mul_right t3 hn
  have hσ3 : σ ^ 2 ≤ σ ^ 3 := by
    have := mul_le_mul_of_nonneg_left hσ (sq_nonneg σ)
    linarith [pow_succ σ 2]
  have hσ4 : σ ≤ σ ^ 3 := by
    have := mul_le_mul_of_nonneg_left hσ hσ0.le
    linarith [sq σ]
  have h1 : |X - s| * |den| ≤ 26 / 10 * (H * (x * y * y)) + |s| * (25 * u * (x * y) ^ 2) := by
    rw [← abs_mul, show (X - s) * den = (ns - s * D) - s * (den - D) by linear_combination hXd]
    refine (abs_sub _ _).trans ?_
    rw [abs_mul s]
    have := mul_le_mul_of_nonneg_left hden (abs_nonneg s)
    linarith
  have h2 : |X - s| * x ≤ 35 / 10 * (σ ^ 3 * H) := by
    have t1 := mul_le_mul_of_nonneg_right h1 hx.le
    have t2 := mul_le_mul_of_nonneg_left hdl (by positivity : 0 ≤ |X - s| * x)
    have t3 := mul_le_mul_of_nonneg_left hsx (by positivity : 0 ≤ 25 * u * (x * y) ^ 2)
    have t4 := mul_le_mul_of_nonneg_left hS2 (by positivity : 0 ≤ 26 / 10 * H + 25 * u * (σ * ω))
    have t5 : 26 / 10 * H + 25 * u * (σ * ω) ≤ (26 / 10 + 25 / 30 * σ) * H := by
      have := mul_le_mul_of_nonneg_left huω hσ0.le
      linarith
    have t6 := mul_le_mul_of_nonneg_right t5 (by positivity : 0 ≤ σ ^ 2 * n ^ 2)
    have t7 : (99 / 100 * (|X - s| * x)) * n ^ 2 ≤ ((26 / 10 + 25 / 30 * σ) * H * σ ^ 2) * n ^ 2 := by linarith
    have t8 := le_of_mul_le_mul_right t7 hn2
    have t9 := mul_le_mul_of_nonneg_right hσ3 hH
    have t10 : (26 / 10 + 25 / 30 * σ) * H * σ ^ 2 = 26 / 10 * (σ ^ 2 * H) + 25 / 30 * (σ ^ 3 * H) := by ring
    rw [t10] at t8
    have t11 : 0 ≤ σ ^ 3 * H := by positivity
    linarith
  have h3 : |si - s| ≤ |X - s| + u * (|s| + |X - s|) := by
    have t1 : |si - X| ≤ u * |X| := hsi
    have t2 := abs_sub_le si X s
    have t3 : |X| ≤ |s| + |X - s| := by
      have := abs_add_le s (X - s)
      rwa [add_sub_cancel] at this
    have t4 := mul_le_mul_of_nonneg_left t3 hu
    linarith
  have h4 := mul_le_mul_of_nonneg_right h3 hx.le
  have h5 : u * (|X - s| * x) ≤ 1 / 100000 * (35 / 10 * (σ ^ 3 * H)) := mul_le_mul hu1 h2 (by positivity) (by norm_num)
  have h6 : u * (|s| * x) ≤ 1 / 30 * (σ ^ 3 * H) := by
    have t1 := mul_le_mul_of_nonneg_left hsx hu
    have t2 := mul_le_mul_of_nonneg_left huω hσ0.le
    have t3 := mul_le_mul_of_nonneg_right hσ4 hH
    linarith
  have h7 : 0 ≤ σ ^ 3 * H := by positivity
  linarith

theorem norm_sum (v : V3 ℝ) : v.norm ≤ |v.x| + |v.y| + |v.z| := by
  refine Real.sqrt_le_iff.2 ⟨by positivity, ?_⟩
  have := sq_abs v.x
  have := sq_abs v.y
  have := sq_abs v.z
  unfold V3.normSq
  nlinarith [mul_nonneg (abs_nonneg v.x) (abs_nonneg v.y), mul_nonneg (abs_nonneg v.x) (abs_nonneg v.z), mul_nonneg (abs_nonneg v.y) (abs_nonneg v.z)]

/-- The coordinates with respect to the edges that the code computes. -/
theorem InTest.coords {u : ℝ} (hu : 0 ≤ u) (hu1 : u ≤ 1 / 100000) {T : Ray.Tri ℝ} (hn : ¬ Geo.Degenerate T) {σ : ℝ}
    (hσ : (T.b - T.a).norm * (T.c - T.a).norm ≤ σ * (Geo.normal T).norm) (hσ2 : 2500 * u * σ ^ 2 ≤ 1) {P Q : V3 ℝ} {s r L : ℝ}
    (hQ : Q - T.a = (T.b - T.a).mulS s + (T.c - T.a).mulS r) (hL : u * (Q - T.a).norm ≤ L) (hP : (P - Q).norm ≤ 39 * L)
    {out : Option (V3 ℝ)} (h : InTest u T P out) :
    ∃ si ti st, |si - s| * (T.b - T.a).norm ≤ 178 * σ ^ 3 * L ∧ |ti - r| * (T.c - T.a).norm ≤ 178 * σ ^ 3 * L ∧ Rd u (si + ti) st ∧
      if (si < 0 ∨ 1 < si) ∨ (ti < 0 ∨ 1 < st) then out = none else out = some P := by
  obtain ⟨U, V, w, uv, uu, vv, wu, wv, x, y, den, e1, e2, ns, si, f1, f2, nt, ti, st, hU, hV, hw, huv, huu, hvv, hwu, hwv, hx, hy, hden, he1, he2, hns, hsi, hf1, hf2, hnt, hti, hst, ho⟩ := h
  obtain ⟨X, hX⟩ : ∃ X, X = T.b - T.a := ⟨_, rfl⟩
  obtain ⟨Y, hY⟩ : ∃ Y, Y = T.c - T.a := ⟨_, rfl⟩
  obtain ⟨W, hW⟩ : ∃ W, W = Q - T.a := ⟨_, rfl⟩
  have hN : Geo.normal T = X.cross Y := by rw [hX, hY]; rfl
  have hN0 : 0 < (X.cross Y).norm := V3.norm_pos (by rw [← hN]; exact hn)
  rw [← hX, ← hY, hN] at hσ
  rw [← hX, ← hY, ← hW] at hQ
  rw [← hW] at hL
  have hNS := nrm_cross X Y
  have hX0 := V3.norm_nonneg X
  have hY0 := V3.norm_nonneg Y
  have hW0 := V3.norm_nonneg W
  have hXY : 0 < X.norm * Y.norm := lt_of_lt_of_le hN0 hNS
  have hX1 : 0 < X.norm := lt_of_le_of_ne hX0 (by intro e; rw [← e, zero_mul] at hXY; exact lt_irrefl _ hXY)
  have hY1 : 0 < Y.norm := lt_of_le_of_ne hY0 (by intro e; rw [← e, mul_zero] at hXY; exact lt_irrefl _ hXY)
  have hσ1 : 1 ≤ σ := by
    have h1 : 1 * (X.cross Y).norm ≤ σ * (X.cross Y).norm := by linarith
    exact le_of_mul_le_mul_right h1 hN0
  have hUX : (U - X).norm ≤ u * X.norm := sub_norm_near hu (by rw [hX]; exact hU.1) (by rw [hX]; exact hU.2.1) (by rw [hX]; exact hU.2.2)
  have hVY : (V - Y).norm ≤ u * Y.norm := sub_norm_near hu (by rw [hY]; exact hV.1) (by rw [hY]; exact hV.2.1) (by rw [hY]; exact hV.2.2)
  have hL0 : 0 ≤ L := le_trans (by positivity) hL
  have hwW : (w - W).norm ≤ 41 * L := by
    have t1 : (w - (P - T.a)).norm ≤ u * (P - T.a).norm := sub_norm_near hu hw.1 hw.2.1 hw.2.2
    have t2 := nrm_add (P - Q) W
    rw [show P - Q + W = P - T.a by rw [hW]; ext <;> simp] at t2
    have t3 := nrm_add (w - (P - T.a)) (P - Q)
    rw [show w - (P - T.a) + (P - Q) = w - W by rw [hW]; ext <;> simp <;> ring] at t3
    have t4 := mul_le_mul_of_nonneg_left (t2.trans (by linarith : _ ≤ 39 * L + W.norm)) hu
    have t5 : u * L ≤ 1 / 100000 * L := mul_le_mul_of_nonneg_right hu1 hL0
    linarith
  have q1 := dot_edges hu hu1 hUX hVY huv
  have q2 := dot_edges hu hu1 hUX hUX huu
  have q3 := dot_edges hu hu1 hVY hVY hvv
  have q4 := dot_point hu hu1 hwW le_rfl (by linarith) hUX hwu
  have q5 := dot_point hu hu1 hwW le_rfl (by linarith) hVY hwv
  have eXX : X.dot X = X.norm ^ 2 := by rw [V3.norm_sq, V3.dot_self]
  have eYY : Y.dot Y = Y.norm ^ 2 := by rw [V3.norm_sq, V3.dot_self]
  have cXY := Ray.abs_dot_le X Y
  have cWX := Ray.abs_dot_le W X
  have cWY := Ray.abs_dot_le W Y
  have hlag : X.dot Y * X.dot Y - X.norm ^ 2 * Y.norm ^ 2 = -(X.cross Y).norm ^ 2 := by
    rw [V3.norm_sq, V3.norm_sq, V3.norm_sq]
    simp only [V3.normSq, V3.dot, V3.cross]
    ring
  rw [eXX] at q2
  rw [eYY] at q3
  have qd := bary_den hu hu1 hX0 hY0 q1 cXY q2 q3 hx hy hden
  have hXX : |X.norm ^ 2| ≤ X.norm * X.norm := by rw [abs_of_nonneg (by positivity), sq]
  have hYY : |Y.norm ^ 2| ≤ Y.norm * Y.norm := by rw [abs_of_nonneg (by positivity), sq]
  have hH : 0 ≤ 12 / 10 * (41 * L) := by positivity
  have huω : 30 * (u * W.norm) ≤ 12 / 10 * (41 * L) := by linarith
  have n1 := bary_num hu hu1 hX0 hY0 hH huω q1 cXY q3 hYY q5 cWY q4 cWX he1 he2 hns
  have q1' := q1
  rw [mul_comm X.norm] at q1'
  have cXY' := cXY
  rw [mul_comm X.norm] at cXY'
  have n2 := bary_num hu hu1 hY0 hX0 hH huω q1' cXY' q2 hXX q4 cWX q5 cWY hf1 hf2 hnt
  have es : X.dot Y * W.dot Y - Y.norm ^ 2 * W.dot X = s * (X.dot Y * X.dot Y - X.norm ^ 2 * Y.norm ^ 2) := by
    rw [← eXX, ← eYY, hQ]
    simp only [V3.dot, V3.add_x, V3.add_y, V3.add_z, V3.mulS_x, V3.mulS_y, V3.mulS_z]
    ring
  have er : X.dot Y * W.dot X - X.norm ^ 2 * W.dot Y = r * (X.dot Y * X.dot Y - X.norm ^ 2 * Y.norm ^ 2) := by
    rw [← eXX, ← eYY, hQ]
    simp only [V3.dot, V3.add_x, V3.add_y, V3.add_z, V3.mulS_x, V3.mulS_y, V3.mulS_z]
    ring
  have hs : |s| * (X.cross Y).norm ≤ W.norm * Y.norm := by
    rw [← nrm_mulS]
    refine le_trans (le_of_eq ?_) (nrm_cross W Y)
    congr 1
    rw [hQ]
    ext <;> simp [V3.cross] <;> ring
  have hr : |r| * (X.cross Y).norm ≤ W.norm * X.norm := by
    rw [← nrm_mulS, mul_comm]
    refine le_trans (le_of_eq ?_) (nrm_cross X W)
    congr 1
    rw [hQ]
    ext <;> simp [V3.cross] <;> ring
  rw [es] at n1
  rw [er] at n2
  have qd' := qd
  rw [mul_comm X.norm Y.norm] at qd'
  have g1 := bary_coord (si := si) hu hu1 hX1 hY1 hN0 hσ1 hH hW0 huω hσ hlag hs qd hσ2 n1
  have g2 := bary_coord (si := ti) hu hu1 hY1 hX1 hN0 hσ1 hH hW0 huω (by rw [mul_comm]; exact hσ) hlag hr qd' hσ2 n2
  have h7 : 0 ≤ σ ^ 3 * L := by positivity
  rw [← hX, ← hY]
  refine ⟨si, ti, st, (g1.2 hsi).trans (by linarith), (g2.2 hti).trans (by linarith), hst, ho.resolve_left g1.1⟩

end Rounded

open Rounded in
/-- The point of the plane, and the coordinates of the test. -/
theorem Rounded.TriHit.coords {u : ℝ} (hu : 0 ≤ u) (hu1 : u ≤ 1 / 100000) {o d : V3 ℝ} (hd : d ≠ ⟨0, 0, 0⟩) {T : Ray.Tri ℝ} (hn : ¬ Geo.Degenerate T) {k σ : ℝ}
    (hk : (T.b - T.a).norm * (T.c - T.a).norm * d.norm ≤ k * |(Geo.normal T).dot d|) (huk : 1000 * u * k ≤ 1)
    (hσ : (T.b - T.a).norm * (T.c - T.a).norm ≤ σ * (Geo.normal T).norm) (hσ2 : 2500 * u * σ ^ 2 ≤ 1) {t s r : ℝ} {Q : V3 ℝ} (hQ : Q = Geo.at' o d t)
    (hsr : Q - T.a = (T.b - T.a).mulS s + (T.c - T.a).mulS r) (ht : 0 ≤ t) (hm : 10 * u * k * (o.dist T.a + o.dist Q) ≤ o.dist Q) {e : ℝ}
    (hb : 178 * σ ^ 3 * (u * (k * (o.dist T.a + o.dist Q) + o.norm)) ≤ e * (T.b - T.a).norm)
    (hc : 178 * σ ^ 3 * (u * (k * (o.dist T.a + o.dist Q) + o.norm)) ≤ e * (T.c - T.a).norm) {out : Option (V3 ℝ)} (h : TriHit u o d T out) :
    ∃ P, (∀ j, |P.get j - Q.get j| ≤ 13 * u * k * (o.dist T.a + o.dist Q) + u * |o.get j|) ∧ ∃ si ti st, |si - s| ≤ e ∧ |ti - r| ≤ e ∧ Rd u (si + ti) st ∧
      if (si < 0 ∨ 1 < si) ∨ (ti < 0 ∨ 1 < st) then out = none else out = some P := by
  obtain ⟨pl, hpl, -, htest⟩ := h
  have hon : Geo.OnPlane T Q := by
    refine ⟨s, r, ?_, ?_, ?_⟩
    · have := congrArg V3.x hsr; simp at this; linarith
    · have := congrArg V3.y hsr; simp at this; linarith
    · have := congrArg V3.z hsr; simp at this; linarith
  obtain ⟨hk1, -⟩ := PlaneHit.param hu hu1 hd hn hk huk hQ hon hpl
  obtain ⟨P, rfl, hP⟩ := C194_plane u hu hu1 o d hd T hn k hk huk t Q hQ hon ht hm pl hpl
  obtain ⟨Z, hZ⟩ : ∃ Z, Z = o.dist T.a + o.dist Q := ⟨_, rfl⟩
  have hZ0 : 0 ≤ Z := by
    rw [hZ, ← dist_sub, ← dist_sub]
    exact add_nonneg (V3.norm_nonneg _) (V3.norm_nonneg _)
  have hWZ : (Q - T.a).norm ≤ Z := by
    have t1 := nrm_add (Q - o) ((T.a - o).mulS (-1))
    rw [nrm_mulS, abs_neg, _root_.abs_one, one_mul, dist_sub, dist_sub, show Q - o + (T.a - o).mulS (-1) = Q - T.a by ext <;> simp] at t1
    linarith
  have ho0 := V3.norm_nonneg o
  rw [← hZ] at hb hc hP ⊢
  obtain ⟨L, hL⟩ : ∃ L, L = u * (k * Z + o.norm) := ⟨_, rfl⟩
  rw [← hL] at hb hc
  have huo : 0 ≤ u * o.norm := by positivity
  have hZL : u * Z ≤ u * (k * Z) := by
    have := mul_le_mul_of_nonneg_left hk1 (by positivity : 0 ≤ u * Z)
    linarith
  have h1 : u * (Q - T.a).norm ≤ L := by
    have := mul_le_mul_of_nonneg_left hWZ hu
    rw [hL]
    linarith
  have h2 : (P - Q).norm ≤ 39 * L := by
    have t0 := norm_sum (P - Q)
    have t1 : |(P - Q).x| ≤ _ := hP 0
    have t2 : |(P - Q).y| ≤ _ := hP 1
    have t3 : |(P - Q).z| ≤ _ := hP 2
    have c1 := mul_le_mul_of_nonneg_left (nrm_coord o 0) hu
    have c2 := mul_le_mul_of_nonneg_left (nrm_coord o 1) hu
    have c3 := mul_le_mul_of_nonneg_left (nrm_coord o 2) hu
    rw [hL]
    linarith
  obtain ⟨si, ti, st, g1, g2, g3, g4⟩ := (htest P rfl).coords hu hu1 hn hσ hσ2 hsr h1 h2
  have hb0 : (T.b - T.a).norm ≠ 0 := by
    intro e0
    have := nrm_cross (T.b - T.a) (T.c - T.a)
    rw [e0, zero_mul] at this
    have := V3.norm_pos (q := Geo.normal T) hn
    have e1 : Geo.normal T = (T.b - T.a).cross (T.c - T.a) := rfl
    rw [e1] at this
    linarith
  have hc0 : (T.c - T.a).norm ≠ 0 := by
    intro e0
    have := nrm_cross (T.b - T.a) (T.c - T.a)
    rw [e0, mul_zero] at this
    have := V3.norm_pos (q := Geo.normal T) hn
    have e1 : Geo.normal T = (T.b - T.a).cross (T.c - T.a) := rfl
    rw [e1] at this
    linarith
  have hb1 : 0 < (T.b - T.a).norm := lt_of_le_of_ne (V3.norm_nonneg _) (Ne.symm hb0)
  have hc1 : 0 < (T.c - T.a).norm := lt_of_le_of_ne (V3.norm_nonneg _) (Ne.symm hc0)
  exact ⟨P, hP, si, ti, st, le_of_mul_le_mul_right (g1.trans hb) hb1, le_of_mul_le_mul_right (g2.trans hc) hc1, g3, g4⟩

open Rounded in
/-- **C195** A point of a triangle that is not too near to its edges is a hit also with rounding errors. -/
theorem C195_inside (u : ℝ) (hu : 0 ≤ u) (hu1 : u ≤ 1 / 100000) (o d : V3 ℝ) (hd : d ≠ ⟨0, 0, 0⟩) (T : Ray.Tri ℝ) (hn : ¬ Geo.Degenerate T) (k σ : ℝ)
    (hk : (T.b - T.a).norm * (T.c - T.a).norm * d.norm ≤ k * |(Geo.normal T).dot d|) (huk : 1000 * u * k ≤ 1)
    (hσ : (T.b - T.a).norm * (T.c - T.a).norm ≤ σ * (Geo.normal T).norm) (hσ2 : 2500 * u * σ ^ 2 ≤ 1) (t s r : ℝ) (Q : V3 ℝ) (hQ : Q = Geo.at' o d t)
    (hsr : Q - T.a = (T.b - T.a).mulS s + (T.c - T.a).mulS r) (ht : 0 ≤ t) (hm : 10 * u * k * (o.dist T.a + o.dist Q) ≤ o.dist Q) (e : ℝ)
    (hb : 178 * σ ^ 3 * (u * (k * (o.dist T.a + o.dist Q) + o.norm)) ≤ e * (T.b - T.a).norm)
    (hc : 178 * σ ^ 3 * (u * (k * (o.dist T.a + o.dist Q) + o.norm)) ≤ e * (T.c - T.a).norm) (hs : e ≤ s) (hr : e ≤ r) (hsum : (s + r + 2 * e) * (1 + u) ≤ 1)
    (out : Option (V3 ℝ)) (h : TriHit u o d T out) :
    ∃ P, out = some P ∧ ∀ j, |P.get j - Q.get j| ≤ 13 * u * k * (o.dist T.a + o.dist Q) + u * |o.get j| := by
  obtain ⟨P, hP, si, ti, st, g1, g2, g3, g4⟩ := TriHit.coords hu hu1 hd hn hk huk hσ hσ2 hQ hsr ht hm hb hc h
  have a1 := abs_le.1 g1
  have a2 := abs_le.1 g2
  have e0 : 0 ≤ e := (abs_nonneg _).trans g1
  have hsum0 : 0 ≤ si + ti := by linarith
  have hst : st ≤ 1 := by
    have t1 : |st - (si + ti)| ≤ u * |si + ti| := g3
    rw [abs_of_nonneg hsum0] at t1
    have t2 := mul_le_mul_of_nonneg_right (by linarith : si + ti ≤ s + r + 2 * e) (by linarith : 0 ≤ 1 + u)
    linarith [(abs_le.1 t1).2]
  have hs1 : s + r + 2 * e ≤ 1 := by
    have := mul_nonneg (by linarith : 0 ≤ s + r + 2 * e) hu
    linarith
  rw [if_neg (by push Not; exact ⟨⟨by linarith, by linarith⟩, by linarith, hst⟩)] at g4
  exact ⟨P, g4, hP⟩

open Rounded in
/-- **C195** A point of the plane that lies outside the triangle, not too near to its edges, is no hit also with rounding errors. -/
theorem C195_outside (u : ℝ) (hu : 0 ≤ u) (hu1 : u ≤ 1 / 100000) (o d : V3 ℝ) (hd : d ≠ ⟨0, 0, 0⟩) (T : Ray.Tri ℝ) (hn : ¬ Geo.Degenerate T) (k σ : ℝ)
    (hk : (T.b - T.a).norm * (T.c - T.a).norm * d.norm ≤ k * |(Geo.normal T).dot d|) (huk : 1000 * u * k ≤ 1)
    (hσ : (T.b - T.a).norm * (T.c - T.a).norm ≤ σ * (Geo.normal T).norm) (hσ2 : 2500 * u * σ ^ 2 ≤ 1) (t s r : ℝ) (Q : V3 ℝ) (hQ : Q = Geo.at' o d t)
    (hsr : Q - T.a = (T.b - T.a).mulS s + (T.c - T.a).mulS r) (ht : 0 ≤ t) (hm : 10 * u * k * (o.dist T.a + o.dist Q) ≤ o.dist Q) (e : ℝ)
    (hb : 178 * σ ^ 3 * (u * (k * (o.dist T.a + o.dist Q) + o.norm)) ≤ e * (T.b - T.a).norm)
    (hc : 178 * σ ^ 3 * (u * (k * (o.dist T.a + o.dist Q) + o.norm)) ≤ e * (T.c - T.a).norm) (hout : s < -e ∨ r < -e ∨ 1 < (s + r - 2 * e) * (1 - u))
    (out : Option (V3 ℝ)) (h : TriHit u o d T out) : out = none := by
  obtain ⟨P, hP, si, ti, st, g1, g2, g3, g4⟩ := TriHit.coords hu hu1 hd hn hk huk hσ hσ2 hQ hsr ht hm hb hc h
  have a1 := abs_le.1 g1
  have a2 := abs_le.1 g2
  have hcond : (si < 0 ∨ 1 < si) ∨ (ti < 0 ∨ 1 < st) := by
    rcases hout with h1 | h1 | h1
    · exact Or.inl (Or.inl (by linarith))
    · exact Or.inr (Or.inl (by linarith))
    · refine Or.inr (Or.inr ?_)
      have hpos : 0 < s + r - 2 * e := by
        by_contra hle
        have := mul_nonneg (by linarith : 0 ≤ -(s + r - 2 * e)) (by linarith : 0 ≤ 1 - u)
        linarith
      have hsum0 : 0 ≤ si + ti := by linarith
      have t1 : |st - (si + ti)| ≤ u * |si + ti| := g3
      rw [abs_of_nonneg hsum0] at t1
      have t2 := mul_le_mul_of_nonneg_right (by linarith : s + r - 2 * e ≤ si + ti) (by linarith : 0 ≤ 1 - u)
      linarith [(abs_le.1 t1).1]
  rwa [if_pos hcond] at g4

open Rounded in
/-- **C195** A triangle whose plane the line of the ray meets behind the origin is no hit. -/
theorem C195_behind (u : ℝ) (hu : 0 ≤ u) (hu1 : u ≤ 1 / 100000) (o d : V3 ℝ) (hd : d ≠ ⟨0, 0, 0⟩) (T : Ray.Tri ℝ) (hn : ¬ Geo.Degenerate T) (k : ℝ)
    (hk : (T.b - T.a).norm * (T.c - T.a).norm * d.norm ≤ k * |(Geo.normal T).dot d|) (huk : 1000 * u * k ≤ 1) (t : ℝ) (Q : V3 ℝ) (hQ : Q = Geo.at' o d t)
    (hT : Geo.OnPlane T Q) (ht : t < 0) (hm : 10 * u * k * (o.dist T.a + o.dist Q) < o.dist Q) (out : Option (V3 ℝ)) (h : TriHit u o d T out) : out = none := by
  obtain ⟨pl, hpl, hnone, -⟩ := h
  exact hnone (C194_behind u hu hu1 o d hd T hn k hk huk t Q hQ hT ht hm pl hpl)

open Rounded in
theorem Rounded.InTest.exists {u : ℝ} (hu : 0 ≤ u) (T : Ray.Tri ℝ) (P : V3 ℝ) : ∃ out, InTest u T P out := by
  have df : ∀ P Q : V3 ℝ, Diff u P Q (P - Q) := fun P Q => ⟨Rd.exact hu _, Rd.exact hu _, Rd.exact hu _⟩
  have hU := df T.b T.a
  have hV := df T.c T.a
  have hw := df P T.a
  obtain ⟨si, r1⟩ : ∃ si, Rd u (((T.b - T.a).dot (T.c - T.a) * (P - T.a).dot (T.c - T.a) - (T.c - T.a).dot (T.c - T.a) * (P - T.a).dot (T.b - T.a)) /
      ((T.b - T.a).dot (T.c - T.a) * (T.b - T.a).dot (T.c - T.a) - (T.b - T.a).dot (T.b - T.a) * (T.c - T.a).dot (T.c - T.a))) si := ⟨_, Rd.exact hu _⟩
  obtain ⟨ti, r2⟩ : ∃ ti, Rd u (((T.b - T.a).dot (T.c - T.a) * (P - T.a).dot (T.b - T.a) - (T.b - T.a).dot (T.b - T.a) * (P - T.a).dot (T.c - T.a)) /
      ((T.b - T.a).dot (T.c - T.a) * (T.b - T.a).dot (T.c - T.a) - (T.b - T.a).dot (T.b - T.a) * (T.c - T.a).dot (T.c - T.a))) ti := ⟨_, Rd.exact hu _⟩
  by_cases hc : (si < 0 ∨ 1 < si) ∨ (ti < 0 ∨ 1 < si + ti)
  · exact ⟨none, _, _, _, _, _, _, _, _, _, _, _, _, _, _, si, _, _, _, ti, si + ti, hU, hV, hw, Dot.exact hu _ _, Dot.exact hu _ _, Dot.exact hu _ _, Dot.exact hu _ _,
      Dot.exact hu _ _, Rd.exact hu _, Rd.exact hu _, Rd.exact hu _, Rd.exact hu _, Rd.exact hu _, Rd.exact hu _, r1, Rd.exact hu _, Rd.exact hu _, Rd.exact hu _, r2,
      Rd.exact hu _, Or.inr (by rw [if_pos hc])⟩
  · exact ⟨some P, _, _, _, _, _, _, _, _, _, _, _, _, _, _, si, _, _, _, ti, si + ti, hU, hV, hw, Dot.exact hu _ _, Dot.exact hu _ _, Dot.exact hu _ _, Dot.exact hu _ _,
      Dot.exact hu _ _, Rd.exact hu _, Rd.exact hu _, Rd.exact hu _, Rd.exact hu _, Rd.exact hu _, Rd.exact hu _, r1, Rd.exact hu _, Rd.exact hu _, Rd.exact hu _, r2,
      Rd.exact hu _, Or.inr (by rw [if_neg hc])⟩

open Rounded in
theorem Rounded.TriHit.exists {u : ℝ} (hu : 0 ≤ u) (o d : V3 ℝ) (T : Ray.Tri ℝ) : ∃ out, TriHit u o d T out := by
  obtain ⟨pl, hpl⟩ := PlaneHit.exists hu o d T
  rcases pl with _ | P
  · exact ⟨none, none, hpl, fun _ => rfl, fun P h => by simp at h⟩
  · obtain ⟨out, hout⟩ := InTest.exists hu T P
    exact ⟨out, some P, hpl, fun h => by simp at h, fun P' h => by rw [Option.some_inj] at h; rw [← h]; exact hout⟩

open Rounded in
theorem Rounded.exDist (x y : ℝ) : V3.dist ⟨x, y, 5⟩ (⟨x, y, 0⟩ : V3 ℝ) = 5 := by
  rw [← dist_sub, V3.norm, V3.normSq, Real.sqrt_eq_iff_mul_self_eq_of_pos (by norm_num)]
  simp; norm_num

open Rounded in
/-- A ray through the point (1/4, 1/4, 0) of the triangle, and one that misses it. -/
example : (∃ out, TriHit (1 / 2 ^ 53) ⟨1 / 4, 1 / 4, 5⟩ ⟨0, 0, -1⟩ exTri out ∧ ∃ P, out = some P) ∧ ∃ out, TriHit (1 / 2 ^ 53) ⟨3, 3, 5⟩ ⟨0, 0, -1⟩ exTri out ∧ out = none := by
  obtain ⟨e1, e2, e3⟩ := exTri_norm
  have hn : ¬ Geo.Degenerate exTri := by intro h; rw [Geo.Degenerate, e3] at h; simpa using congrArg V3.z h
  have hd : (⟨0, 0, -1⟩ : V3 ℝ) ≠ ⟨0, 0, 0⟩ := by intro h; simpa using congrArg V3.z h
  have hk : (exTri.b - exTri.a).norm * (exTri.c - exTri.a).norm * (⟨0, 0, -1⟩ : V3 ℝ).norm ≤ 1 * |(Geo.normal exTri).dot ⟨0, 0, -1⟩| := by
    rw [e1, e2, e3]; simp [V3.norm, V3.normSq, V3.dot]
  have hσ : (exTri.b - exTri.a).norm * (exTri.c - exTri.a).norm ≤ 1 * (Geo.normal exTri).norm := by
    rw [e1, e2, e3]; simp [V3.norm, V3.normSq]
  have bd : ∀ x : ℝ, 0 ≤ x → x ≤ 3 → V3.norm ⟨x, x, 5⟩ ≤ 11 ∧ V3.dist ⟨x, x, 5⟩ exTri.a ≤ 11 := by
    intro x hx hx3
    have h1 : V3.norm (⟨x, x, 5⟩ : V3 ℝ) ≤ 11 := by
      refine (norm_sum _).trans ?_
      show |x| + |x| + |(5 : ℝ)| ≤ 11
      rw [abs_of_nonneg hx, abs_of_pos (by norm_num : (0 : ℝ) < 5)]
      linarith
    refine ⟨h1, ?_⟩
    rw [← dist_sub]
    refine le_trans (le_of_eq ?_) h1
    unfold V3.norm
    congr 1
    simp [V3.normSq, exTri]
  refine ⟨?_, ?_⟩
  · obtain ⟨out, h⟩ := TriHit.exists (u := 1 / 2 ^ 53) (by norm_num) ⟨1 / 4, 1 / 4, 5⟩ ⟨0, 0, -1⟩ exTri
    obtain ⟨b1, b2⟩ := bd (1 / 4) (by norm_num) (by norm_num)
    have hD := exDist (1 / 4) (1 / 4)
    obtain ⟨P, hP, -⟩ := C195_inside (1 / 2 ^ 53) (by norm_num) (by norm_num) _ _ hd exTri hn 1 1 hk (by norm_num) hσ (by norm_num) 5 (1 / 4) (1 / 4) ⟨1 / 4, 1 / 4, 0⟩
      (by ext <;> simp [Geo.at']) (by ext <;> simp [exTri]) (by norm_num) (by rw [hD]; norm_num at b2 ⊢; linarith) (1 / 10)
      (by rw [hD, e1]; norm_num at b1 b2 ⊢; linarith) (by rw [hD, e2]; norm_num at b1 b2 ⊢; linarith) (by norm_num) (by norm_num) (by norm_num) out h
    exact ⟨out, h, P, hP⟩
  · obtain ⟨out, h⟩ := TriHit.exists (u := 1 / 2 ^ 53) (by norm_num) ⟨3, 3, 5⟩ ⟨0, 0, -1⟩ exTri
    obtain ⟨b1, b2⟩ := bd 3 (by norm_num) (by norm_num)
    have hD := exDist 3 3
    exact ⟨out, h, C195_outside (1 / 2 ^ 53) (by norm_num) (by norm_num) _ _ hd exTri hn 1 1 hk (by norm_num) hσ (by norm_num) 5 3 3 ⟨3, 3, 0⟩
      (by ext <;> simp [Geo.at']) (by ext <;> simp [exTri]) (by norm_num) (by rw [hD]; norm_num at b2 ⊢; linarith) (1 / 10)
      (by rw [hD, e1]; norm_num at b1 b2 ⊢; linarith) (by rw [hD, e2]; norm_num at b1 b2 ⊢; linarith) (Or.inr (Or.inr (by norm_num))) out h⟩

open Rounded in
example : ∃ out, TriHit (1 / 2 ^ 53) ⟨0, 0, 5⟩ ⟨0, 0, 1⟩ exTri out ∧ out = none := by
  obtain ⟨out, h⟩ := TriHit.exists (u := 1 / 2 ^ 53) (by norm_num) ⟨0, 0, 5⟩ ⟨0, 0, 1⟩ exTri
  obtain ⟨e1, e2, e3⟩ := exTri_norm
  have hd := exDist 0 0
  have hda : V3.dist ⟨0, 0, 5⟩ exTri.a = 5 := hd
  exact ⟨out, h, C195_behind (1 / 2 ^ 53) (by norm_num) (by norm_num) ⟨0, 0, 5⟩ ⟨0, 0, 1⟩ (by intro h; simpa using congrArg V3.z h) exTri
    (by intro h; rw [Geo.Degenerate, e3] at h; simpa using congrArg V3.z h) 1 (by rw [e1, e2, e3]; simp [V3.norm, V3.normSq, V3.dot]) (by norm_num) (-5) ⟨0, 0, 0⟩
    (by ext <;> simp [Geo.at']) ⟨0, 0, by simp [exTri], by simp [exTri], by simp [exTri]⟩ (by norm_num) (by rw [hd, hda]; norm_num) out h⟩
