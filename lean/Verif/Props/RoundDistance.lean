import Verif.Props.RoundTrip

/-! # C152, C154: points at a given distance with rounding errors -/

namespace Rounded

open Projection Camera

theorem Rd.mono {u u' x y : ℝ} (h : u ≤ u') (hr : Rd u x y) : Rd u' x y :=
  hr.trans (mul_le_mul_of_nonneg_right h (abs_nonneg _))

theorem Dot.mono {u u' : ℝ} {p q : V3 ℝ} {y : ℝ} (h : u ≤ u') (hd : Dot u p q y) : Dot u' p q y := by
  obtain ⟨a, b, c, h1, h2, h3, h4⟩ := hd
  refine ⟨a, b, c, h1.mono h, h2.mono h, h3.mono h, ?_⟩
  rcases h4 with ⟨s, k1, k2⟩ | ⟨s, k1, k2⟩ | ⟨s, k1, k2⟩
  · exact Or.inl ⟨s, k1.mono h, k2.mono h⟩
  · exact Or.inr (Or.inl ⟨s, k1.mono h, k2.mono h⟩)
  · exact Or.inr (Or.inr ⟨s, k1.mono h, k2.mono h⟩)

theorem norm_pow {u : ℝ} (hu : 0 ≤ u) (hu1 : u ≤ 1 / 100000) :
    (1 + ((1 + ((1 + u) ^ 2 - 1)) * (1 + ((1 + u) ^ 2 - 1)) - 1)) * (1 + ((1 + u) ^ 3 - 1)) - 1 ≤ 71 / 10 * u := by
  have e : (1 + ((1 + ((1 + u) ^ 2 - 1)) * (1 + ((1 + u) ^ 2 - 1)) - 1)) * (1 + ((1 + u) ^ 3 - 1)) - 1 =
      7 * u + 21 * u ^ 2 + 35 * u ^ 3 + 35 * u ^ 4 + 21 * u ^ 5 + 7 * u ^ 6 + u ^ 7 := by ring
  have h2 : u ^ 2 ≤ u / 100000 := by nlinarith
  have h3 : u ^ 3 ≤ u / 100000 := by nlinarith [pow_nonneg hu 2]
  have h4 : u ^ 4 ≤ u / 100000 := by nlinarith [pow_nonneg hu 3]
  have h5 : u ^ 5 ≤ u / 100000 := by nlinarith [pow_nonneg hu 4]
  have h6 : u ^ 6 ≤ u / 100000 := by nlinarith [pow_nonneg hu 5]
  have h7 : u ^ 7 ≤ u / 100000 := by nlinarith [pow_nonneg hu 6]
  rw [e]
  linarith

/-- The computed length of a vector. -/
theorem norm_near {u : ℝ} (hu : 0 ≤ u) (hu1 : u ≤ 1 / 100000) {v w : V3 ℝ} {g1 g2 g3 s n : ℝ} (h1 : |g1 - 1| ≤ (1 + u) ^ 2 - 1)
    (h2 : |g2 - 1| ≤ (1 + u) ^ 2 - 1) (h3 : |g3 - 1| ≤ (1 + u) ^ 2 - 1) (e1 : w.x = v.x * g1) (e2 : w.y = v.y * g2) (e3 : w.z = v.z * g3)
    (hv : 0 < v.norm) (hs : Dot u w w s) (hn : Rd u (Real.sqrt s) n) : ∃ k, |k - 1| ≤ 82 / 10 * u ∧ n = v.norm * k := by
  obtain ⟨a, b, c, ha, hb, hc, rfl⟩ := hs.form hu
  have key : ∀ {g a : ℝ}, |g - 1| ≤ (1 + u) ^ 2 - 1 → |a - 1| ≤ (1 + u) ^ 3 - 1 → |g * g * a - 1| ≤ 71 / 10 * u := by
    intro g a hg ha
    exact (fac_mul (fac_mul hg hg) ha).trans (norm_pow hu hu1)
  have k1 := key h1 ha
  have k2 := key h2 hb
  have k3 := key h3 hc
  obtain ⟨en, hen, rfl⟩ := hn.form hu
  have hsq : v.norm ^ 2 = v.x ^ 2 + v.y ^ 2 + v.z ^ 2 := Real.sq_sqrt (V3.normSq_nonneg _)
  have hsum : w.x * w.x * a + w.y * w.y * b + w.z * w.z * c = v.x ^ 2 * (g1 * g1 * a) + v.y ^ 2 * (g2 * g2 * b) + v.z ^ 2 * (g3 * g3 * c) := by
    rw [e1, e2, e3]; ring
  rw [hsum]
  obtain ⟨S, hS⟩ : ∃ S, S = v.x ^ 2 * (g1 * g1 * a) + v.y ^ 2 * (g2 * g2 * b) + v.z ^ 2 * (g3 * g3 * c) := ⟨_, rfl⟩
  rw [← hS]
  have hp : 0 < v.norm ^ 2 := by positivity
  have lo : v.norm ^ 2 * (1 - 71 / 10 * u) ≤ S := by
    have i1 := mul_le_mul_of_nonneg_left (abs_le.1 k1).1 (sq_nonneg v.x)
    have i2 := mul_le_mul_of_nonneg_left (abs_le.1 k2).1 (sq_nonneg v.y)
    have i3 := mul_le_mul_of_nonneg_left (abs_le.1 k3).1 (sq_nonneg v.z)
    rw [hsq, hS]
    linarith
  have hi : S ≤ v.norm ^ 2 * (1 + 71 / 10 * u) := by
    have i1 := mul_le_mul_of_nonneg_left (abs_le.1 k1).2 (sq_nonneg v.x)
    have i2 := mul_le_mul_of_nonneg_left (abs_le.1 k2).2 (sq_nonneg v.y)
    have i3 := mul_le_mul_of_nonneg_left (abs_le.1 k3).2 (sq_nonneg v.z)
    rw [hsq, hS]
    linarith
  have lo' : v.norm * (1 - 71 / 10 * u) ≤ Real.sqrt S := by
    refine Real.le_sqrt_of_sq_le (le_trans ?_ lo)
    rw [mul_pow]
    refine mul_le_mul_of_nonneg_left ?_ hp.le
    nlinarith
  have hi' : Real.sqrt S ≤ v.norm * (1 + 71 / 10 * u) := by
    refine Real.sqrt_le_iff.2 ⟨by positivity, hi.trans ?_⟩
    rw [mul_pow]
    refine mul_le_mul_of_nonneg_left ?_ hp.le
    nlinarith
  have hk : |Real.sqrt S / v.norm - 1| ≤ 71 / 10 * u := by
    rw [abs_le]
    constructor
    · rw [neg_le_sub_iff_le_add, ← sub_le_iff_le_add, le_div_iff₀ hv]
      linarith
    · rw [sub_le_iff_le_add, div_le_iff₀ hv]
      linarith
  refine ⟨Real.sqrt S / v.norm * en, (fac_mul hk hen).trans (by nlinarith), ?_⟩
  field_simp

/-- The factor of a coordinate of a normed vector. -/
theorem normed_factor {u g k q : ℝ} (hu : 0 ≤ u) (hu1 : u ≤ 1 / 100000) (hg : |g - 1| ≤ (1 + u) ^ 2 - 1) (hk : |k - 1| ≤ 82 / 10 * u)
    (hq : |q - 1| ≤ u) : |g * k⁻¹ * q - 1| ≤ (1 + 6 * u) ^ 2 - 1 := by
  obtain ⟨-, hi⟩ := fac_inv (by linarith) hk
  have h := fac_mul (fac_mul hg hi) hq
  refine h.trans ?_
  have hi' : (1 - 82 / 10 * u)⁻¹ ≤ 1 + 83 / 10 * u := by
    rw [inv_le_comm₀ (by linarith) (by positivity)]
    rw [inv_le_iff_one_le_mul₀ (by positivity)]
    nlinarith
  have e : (1 + ((1 + ((1 + u) ^ 2 - 1)) * (1 + ((1 - 82 / 10 * u)⁻¹ - 1)) - 1)) * (1 + u) = (1 + u) ^ 3 * (1 - 82 / 10 * u)⁻¹ := by ring
  rw [e]
  have h3 : (1 + u) ^ 3 * (1 - 82 / 10 * u)⁻¹ ≤ (1 + u) ^ 3 * (1 + 83 / 10 * u) := mul_le_mul_of_nonneg_left hi' (by positivity)
  have e4 : (1 + u) ^ 3 * (1 + 83 / 10 * u) = 1 + 113 / 10 * u + (3 + 249 / 10) * u ^ 2 + (1 + 249 / 10) * u ^ 3 + 83 / 10 * u ^ 4 := by ring
  have h2 : u ^ 2 ≤ u / 100000 := by nlinarith
  have h3' : u ^ 3 ≤ u / 100000 := by nlinarith [pow_nonneg hu 2]
  have h4 : u ^ 4 ≤ u / 100000 := by nlinarith [pow_nonneg hu 3]
  nlinarith

theorem dot_le_size (r : V3 ℝ) {w : V3 ℝ} (h1 : |w.x| ≤ 1) (h2 : |w.y| ≤ 1) (h3 : |w.z| ≤ 1) : |r.dot w| ≤ size r := by
  simp only [V3.dot, size]
  refine (abs_add_three _ _ _).trans ?_
  rw [abs_mul, abs_mul, abs_mul]
  nlinarith [abs_nonneg r.x, abs_nonneg r.y, abs_nonneg r.z]

theorem ray_norm_pos (I : Intr) (p : V2 ℝ) : 0 < (rayR .rectilinear I p).norm := by
  unfold V3.norm
  refine Real.sqrt_pos.2 ?_
  unfold V3.normSq
  rw [show (rayR .rectilinear I p).z = -1 by simp [rayR]]
  positivity

/-- The computed normed ray is accurate. -/
theorem ray_normed_near (I : Intr) {u : ℝ} (hu : 0 ≤ u) (hu2 : u ≤ 1 / 100000) (p : V2 ℝ) (r' r : V3 ℝ) (hr : r = rayR .rectilinear I p)
    (hd : RayRect u I p true r') :
    (∃ f, |f - 1| ≤ (1 + 6 * u) ^ 2 - 1 ∧ r'.x = (r.divS r.norm).x * f) ∧ (∃ f, |f - 1| ≤ (1 + 6 * u) ^ 2 - 1 ∧ r'.y = (r.divS r.norm).y * f) ∧
      ∃ f, |f - 1| ≤ (1 + 6 * u) ^ 2 - 1 ∧ r'.z = (r.divS r.norm).z * f := by
  obtain ⟨A, B, C, E, g1, g2, g3, g4, g5⟩ := hd
  simp only [if_true] at g5
  obtain ⟨q, ⟨s, n, hs, hn, q1, q2, q3⟩, rfl⟩ := g5
  obtain ⟨eA, heA, rfl⟩ := g1.form hu
  obtain ⟨eB, heB, rfl⟩ := g2.form hu
  obtain ⟨eC, heC, rfl⟩ := g3.form hu
  obtain ⟨eE, heE, rfl⟩ := g4.form hu
  have hrz : r.z = -1 := by rw [hr]; simp [rayR]
  have hpos : 0 < r.norm := by rw [hr]; exact ray_norm_pos I p
  have sq : (1 + u) ^ 2 = (1 + u) * (1 + u) := sq _
  have f1 : |eA * eB - 1| ≤ (1 + u) ^ 2 - 1 := by rw [sq]; exact fac_mul heA heB
  have f2 : |eC * eE - 1| ≤ (1 + u) ^ 2 - 1 := by rw [sq]; exact fac_mul heC heE
  have f3 : |(1 : ℝ) - 1| ≤ (1 + u) ^ 2 - 1 := by rw [sub_self, abs_zero]; nlinarith
  have x1 : -((p.x - I.cx) * eA) / I.fx * eB = -(r.x * (eA * eB)) := by rw [hr]; simp [rayR]; ring
  have x2 : (p.y - I.cy) * eC / I.fy * eE = -(r.y * (eC * eE)) := by rw [hr]; simp [rayR]; ring
  rw [x1, x2] at hs
  rw [x1] at q1
  rw [x2] at q2
  have hnn : (-r).norm = r.norm := by simp [V3.norm, V3.normSq]
  obtain ⟨k, hk, hnk⟩ := norm_near (v := -r) hu hu2 f1 f2 f3 (w := ⟨-(r.x * (eA * eB)), -(r.y * (eC * eE)), 1⟩)
    (by simp only [V3.neg_x]; ring) (by simp only [V3.neg_y]; ring) (by simp only [V3.neg_z, hrz]; norm_num)
    (by rw [hnn]; exact hpos) hs hn
  rw [hnn] at hnk
  have hk0 : k ≠ 0 := by
    have := (abs_le.1 hk).1
    intro h
    rw [h] at this
    linarith
  obtain ⟨d1, hd1, y1⟩ := q1.form hu
  obtain ⟨d2, hd2, y2⟩ := q2.form hu
  obtain ⟨d3, hd3, y3⟩ := q3.form hu
  refine ⟨⟨eA * eB * k⁻¹ * d1, normed_factor hu hu2 f1 hk hd1, ?_⟩, ⟨eC * eE * k⁻¹ * d2, normed_factor hu hu2 f2 hk hd2, ?_⟩,
    ⟨1 * k⁻¹ * d3, normed_factor hu hu2 f3 hk hd3, ?_⟩⟩
  · simp only [V3.neg_x, y1, hnk]
    rw [show (r.divS r.norm).x = r.x / r.norm from rfl]
    field_simp
  · simp only [V3.neg_y, y2, hnk]
    rw [show (r.divS r.norm).y = r.y / r.norm from rfl]
    field_simp
  · simp only [V3.neg_z, y3, hnk]
    rw [show (r.divS r.norm).z = r.z / r.norm from rfl, hrz]
    field_simp

/-- The computed direction of a normed ray is accurate. -/
theorem direction_normed_near (I : Intr) {u e : ℝ} (hu : 0 ≤ u) (hu1 : u ≤ 1 / 600000) (he1 : e ≤ 1 / 1000) (o : Orient) (Rinv : M3)
    (hR : Near e Rinv o.mat.Rinv) (p : V2 ℝ) (dir r : V3 ℝ) (hr : r = rayR .rectilinear I p) (hd : Direction u I Rinv p true dir) (j : Fin 3) :
    |dir.get j - (o.mat.Rinv.applyR r).get j / r.norm| ≤ (e + 36 * u) * (size r / r.norm) ∧
      |(o.mat.Rinv.applyR r).get j / r.norm| ≤ size r / r.norm := by
  obtain ⟨r', hr', k1, k2, k3⟩ := hd
  obtain ⟨n1, n2, n3, n4, n5, n6, n7, n8, n9⟩ := hR
  have he : 0 ≤ e := (abs_nonneg _).trans n1
  have hb := inv_le o
  simp only [Near, sub_zero] at hb
  obtain ⟨b1, b2, b3, b4, b5, b6, b7, b8, b9⟩ := hb
  obtain ⟨r1, r2, r3⟩ := ray_normed_near I hu (by linarith) p r' r hr hr'
  have hpos : 0 < r.norm := by rw [hr]; exact ray_norm_pos I p
  have hsz : size (r.divS r.norm) = size r / r.norm := by
    show |r.x / r.norm| + |r.y / r.norm| + |r.z / r.norm| = (|r.x| + |r.y| + |r.z|) / r.norm
    rw [abs_div, abs_div, abs_div, abs_of_pos hpos]
    ring
  have hdot : ∀ w : V3 ℝ, (r.divS r.norm).dot w = r.dot w / r.norm := by
    intro w
    show r.x / r.norm * w.x + r.y / r.norm * w.y + r.z / r.norm * w.z = (r.x * w.x + r.y * w.y + r.z * w.z) / r.norm
    ring
  have key : ∀ w : V3 ℝ, |w.x| ≤ 1 → |w.y| ≤ 1 → |w.z| ≤ 1 → |r.dot w / r.norm| ≤ size r / r.norm := by
    intro w h1 h2 h3
    rw [abs_div, abs_of_pos hpos]
    exact div_le_div_of_nonneg_right (dot_le_size r h1 h2 h3) hpos.le
  have near : ∀ {y : ℝ} {w w' : V3 ℝ}, |w'.x - w.x| ≤ e → |w'.y - w.y| ≤ e → |w'.z - w.z| ≤ e → |w.x| ≤ 1 → |w.y| ≤ 1 → |w.z| ≤ 1 →
      Dot u r' w' y → |y - r.dot w / r.norm| ≤ (e + 36 * u) * (size r / r.norm) := by
    intro y w w' a1 a2 a3 c1 c2 c3 hy
    have h := row_near (u := 6 * u) (by positivity) (by linarith) he he1 r1 r2 r3 a1 a2 a3 c1 c2 c3 (hy.mono (by linarith))
    rw [hdot, hsz] at h
    rw [show 36 * u = 6 * (6 * u) by ring]
    exact h
  fin_cases j
  · exact ⟨near n1 n2 n3 b1 b2 b3 k1, key _ b1 b2 b3⟩
  · exact ⟨near n4 n5 n6 b4 b5 b6 k2, key _ b4 b5 b6⟩
  · exact ⟨near n7 n8 n9 b7 b8 b9 k3, key _ b7 b8 b9⟩

theorem size_le_norm (r : V3 ℝ) : size r ≤ 7 / 4 * r.norm := by
  have h0 : 0 ≤ 7 / 4 * r.norm := mul_nonneg (by norm_num) (Real.sqrt_nonneg _)
  refine abs_le_of_sq_le_sq' ?_ h0 |>.2
  have hsq : r.norm ^ 2 = r.x ^ 2 + r.y ^ 2 + r.z ^ 2 := Real.sq_sqrt (V3.normSq_nonneg _)
  rw [mul_pow, hsq]
  unfold size
  rw [← sq_abs r.x, ← sq_abs r.y, ← sq_abs r.z]
  nlinarith [sq_nonneg (|r.x| - |r.y|), sq_nonneg (|r.y| - |r.z|), sq_nonneg (|r.x| - |r.z|), sq_nonneg |r.x|, sq_nonneg |r.y|, sq_nonneg |r.z|]

/-- A coordinate of the point at a distance. -/
theorem distance_coord {u e N t D d d' m q : ℝ} (hu : 0 ≤ u) (hu1 : u ≤ 1 / 600000) (he : 0 ≤ e) (he1 : e ≤ 1 / 1000) (hN : 0 ≤ N)
    (hD : 0 ≤ D) (hd' : |d' - d| ≤ (e + 36 * u) * N) (hd : |d| ≤ N) (hm : Rd u (d' * D) m) (hq : Rd u (m + t) q) :
    |q - t - D * d| ≤ D * ((e + 39 * u) * N) + u * |t| := by
  obtain ⟨em, hem, rfl⟩ := hm.form hu
  obtain ⟨eq, heq, rfl⟩ := hq.form hu
  have hg := fac_mul hem heq
  obtain ⟨g, hgg⟩ : ∃ g, g = em * eq := ⟨_, rfl⟩
  rw [← hgg] at hg
  have hg' : |g - 1| ≤ 21 / 10 * u := by nlinarith
  have e1 : (d' * D * em + t) * eq - t - D * d = D * ((d' - d) * g + d * (g - 1)) + t * (eq - 1) := by rw [hgg]; ring
  have hga : |g| ≤ 1 + 21 / 10 * u := by
    have := abs_add_le (g - 1) 1
    rw [sub_add_cancel, _root_.abs_one] at this
    linarith
  have h1 : |(d' - d) * g| ≤ (e + 36 * u) * N * (1 + 21 / 10 * u) := by
    rw [abs_mul]
    exact mul_le_mul hd' hga (abs_nonneg _) (by positivity)
  have h2 : |d * (g - 1)| ≤ N * (21 / 10 * u) := by
    rw [abs_mul]
    exact mul_le_mul hd hg' (abs_nonneg _) hN
  have h3 : |t * (eq - 1)| ≤ u * |t| := by
    rw [abs_mul, mul_comm]
    exact mul_le_mul_of_nonneg_right heq (abs_nonneg _)
  have h4 : |(d' - d) * g + d * (g - 1)| ≤ (e + 39 * u) * N := by
    refine (abs_add_le _ _).trans ((add_le_add h1 h2).trans ?_)
    have : (e + 36 * u) * (1 + 21 / 10 * u) + 21 / 10 * u ≤ e + 39 * u := by nlinarith
    have := mul_le_mul_of_nonneg_right this hN
    linarith
  rw [e1]
  refine (abs_add_le _ _).trans ?_
  rw [abs_mul D, abs_of_nonneg hD]
  have := mul_le_mul_of_nonneg_left h4 hD
  linarith

end Rounded

theorem Rounded.pos_le (t : V3 ℝ) (j : Fin 3) : |t.get j| ≤ Rounded.size t := by
  have h1 := abs_nonneg t.x
  have h2 := abs_nonneg t.y
  have h3 := abs_nonneg t.z
  unfold Rounded.size
  fin_cases j
  · show |t.x| ≤ _; linarith
  · show |t.y| ≤ _; linarith
  · show |t.z| ≤ _; linarith

open Projection Rounded Camera in
/-- The computed point at a distance, seen from the camera. -/
theorem Rounded.at_distance (I : Intr) {u e : ℝ} (hu : 0 ≤ u) (hu1 : u ≤ 1 / 600000) (he1 : e ≤ 1 / 1000)
    (o : Orient) (Rinv : M3) (hR : Near e Rinv o.mat.Rinv) (p : V2 ℝ) (D : ℝ) (hD : 0 ≤ D) (r : V3 ℝ) (hr : r = rayR .rectilinear I p) (out : V3 Num)
    (ho : SpaceFromImageD u I o.pos Rinv p D out) :
    ∃ q : V3 ℝ, out.Is q ∧ ∀ j, |q.get j - o.pos.get j - D * ((o.mat.Rinv.applyR r).get j / r.norm)| ≤
      D * ((e + 39 * u) * (size r / r.norm)) + u * |o.pos.get j| := by
  have he : 0 ≤ e := (abs_nonneg _).trans hR.1
  obtain ⟨dir, hdir, hq⟩ := ho
  have hn := direction_normed_near I hu hu1 he1 o Rinv hR p dir r hr hdir
  have hpos : 0 < r.norm := by rw [hr]; exact ray_norm_pos I p
  have hN : 0 ≤ size r / r.norm := div_nonneg (size_nonneg _) hpos.le
  unfold PointAt at hq
  rw [if_neg (by linarith)] at hq
  obtain ⟨m1, m2, m3, x, y, z, i1, i2, i3, i4, i5, i6, hq⟩ := hq
  refine ⟨_, hq, fun j => ?_⟩
  fin_cases j
  · exact distance_coord hu hu1 he he1 hN hD (hn 0).1 (hn 0).2 i1 i2
  · exact distance_coord hu hu1 he he1 hN hD (hn 1).1 (hn 1).2 i3 i4
  · exact distance_coord hu hu1 he he1 hN hD (hn 2).1 (hn 2).2 i5 i6

open Projection Rounded Camera in
/-- **C152** The point at a given distance that is seen at a pixel is accurate up to rounding errors. -/
theorem C152_distance (I : Intr) (hfx : I.fx ≠ 0) (hfy : I.fy ≠ 0) (u e : ℝ) (hu : 0 ≤ u) (hu1 : u ≤ 1 / 600000) (he1 : e ≤ 1 / 1000)
    (o : Orient) (Rinv : M3) (hR : Near e Rinv o.mat.Rinv) (p : V2 ℝ) (D : ℝ) (hD : 0 ≤ D) (out : V3 Num)
    (ho : SpaceFromImageD u I o.pos Rinv p D out) :
    ∃ (w : V3 Num) (q q0 : V3 ℝ), out.Is q ∧
      spaceFromImage ⟨.rectilinear, I, o, noDistortion⟩ p.num { D := some (.fin D) } = .ok w ∧ w.Is q0 ∧
      ∀ j : Fin 3, |q.get j - q0.get j| ≤ (2 * e + 70 * u) * D + u * |o.pos.get j| := by
  have he : 0 ≤ e := (abs_nonneg _).trans hR.1
  obtain ⟨r, hr⟩ : ∃ r, r = rayR .rectilinear I p := ⟨_, rfl⟩
  have hpos : 0 < r.norm := by rw [hr]; exact ray_norm_pos I p
  obtain ⟨q, hq, hj⟩ := at_distance I hu hu1 he1 o Rinv hR p D hD r hr out ho
  have hoff := getRay_offset ⟨.rectilinear, I, o, noDistortion⟩ p.num true
  obtain ⟨s, -, -, hs, hdir⟩ := getRay_dir ⟨.rectilinear, I, o, noDistortion⟩ hfx hfy (V2.is_num p) true
  have hinv : o.mat.Rinv = o.mat.R.T := by cases o <;> exact Spatial.inv_rot _ _ _
  have hdr : dirR ⟨.rectilinear, I, o, noDistortion⟩ p = o.mat.Rinv.applyR r := by rw [hinv, hr]; rfl
  have hnorm : (dirR ⟨.rectilinear, I, o, noDistortion⟩ p).norm = r.norm := by
    rw [hr]
    unfold dirR V3.norm
    rw [M3.normSq_applyR (A := o.mat.R.T) (rigid_mat o).RT]
  have hsr : s = 1 / r.norm := by rw [hs rfl, hnorm]
  have hpt := pointAt_is hdir hoff (Num.is_fin D) hD
  refine ⟨_, q, _, hq, rfl, hpt, fun j => ?_⟩
  have e1 : ((dirR ⟨.rectilinear, I, o, noDistortion⟩ p).mulS s |>.mulS D |> (· + o.pos)).get j =
      D * ((o.mat.Rinv.applyR r).get j / r.norm) + o.pos.get j := by
    rw [hdr, hsr]
    fin_cases j
    · show (o.mat.Rinv.applyR r).x * (1 / r.norm) * D + o.pos.x = D * ((o.mat.Rinv.applyR r).x / r.norm) + o.pos.x
      ring
    · show (o.mat.Rinv.applyR r).y * (1 / r.norm) * D + o.pos.y = D * ((o.mat.Rinv.applyR r).y / r.norm) + o.pos.y
      ring
    · show (o.mat.Rinv.applyR r).z * (1 / r.norm) * D + o.pos.z = D * ((o.mat.Rinv.applyR r).z / r.norm) + o.pos.z
      ring
  have h := hj j
  have hN : size r / r.norm ≤ 7 / 4 := by
    rw [div_le_iff₀ hpos]
    exact size_le_norm r
  have hb : D * ((e + 39 * u) * (size r / r.norm)) ≤ (2 * e + 70 * u) * D := by
    have h1 := mul_le_mul_of_nonneg_left hN (by positivity : 0 ≤ D * (e + 39 * u))
    have h2 : 0 ≤ D * e := by positivity
    have h3 : 0 ≤ D * u := by positivity
    linarith
  rw [show q.get j - (((dirR ⟨.rectilinear, I, o, noDistortion⟩ p).mulS s).mulS D + o.pos).get j =
    q.get j - o.pos.get j - D * ((o.mat.Rinv.applyR r).get j / r.norm) by rw [show _ = _ from e1]; ring]
  linarith

open Projection Rounded Camera in
/-- **C154** From a pixel to a given distance and back. -/
theorem C154_distance (I : Intr) (hfx : I.fx ≠ 0) (hfy : I.fy ≠ 0) (u e : ℝ) (hu : 0 ≤ u) (hu1 : u ≤ 1 / 600000) (he1 : e ≤ 1 / 1000)
    (o : Orient) (R Rinv : M3) (hR : Near e R o.mat.R) (hRi : Near e Rinv o.mat.Rinv) (p : V2 ℝ) (hide : Bool) (D : ℝ) (r : V3 ℝ)
    (hr : (Projection.getRay .rectilinear I p.num).Is r) (hD : 3 * minDepth * r.norm ≤ D)
    (hsmall : (e + 39 * u) * size r + u * size o.pos * r.norm / D ≤ 1 / 30) (g : V3 Num) (hg : SpaceFromImageD u I o.pos Rinv p D g) :
    ∃ P : V3 ℝ, g.Is P ∧ ∀ out, ImageFromSpace u I o.pos R P hide out →
    ∃ w : V2 ℝ, out.Is w ∧
      |w.x - p.x| ≤ ((12 * e + 197 * u) * size r + 4 * u * size o.pos * r.norm / D) * (|I.fx| + |p.x - I.cx|) + u * |I.cx| ∧
      |w.y - p.y| ≤ ((12 * e + 197 * u) * size r + 4 * u * size o.pos * r.norm / D) * (|I.fy| + |p.y - I.cy|) + u * |I.cy| := by
  have he : 0 ≤ e := (abs_nonneg _).trans hR.1
  have hrr : r = rayR .rectilinear I p := hr.unique (getRay_is .rectilinear hfx hfy (V2.is_num p))
  have hpos : 0 < r.norm := by rw [hrr]; exact ray_norm_pos I p
  have hmp : 0 < minDepth := by norm_num [minDepth]
  have hD0 : 0 < D := lt_of_lt_of_le (by positivity) hD
  obtain ⟨P, hP, hj⟩ := at_distance I hu hu1 he1 o Rinv hRi p D hD0.le r hrr g hg
  refine ⟨P, hP, fun out ho => ?_⟩
  have hf : 3 * minDepth ≤ D / r.norm := by rwa [le_div_iff₀ hpos]
  have hS : 0 ≤ size r := size_nonneg r
  have hT : 0 ≤ size o.pos := size_nonneg _
  have hx : 0 ≤ u * size o.pos * r.norm / D := by positivity
  have hpt : ∀ j, |(P - o.pos).get j - D / r.norm * (o.mat.Rinv.applyR (rayR .rectilinear I p)).get j| ≤
      D / r.norm * ((e + 39 * u) * size r + u * size o.pos * r.norm / D) := by
    intro j
    have h := hj j
    rw [hrr] at h
    have e1 : (P - o.pos).get j = P.get j - o.pos.get j := by fin_cases j <;> rfl
    have e2 : D / r.norm * ((e + 39 * u) * size r + u * size o.pos * r.norm / D) = D * ((e + 39 * u) * (size r / r.norm)) + u * size o.pos := by
      field_simp
    rw [e1, e2, hrr, show D / (rayR .rectilinear I p).norm * (o.mat.Rinv.applyR (rayR .rectilinear I p)).get j =
      D * ((o.mat.Rinv.applyR (rayR .rectilinear I p)).get j / (rayR .rectilinear I p).norm) by ring]
    have := mul_le_mul_of_nonneg_left (pos_le o.pos j) hu
    linarith
  have hes : (e + 6 * u) * size r ≤ 1 / 30 := by
    have h1 : 0 ≤ u * size r := by positivity
    linarith
  rw [hrr] at hes
  obtain ⟨w, w1, w2, w3⟩ := back I hfx hfy hu (by linarith) he1 o R hR p hide hf (by linarith) hes _ hpt out ho
  rw [← hrr] at w2 w3
  have fin : ∀ G : ℝ, 0 ≤ G → ((8 * e + 67 * u) * size r + 10 / 3 * ((e + 39 * u) * size r + u * size o.pos * r.norm / D)) * G ≤
      ((12 * e + 197 * u) * size r + 4 * u * size o.pos * r.norm / D) * G := by
    intro G hG
    refine mul_le_mul_of_nonneg_right ?_ hG
    have h1 : 0 ≤ e * size r := by positivity
    have e2 : 4 * u * size o.pos * r.norm / D = 4 * (u * size o.pos * r.norm / D) := by ring
    rw [e2]
    linarith
  have f1 := fin (|I.fx| + |p.x - I.cx|) (by positivity)
  have f2 := fin (|I.fy| + |p.y - I.cy|) (by positivity)
  exact ⟨w, w1, by linarith, by linarith⟩

open Rounded in
theorem Rounded.SpaceFromImageD.exists {u : ℝ} (hu : 0 ≤ u) (I : Projection.Intr) (t : V3 ℝ) (Rinv : M3) (p : V2 ℝ) (D : ℝ) :
    ∃ out, Rounded.SpaceFromImageD u I t Rinv p D out := by
  have key : ∀ dir f, ∃ out, PointAt u t dir f out := by
    intro dir f
    unfold PointAt
    split_ifs
    · exact ⟨_, rfl⟩
    · exact ⟨_, _, _, _, _, _, _, Rd.exact hu _, Rd.exact hu _, Rd.exact hu _, Rd.exact hu _, Rd.exact hu _, Rd.exact hu _, V3.is_num _⟩
  have ray : ∃ r, RayRect u I p true r := by
    have nrm : ∀ v, ∃ q, Normed u v q := fun v => ⟨⟨_, _, _⟩, _, _, Dot.exact hu _ _, Rd.exact hu _, Rd.exact hu _, Rd.exact hu _, Rd.exact hu _⟩
    obtain ⟨q, hq⟩ := nrm ⟨-(p.x - I.cx) / I.fx, (p.y - I.cy) / I.fy, 1⟩
    refine ⟨-q, _, _, _, _, Rd.exact hu _, Rd.exact hu _, Rd.exact hu _, Rd.exact hu _, ?_⟩
    rw [if_pos rfl]
    exact ⟨q, hq, rfl⟩
  obtain ⟨r, hr⟩ := ray
  obtain ⟨out, h⟩ := key ⟨_, _, _⟩ D
  exact ⟨out, _, ⟨r, hr, Dot.exact hu _ _, Dot.exact hu _ _, Dot.exact hu _ _⟩, h⟩

open Rounded Camera in
/-- The hypotheses can be met. -/
example : ∃ g, SpaceFromImageD (1 / 2 ^ 50) ⟨100, 100, 50, 25, 100, 50⟩ exOrient.pos exOrient.mat.Rinv ⟨60, 45⟩ 100 g ∧
    (∃ (w : V3 Num) (q q0 : V3 ℝ), g.Is q ∧
      spaceFromImage ⟨.rectilinear, ⟨100, 100, 50, 25, 100, 50⟩, exOrient, noDistortion⟩ (V2.num ⟨60, 45⟩) { D := some (.fin 100) } = .ok w ∧ w.Is q0 ∧
      |q.get 0 - q0.get 0| ≤ 1 / 10 ^ 10) ∧
    ∃ P : V3 ℝ, g.Is P ∧ ∃ out, ImageFromSpace (1 / 2 ^ 50) ⟨100, 100, 50, 25, 100, 50⟩ exOrient.pos exOrient.mat.R P true out ∧ ∃ w : V2 ℝ, out.Is w := by
  obtain ⟨g, hg⟩ := SpaceFromImageD.exists (u := 1 / 2 ^ 50) (by norm_num) ⟨100, 100, 50, 25, 100, 50⟩ exOrient.pos exOrient.mat.Rinv ⟨60, 45⟩ 100
  have hr : (Projection.getRay .rectilinear ⟨100, 100, 50, 25, 100, 50⟩ (V2.num ⟨60, 45⟩)).Is ⟨1 / 10, -(1 / 5), -1⟩ :=
    (Projection.getRay_is .rectilinear (by norm_num) (by norm_num) (V2.is_num _)).congr (by norm_num [Projection.rayR])
  have hn : (⟨1 / 10, -(1 / 5), -1⟩ : V3 ℝ).norm ≤ 2 := by
    unfold V3.norm
    rw [Real.sqrt_le_left (by norm_num)]
    norm_num [V3.normSq]
  have hn0 : 0 ≤ (⟨1 / 10, -(1 / 5), -1⟩ : V3 ℝ).norm := Real.sqrt_nonneg _
  have hpos : size exOrient.pos = 10 := by norm_num [size, exOrient, Orient.pos]
  obtain ⟨w, q, q0, a1, a2, a3, a4⟩ := C152_distance ⟨100, 100, 50, 25, 100, 50⟩ (by norm_num) (by norm_num) (1 / 2 ^ 50) 0 (by norm_num) (by norm_num)
    (by norm_num) exOrient _ (Near.refl (by norm_num) _) ⟨60, 45⟩ 100 (by norm_num) g hg
  obtain ⟨P, hP, h2⟩ := C154_distance ⟨100, 100, 50, 25, 100, 50⟩ (by norm_num) (by norm_num) (1 / 2 ^ 50) 0 (by norm_num) (by norm_num)
    (by norm_num) exOrient _ _ (Near.refl (by norm_num) _) (Near.refl (by norm_num) _) ⟨60, 45⟩ true 100 _ hr
    (by norm_num [Projection.minDepth]; linarith) (by rw [hpos]; norm_num [size, abs_of_nonneg, abs_of_nonpos] at hn ⊢; linarith) g hg
  obtain ⟨out, ho⟩ := ImageFromSpace.exists (u := 1 / 2 ^ 50) (by norm_num) ⟨100, 100, 50, 25, 100, 50⟩ exOrient.pos exOrient.mat.R P true
  obtain ⟨v, v1, -⟩ := h2 out ho
  refine ⟨g, hg, ⟨w, q, q0, a1, a2, a3, (a4 0).trans ?_⟩, P, hP, out, ho, v, v1⟩
  norm_num [exOrient, Orient.pos, V3.get]
