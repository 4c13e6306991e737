import Verif.Model.RoundedObject
import Verif.Props.RoundTest

/-! # C186: lengths and heights of objects with rounding errors -/

namespace Rounded

open Projection Camera

/-- The direction of the ray of a pixel, not normed. -/
theorem dir_any (k : Kind) (I : Intr) {u e : ℝ} (hu : 0 ≤ u) (hu1 : u ≤ 1 / 100000) (he1 : e ≤ 9 / 10000) (o : Orient) (Rinv : M3)
    (hR : Near e Rinv o.mat.Rinv) (p : V2 ℝ) (hp : k = .equirectangular → Real.cos ((p.y - I.cy) / I.fy) ≠ 0) (i : Fin 3)
    (hfar : 2 * (e + 8 * u) * raySize k I p ≤ |(o.mat.Rinv.applyR (rayR k I p)).get i|) (dir : V3 ℝ) (hd : DirectionAny u k I Rinv p false dir) (j : Fin 3) :
    |dir.get j - (o.mat.Rinv.applyR (rayR k I p)).get j| ≤ (e + 8 * u) * raySize k I p ∧
      |(o.mat.Rinv.applyR (rayR k I p)).get j| ≤ raySize k I p := by
  by_cases hk : k = .rectilinear
  · subst hk
    obtain ⟨r', hr', k1, k2, k3⟩ := hd
    have hn := rect_near I hu hu1 p r' hr'
    obtain ⟨m1, m2, m3, m4, m5, m6, m7, m8, m9⟩ := hR
    have he : 0 ≤ e := (abs_nonneg _).trans m1
    have hb := inv_le o
    simp only [Near, sub_zero] at hb
    obtain ⟨b1, b2, b3, b4, b5, b6, b7, b8, b9⟩ := hb
    have he2 : e ≤ 1 / 1000 := by linarith
    show _ ≤ (e + 8 * u) * size (rayR .rectilinear I p) ∧ _ ≤ size (rayR .rectilinear I p)
    fin_cases j
    · exact ⟨row_abs hu hu1 he he2 hn le_rfl m1 m2 m3 b1 b2 b3 k1, dot_le_size _ b1 b2 b3⟩
    · exact ⟨row_abs hu hu1 he he2 hn le_rfl m4 m5 m6 b4 b5 b6 k2, dot_le_size _ b4 b5 b6⟩
    · exact ⟨row_abs hu hu1 he he2 hn le_rfl m7 m8 m9 b7 b8 b9 k3, dot_le_size _ b7 b8 b9⟩
  · have eN : raySize k I p = panSize k I p := by
      cases k with
      | rectilinear => exact absurd rfl hk
      | cylindrical => rfl
      | equirectangular => rfl
    have hd : DirectionPan u k I Rinv p false dir := by
      cases k with
      | rectilinear => exact absurd rfl hk
      | cylindrical => exact hd
      | equirectangular => exact hd
    rw [eN] at hfar ⊢
    obtain ⟨g1, g2, g3⟩ := direction_pan k hk I hu hu1 (by linarith) o Rinv hR p hp i hfar dir hd j
    exact ⟨g1, g2.trans g3⟩

/-- The point of a plane on the ray of a pixel. -/
theorem plane_any (k : Kind) (I : Intr) {u e : ℝ} (hu : 0 ≤ u) (hu1 : u ≤ 1 / 100000) (he1 : e ≤ 9 / 10000) (o : Orient) (Rinv : M3)
    (hR : Near e Rinv o.mat.Rinv) (p : V2 ℝ) (hp : k = .equirectangular → Real.cos ((p.y - I.cy) / I.fy) ≠ 0) (i : Fin 3) {d : V3 ℝ}
    (hd : d = o.mat.Rinv.applyR (rayR k I p)) (hfar : 2 * (e + 8 * u) * raySize k I p < |d.get i|) {v s : ℝ} (hs : 0 ≤ s) (hv : v = o.pos.get i + d.get i * s)
    (out : V3 Num) (ho : SpaceFromImageAny u k I o.pos Rinv p i v out) :
    ∃ q, out.Is q ∧ ∀ j, |q.get j - (o.pos.get j + d.get j * s)| ≤
      (2 * e + 21 * u) * (raySize k I p / |d.get i|) * (|v - o.pos.get i| + |d.get j * s|) + u * |o.pos.get j| := by
  obtain ⟨dir, a, hdir, ha, hcase⟩ := ho
  have he : 0 ≤ e := (abs_nonneg _).trans hR.1
  have hn := dir_any k I hu hu1 he1 o Rinv hR p hp i (by rw [← hd]; exact hfar.le) dir hdir
  rw [← hd] at hn
  obtain ⟨N, hN⟩ : ∃ N, N = raySize k I p := ⟨_, rfl⟩
  rw [← hN] at hn hfar ⊢
  have hle : ∀ j, |d.get j| ≤ N := fun j => (hn j).2
  have hnear : ∀ j, |dir.get j - d.get j| ≤ (e + 2 * u + 6 * u) * N := fun j => (hn j).1.trans (le_of_eq (by ring))
  have hfar' : 2 * (e + 2 * u + 6 * u) * N < |d.get i| := lt_of_eq_of_lt (by ring) hfar
  have hS : 0 ≤ N := (abs_nonneg _).trans (hle i)
  have hd0 : d.get i ≠ 0 := by
    intro h
    rw [h, abs_zero] at hfar
    have : 0 ≤ 2 * (e + 8 * u) * N := by positivity
    linarith
  have es : (v - o.pos.get i) / d.get i = s := by rw [hv]; field_simp; ring
  rcases hcase with ⟨hz, -⟩ | ⟨-, f, hf, hq⟩
  · have h1 := hnear i
    rw [hz, zero_sub, abs_neg] at h1
    have : 0 ≤ (e + 2 * u + 6 * u) * N := by positivity
    linarith
  · obtain ⟨ea, hea, rfl⟩ := ha.form hu
    obtain ⟨ef, hef, rfl⟩ := hf.form hu
    have hfn := factor_sign hu1 hd0 (hnear i) hfar'.le hea hef (es.symm ▸ hs)
    unfold PointAt at hq
    rw [if_neg hfn] at hq
    obtain ⟨m1, m2, m3, x, y, z, i1, i2, i3, i4, i5, i6, hq⟩ := hq
    have he2 : e + 2 * u ≤ 1 / 1000 := by linarith
    have hc : 2 * (e + 2 * u) + 17 * u = 2 * e + 21 * u := by ring
    rw [← hc]
    have fin : ∀ {q t x B : ℝ}, |q - (x * ((v - o.pos.get i) / d.get i) + t)| ≤ B * (|v - o.pos.get i| + |x * ((v - o.pos.get i) / d.get i) + t - t|) + u * |t| →
        |q - (t + x * s)| ≤ B * (|v - o.pos.get i| + |x * s|) + u * |t| := by
      intro q t x B h
      rw [es] at h
      rwa [add_sub_cancel_right, add_comm (x * s) t] at h
    refine ⟨_, hq, fun j => ?_⟩
    fin_cases j
    · exact fin (plane_coord hu hu1 he2 hd0 (hle i) (hnear i) hfar'.le hea hef (hnear 0) i1 i2)
    · exact fin (plane_coord hu hu1 he2 hd0 (hle i) (hnear i) hfar'.le hea hef (hnear 1) i3 i4)
    · exact fin (plane_coord hu hu1 he2 hd0 (hle i) (hnear i) hfar'.le hea hef (hnear 2) i5 i6)

/-- The length of the computed difference of two points. -/
theorem length_near {u : ℝ} (hu : 0 ≤ u) (hu1 : u ≤ 1 / 100000) {F B d : V3 ℝ} {s n : ℝ} (h1 : Rd u (F.x - B.x) d.x) (h2 : Rd u (F.y - B.y) d.y)
    (h3 : Rd u (F.z - B.z) d.z) (hs : Dot u d d s) (hn : Rd u (Real.sqrt s) n) : |n - (F - B).norm| ≤ 82 / 10 * u * (F - B).norm := by
  rcases (Real.sqrt_nonneg (F - B).normSq).eq_or_lt with h | h
  · have h0 : (F - B).normSq = 0 := (Real.sqrt_eq_zero (V3.normSq_nonneg _)).1 h.symm
    have z1 : F.x - B.x = 0 := by simp only [V3.normSq, V3.sub_x, V3.sub_y, V3.sub_z] at h0; nlinarith [sq_nonneg (F.x - B.x), sq_nonneg (F.y - B.y), sq_nonneg (F.z - B.z)]
    have z2 : F.y - B.y = 0 := by simp only [V3.normSq, V3.sub_x, V3.sub_y, V3.sub_z] at h0; nlinarith [sq_nonneg (F.x - B.x), sq_nonneg (F.y - B.y), sq_nonneg (F.z - B.z)]
    have z3 : F.z - B.z = 0 := by simp only [V3.normSq, V3.sub_x, V3.sub_y, V3.sub_z] at h0; nlinarith [sq_nonneg (F.x - B.x), sq_nonneg (F.y - B.y), sq_nonneg (F.z - B.z)]
    rw [z1] at h1
    rw [z2] at h2
    rw [z3] at h3
    have e1 : d.x = 0 := by simpa [Rd] using h1
    have e2 : d.y = 0 := by simpa [Rd] using h2
    have e3 : d.z = 0 := by simpa [Rd] using h3
    obtain ⟨a, b, c, -, -, -, e4⟩ := hs.form hu
    rw [e1, e2, e3] at e4
    simp only [zero_mul, add_zero] at e4
    rw [e4, Real.sqrt_zero] at hn
    have e5 : n = 0 := by simpa [Rd] using hn
    show |n - Real.sqrt _| ≤ _ * Real.sqrt _
    rw [← h, e5]
    simp
  · have sq : u ≤ (1 + u) ^ 2 - 1 := by nlinarith
    obtain ⟨g1, k1, e1⟩ := h1.form hu
    obtain ⟨g2, k2, e2⟩ := h2.form hu
    obtain ⟨g3, k3, e3⟩ := h3.form hu
    obtain ⟨k, hk, rfl⟩ := norm_near (v := F - B) (w := d) hu hu1 (k1.trans sq) (k2.trans sq) (k3.trans sq) e1 e2 e3 h hs hn
    rw [show (F - B).norm * k - (F - B).norm = (F - B).norm * (k - 1) by ring, abs_mul, abs_of_pos (show 0 < (F - B).norm from h), mul_comm]
    exact mul_le_mul_of_nonneg_right hk h.le

/-- The error of the three coordinates of a point on a horizontal plane, added. -/
theorem ground_near (k : Kind) (I : Intr) (hfx : I.fx ≠ 0) (hfy : I.fy ≠ 0) {u e : ℝ} (hu : 0 ≤ u) (hu1 : u ≤ 1 / 100000) (he1 : e ≤ 9 / 10000) (o : Orient)
    (Rinv : M3) (hR : Near e Rinv o.mat.Rinv) {p : V2 ℝ} {d P : V3 ℝ} {s : ℝ} (hp : k = .equirectangular → Real.cos ((p.y - I.cy) / I.fy) ≠ 0)
    (hd : (Camera.getRay ⟨k, I, o, noDistortion⟩ p.num).2.Is d) (hfar : 2 * (e + 8 * u) * raySize k I p < |d.z|) (hs : 0 ≤ s)
    (hP : P = o.pos + d.mulS s) (g : V3 Num) (hg : SpaceFromImageAny u k I o.pos Rinv p 2 P.z g) :
    ∃ q, g.Is q ∧ (∀ j, |q.get j - P.get j| ≤ 2 * (2 * e + 21 * u) * (raySize k I p / |d.z|) * size (P - o.pos) + u * size o.pos) ∧
      |q.x - P.x| + |q.y - P.y| + |q.z - P.z| ≤ 4 * (2 * e + 21 * u) * (raySize k I p / |d.z|) * size (P - o.pos) + u * size o.pos := by
  have he : 0 ≤ e := (abs_nonneg _).trans hR.1
  have hdd : d = o.mat.Rinv.applyR (rayR k I p) := hd.unique (M3.apply_is (getRay_is k hfx hfy (V2.is_num p)))
  have ez : P.z = o.pos.z + d.z * s := by rw [hP]; simp
  have ex : P.x = o.pos.x + d.x * s := by rw [hP]; simp
  have ey : P.y = o.pos.y + d.y * s := by rw [hP]; simp
  obtain ⟨q, hq, hj⟩ := plane_any k I hu hu1 he1 o Rinv hR p hp 2 hdd hfar hs ez g hg
  have j0 := hj 0
  have j1 := hj 1
  have j2 := hj 2
  simp only [V3.get] at j0 j1 j2
  rw [← ex] at j0
  rw [← ey] at j1
  rw [← ez] at j2
  have sz : size (P - o.pos) = |d.x * s| + |d.y * s| + |d.z * s| := by
    simp only [size, V3.sub_x, V3.sub_y, V3.sub_z, ex, ey, ez, add_sub_cancel_left]
  have wz : P.z - o.pos.z = d.z * s := by rw [ez]; ring
  rw [wz] at j0 j1 j2
  obtain ⟨K, hK⟩ : ∃ K, K = (2 * e + 21 * u) * (raySize k I p / |d.z|) := ⟨_, rfl⟩
  have hN0 : 0 ≤ raySize k I p := by
    unfold raySize
    cases k <;> simp only
    · exact size_nonneg _
    · unfold panSize; positivity
    · unfold panSize; positivity
  have hK0 : 0 ≤ K := by rw [hK]; positivity
  rw [show 2 * (2 * e + 21 * u) * (raySize k I p / |d.z|) = 2 * K by rw [hK]; ring, show 4 * (2 * e + 21 * u) * (raySize k I p / |d.z|) = 4 * K by rw [hK]; ring, sz]
  rw [← hK] at j0 j1 j2
  have n1 := mul_nonneg hK0 (abs_nonneg (d.x * s))
  have n2 := mul_nonneg hK0 (abs_nonneg (d.y * s))
  have n3 := mul_nonneg hK0 (abs_nonneg (d.z * s))
  have t1 := mul_nonneg hu (abs_nonneg o.pos.x)
  have t2 := mul_nonneg hu (abs_nonneg o.pos.y)
  have t3 := mul_nonneg hu (abs_nonneg o.pos.z)
  unfold size
  refine ⟨q, hq, fun j => ?_, by linarith⟩
  fin_cases j
  · show |q.x - P.x| ≤ _; linarith
  · show |q.y - P.y| ≤ _; linarith
  · show |q.z - P.z| ≤ _; linarith

end Rounded

open Projection Rounded Camera in
/-- **C186** The computed length of an object that lies between the points `A` and `B` of a horizontal plane, which are seen at the pixels `p` and `q`. -/
theorem C186_length (k : Kind) (I : Intr) (hfx : I.fx ≠ 0) (hfy : I.fy ≠ 0) (u e : ℝ) (hu : 0 ≤ u) (hu1 : u ≤ 1 / 100000) (he1 : e ≤ 9 / 10000) (o : Orient)
    (Rinv : M3) (hR : Near e Rinv o.mat.Rinv) (p q : V2 ℝ) (d1 d2 A B : V3 ℝ) (s1 s2 Z : ℝ)
    (hp : k = .equirectangular → Real.cos ((p.y - I.cy) / I.fy) ≠ 0) (hq : k = .equirectangular → Real.cos ((q.y - I.cy) / I.fy) ≠ 0)
    (hd1 : (Camera.getRay ⟨k, I, o, noDistortion⟩ p.num).2.Is d1) (hd2 : (Camera.getRay ⟨k, I, o, noDistortion⟩ q.num).2.Is d2)
    (f1 : 2 * (e + 8 * u) * raySize k I p < |d1.z|) (f2 : 2 * (e + 8 * u) * raySize k I q < |d2.z|) (h1 : 0 ≤ s1) (h2 : 0 ≤ s2)
    (hA : A = o.pos + d1.mulS s1) (hB : B = o.pos + d2.mulS s2) (zA : A.z = Z) (zB : B.z = Z) (out : Num)
    (ho : ObjectLength u k I o.pos Rinv p q Z out) :
    ∃ L, Num.Is out L ∧ |L - A.dist B| ≤ (9 * e + 90 * u) * (raySize k I p / |d1.z| * size (A - o.pos) + raySize k I q / |d2.z| * size (B - o.pos)) +
      3 * u * size o.pos + 9 * u * A.dist B := by
  obtain ⟨f, b, hf, hb, h⟩ := ho
  have he : 0 ≤ e := (abs_nonneg _).trans hR.1
  obtain ⟨F', hF', -, eF⟩ := ground_near k I hfx hfy hu hu1 he1 o Rinv hR hp hd1 f1 h1 hA f (zA.symm ▸ hf)
  obtain ⟨B', hB', -, eB⟩ := ground_near k I hfx hfy hu hu1 he1 o Rinv hR hq hd2 f2 h2 hB b (zB.symm ▸ hb)
  rcases h with ⟨F, G, d, s, n, hF, hG, k1, k2, k3, k4, k5, k6⟩ | ⟨⟨j, hj⟩ | ⟨j, hj⟩, -⟩
  · have e1 := hF.unique hF'
    have e2 := hG.unique hB'
    subst e1 e2
    refine ⟨n, k6, ?_⟩
    have hl := length_near hu hu1 k1 k2 k3 k4 k5
    have hc := norm_sub_le (F - G) (A - B)
    have hdist : A.dist B = (A - B).norm := rfl
    rw [hdist]
    have tri : ∀ {a b c d : ℝ}, |a - b - (c - d)| ≤ |a - c| + |b - d| := by
      intro a b c d
      rw [show a - b - (c - d) = (a - c) - (b - d) by ring]
      exact abs_sub _ _
    have q1 := hc.trans (add_le_add (add_le_add tri tri) tri)
    obtain ⟨X, hX⟩ : ∃ X, X = raySize k I p / |d1.z| * size (A - o.pos) := ⟨_, rfl⟩
    obtain ⟨Y, hY⟩ : ∃ Y, Y = raySize k I q / |d2.z| * size (B - o.pos) := ⟨_, rfl⟩
    have eF' : |F.x - A.x| + |F.y - A.y| + |F.z - A.z| ≤ 4 * (2 * e + 21 * u) * X + u * size o.pos := by rw [hX]; linarith
    have eB' : |G.x - B.x| + |G.y - B.y| + |G.z - B.z| ≤ 4 * (2 * e + 21 * u) * Y + u * size o.pos := by rw [hY]; linarith
    rw [← hX, ← hY]
    have q2 : |(F - G).norm - (A - B).norm| ≤ 4 * (2 * e + 21 * u) * (X + Y) + 2 * u * size o.pos := by linarith
    have N0 : ∀ p, 0 ≤ raySize k I p := by
      intro p
      unfold raySize
      cases k <;> simp only
      · exact size_nonneg _
      · unfold panSize; positivity
      · unfold panSize; positivity
    have X0 : 0 ≤ X := by rw [hX]; exact mul_nonneg (div_nonneg (N0 _) (abs_nonneg _)) (size_nonneg _)
    have Y0 : 0 ≤ Y := by rw [hY]; exact mul_nonneg (div_nonneg (N0 _) (abs_nonneg _)) (size_nonneg _)
    have a1 := abs_sub_le n (F - G).norm (A - B).norm
    have a2 : (F - G).norm ≤ (A - B).norm + |(F - G).norm - (A - B).norm| := by linarith [le_abs_self ((F - G).norm - (A - B).norm)]
    have a3 := mul_le_mul_of_nonneg_left a2 (by positivity : 0 ≤ 82 / 10 * u)
    have a4 : 82 / 10 * u * |(F - G).norm - (A - B).norm| ≤ 1 / 1000 * |(F - G).norm - (A - B).norm| := mul_le_mul_of_nonneg_right (by linarith) (abs_nonneg _)
    have a5 : 0 ≤ u * (A - B).norm := mul_nonneg hu (Real.sqrt_nonneg _)
    have b1 := mul_nonneg he X0
    have b2 := mul_nonneg he Y0
    have b3 := mul_nonneg hu X0
    have b4 := mul_nonneg hu Y0
    have b5 := mul_nonneg hu (size_nonneg o.pos)
    linarith
  · exact absurd hj (not_nan hF' j)
  · exact absurd hj (not_nan hB' j)

namespace Rounded

open Projection Camera

/-- The height of the head from one of the two vertical planes through the computed feet. -/
theorem head_near (k : Kind) (I : Intr) {u e : ℝ} (hu : 0 ≤ u) (hu1 : u ≤ 1 / 100000) (he1 : e ≤ 9 / 10000) (o : Orient)
    (Rinv : M3) (hR : Near e Rinv o.mat.Rinv) {p : V2 ℝ} {d B : V3 ℝ} {s m E v : ℝ} (hp : k = .equirectangular → Real.cos ((p.y - I.cy) / I.fy) ≠ 0)
    (hd : d = o.mat.Rinv.applyR (rayR k I p)) (i : Fin 3) (hi : i ≠ 2) (hmi : m ≤ |d.get i|) (hfar : 2 * (e + 8 * u) * raySize k I p < m) (hs : 0 ≤ s)
    (hB : B = o.pos + d.mulS s) (hv : |v - B.get i| ≤ E) (hE : E ≤ |B.get i - o.pos.get i| / 2) (g : V3 Num)
    (hg : SpaceFromImageAny u k I o.pos Rinv p i v g) :
    ∃ q, g.Is q ∧ |q.z - B.z| ≤ 3 / 2 * (2 * e + 21 * u) * (raySize k I p / m) * size (B - o.pos) + raySize k I p / m * E + u * |o.pos.z| := by
  have he : 0 ≤ e := (abs_nonneg _).trans hR.1
  have hN0 : 0 ≤ raySize k I p := by
    unfold raySize
    cases k <;> simp only
    · exact size_nonneg _
    · unfold panSize; positivity
    · unfold panSize; positivity
  have hm0 : 0 < m := lt_of_le_of_lt (by positivity) hfar
  have hd0 : d.get i ≠ 0 := by
    intro h
    rw [h, abs_zero] at hmi
    linarith
  have hda : 0 < |d.get i| := abs_pos.2 hd0
  have hBj : ∀ j, B.get j = o.pos.get j + d.get j * s := by
    intro j
    rw [hB]
    fin_cases j <;> simp [V3.get]
  have hBi := hBj i
  have hw : B.get i - o.pos.get i = d.get i * s := by rw [hBi]; ring
  obtain ⟨s', hs'⟩ : ∃ s', s' = (v - o.pos.get i) / d.get i := ⟨_, rfl⟩
  have ev : v = o.pos.get i + d.get i * s' := by rw [hs']; field_simp; ring
  have eds : d.get i * (s' - s) = v - B.get i := by rw [hBi, ev]; ring
  have habs : |d.get i| * |s' - s| ≤ E := by rw [← abs_mul, eds]; exact hv
  have hhalf : |s' - s| ≤ s / 2 := by
    rw [hw, abs_mul, abs_of_nonneg hs] at hE
    have := habs.trans hE
    rw [mul_div_assoc] at this
    exact le_of_mul_le_mul_left this hda
  have hb := abs_le.1 hhalf
  have hs0 : 0 ≤ s' := by linarith
  have hs2 : s' ≤ 3 / 2 * s := by linarith
  obtain ⟨q, hq, hj⟩ := plane_any k I hu hu1 he1 o Rinv hR p hp i hd (hfar.trans_le hmi) hs0 ev g hg
  refine ⟨q, hq, ?_⟩
  have h2 := hj 2
  have e2 : ∀ v : V3 ℝ, v.get 2 = v.z := fun _ => rfl
  rw [e2, e2, e2] at h2
  have hBz := hBj 2
  rw [e2, e2, e2] at hBz
  have hdz : |d.z| ≤ raySize k I p := by
    obtain ⟨dir, -, hdir, -⟩ := id hg
    rw [hd]
    exact (dir_any k I hu hu1 he1 o Rinv hR p hp i (by rw [← hd]; exact hfar.le.trans hmi) dir hdir 2).2
  have w1 : |v - o.pos.get i| = |d.get i| * s' := by
    rw [ev, add_sub_cancel_left, abs_mul, abs_of_nonneg hs0]
  have w2 : |d.z * s'| = |d.z| * s' := by rw [abs_mul, abs_of_nonneg hs0]
  rw [w1, w2] at h2
  have hsz : (|d.get i| + |d.z|) * s ≤ size (B - o.pos) := by
    have c : ∀ j, |(B - o.pos).get j| = |d.get j| * s := by
      intro j
      have : (B - o.pos).get j = d.get j * s := by
        have := hBj j
        have h3 : (B - o.pos).get j = B.get j - o.pos.get j := by fin_cases j <;> rfl
        rw [h3, this]; ring
      rw [this, abs_mul, abs_of_nonneg hs]
    have s3 : size (B - o.pos) = |(B - o.pos).get 0| + |(B - o.pos).get 1| + |(B - o.pos).get 2| := rfl
    rw [s3, c, c, c, e2]
    have p0 := mul_nonneg (abs_nonneg (d.get 0)) hs
    have p1 := mul_nonneg (abs_nonneg (d.get 1)) hs
    have hcase : i = 0 ∨ i = 1 := by
      fin_cases i
      · exact .inl rfl
      · exact .inr rfl
      · exact absurd rfl hi
    rcases hcase with h | h <;> rw [h] <;> linarith
  have hκ : raySize k I p / |d.get i| ≤ raySize k I p / m := div_le_div_of_nonneg_left hN0 hm0 hmi
  have hκ0 : 0 ≤ raySize k I p / m := by positivity
  have hK : (2 * e + 21 * u) * (raySize k I p / |d.get i|) ≤ (2 * e + 21 * u) * (raySize k I p / m) := mul_le_mul_of_nonneg_left hκ (by positivity)
  have hK0 : 0 ≤ (2 * e + 21 * u) * (raySize k I p / m) := by positivity
  have hsum : |d.get i| * s' + |d.z| * s' ≤ 3 / 2 * size (B - o.pos) := by
    have := mul_le_mul_of_nonneg_left hs2 (add_nonneg hda.le (abs_nonneg d.z))
    linarith
  have b1 : (2 * e + 21 * u) * (raySize k I p / |d.get i|) * (|d.get i| * s' + |d.z| * s') ≤
      (2 * e + 21 * u) * (raySize k I p / m) * (3 / 2 * size (B - o.pos)) :=
    mul_le_mul hK hsum (by positivity) hK0
  have b2 : |d.z * s' - d.z * s| ≤ raySize k I p / m * E := by
    rw [← mul_sub, abs_mul]
    have h1 : |s' - s| ≤ E / m := by
      rw [le_div_iff₀ hm0, mul_comm]
      exact (mul_le_mul_of_nonneg_right hmi (abs_nonneg _)).trans habs
    have := mul_le_mul hdz h1 (abs_nonneg _) hN0
    rwa [mul_div_assoc', mul_div_right_comm] at this
  have tri := abs_add_le (q.z - (o.pos.z + d.z * s')) (d.z * s' - d.z * s)
  rw [show q.z - (o.pos.z + d.z * s') + (d.z * s' - d.z * s) = q.z - B.z by rw [hBz]; ring] at tri
  linarith

end Rounded

open Projection Rounded Camera in
/-- **C186** The computed height of an object whose feet `A` and head `B`, straight above them, are seen at the pixels `p` and `q`.  The two vertical planes
through the computed feet must not be nearly parallel to the ray of the head, and the feet must be further from the camera, in both directions of the ground, than
twice their error. -/
theorem C186_height (k : Kind) (I : Intr) (hfx : I.fx ≠ 0) (hfy : I.fy ≠ 0) (u e : ℝ) (hu : 0 ≤ u) (hu1 : u ≤ 1 / 100000) (he1 : e ≤ 9 / 10000) (o : Orient)
    (Rinv : M3) (hR : Near e Rinv o.mat.Rinv) (p q : V2 ℝ) (d1 d2 A B : V3 ℝ) (s1 s2 m E : ℝ)
    (hp : k = .equirectangular → Real.cos ((p.y - I.cy) / I.fy) ≠ 0) (hq : k = .equirectangular → Real.cos ((q.y - I.cy) / I.fy) ≠ 0)
    (hd1 : (Camera.getRay ⟨k, I, o, noDistortion⟩ p.num).2.Is d1) (hd2 : (Camera.getRay ⟨k, I, o, noDistortion⟩ q.num).2.Is d2)
    (f1 : 2 * (e + 8 * u) * raySize k I p < |d1.z|) (f2 : 2 * (e + 8 * u) * raySize k I q < m) (hmx : m ≤ |d2.x|) (hmy : m ≤ |d2.y|)
    (h1 : 0 ≤ s1) (h2 : 0 ≤ s2) (hA : A = o.pos + d1.mulS s1) (hB : B = o.pos + d2.mulS s2) (hx : A.x = B.x) (hy : A.y = B.y)
    (hE : E = 2 * (2 * e + 21 * u) * (raySize k I p / |d1.z|) * size (A - o.pos) + u * size o.pos)
    (ex : E ≤ |A.x - o.pos.x| / 2) (ey : E ≤ |A.y - o.pos.y| / 2) (out : Num) (ho : ObjectHeight u k I o.pos Rinv p q A.z out) :
    ∃ H, Num.Is out H ∧ |H - (B.z - A.z)| ≤ (4 * e + 35 * u) * (raySize k I q / m) * size (B - o.pos) + (2 + 2 * (raySize k I q / m)) * E +
      2 * u * |o.pos.z| + 3 * u * |B.z| + u * |B.z - A.z| := by
  obtain ⟨f, hf, h⟩ := ho
  have he : 0 ≤ e := (abs_nonneg _).trans hR.1
  obtain ⟨F', hF', eF, -⟩ := ground_near k I hfx hfy hu hu1 he1 o Rinv hR hp hd1 f1 h1 hA f hf
  rw [← hE] at eF
  have hN0 : 0 ≤ raySize k I q := by
    unfold raySize
    cases k <;> simp only
    · exact size_nonneg _
    · unfold panSize; positivity
    · unfold panSize; positivity
  have hm0 : 0 < m := lt_of_le_of_lt (by positivity) f2
  have hdd : d2 = o.mat.Rinv.applyR (rayR k I q) := hd2.unique (M3.apply_is (getRay_is k hfx hfy (V2.is_num q)))
  rcases h with ⟨F, hF, g1, g2, k1, k2, h⟩ | ⟨⟨j, hj⟩, -⟩
  swap
  · exact absurd hj (not_nan hF' j)
  have eFF := hF.unique hF'
  subst eFF
  have x0 := eF 0
  have x1 := eF 1
  have x2 := eF 2
  simp only [V3.get] at x0 x1 x2
  obtain ⟨P, hP, bP⟩ := head_near k I hu hu1 he1 o Rinv hR hq hdd 1 (by decide) hmy f2 h2 hB (v := F.y) (E := E)
    (by show |F.y - B.y| ≤ E; rw [← hy]; exact x1) (by show E ≤ |B.y - o.pos.y| / 2; rw [← hy]; exact ey) g1 k1
  obtain ⟨Q, hQ, bQ⟩ := head_near k I hu hu1 he1 o Rinv hR hq hdd 0 (by decide) hmx f2 h2 hB (v := F.x) (E := E)
    (by show |F.x - B.x| ≤ E; rw [← hx]; exact x0) (by show E ≤ |B.x - o.pos.x| / 2; rw [← hx]; exact ex) g2 k2
  rcases h with ⟨P', Q', s, w, n, hP', hQ', r1, r2, r3, hn⟩ | h | h
  · have e1 := hP'.unique hP
    have e2 := hQ'.unique hQ
    subst e1 e2
    refine ⟨n, hn, ?_⟩
    have hE0 : 0 ≤ E := (abs_nonneg _).trans x0
    obtain ⟨κ, hκ⟩ : ∃ κ, κ = raySize k I q / m := ⟨_, rfl⟩
    have hκ0 : 0 ≤ κ := by rw [hκ]; positivity
    obtain ⟨S, hS⟩ : ∃ S, S = size (B - o.pos) := ⟨_, rfl⟩
    have hS0 : 0 ≤ S := by rw [hS]; exact size_nonneg _
    rw [← hκ, ← hS] at bP bQ
    rw [← hκ, ← hS]
    obtain ⟨η, hη⟩ : ∃ η, η = 3 / 2 * (2 * e + 21 * u) * κ * S + κ * E + u * |o.pos.z| := ⟨_, rfl⟩
    rw [← hη] at bP bQ
    have pκS := mul_nonneg hκ0 hS0
    have n1 := mul_nonneg he pκS
    have n2 := mul_nonneg hu pκS
    have n3 := mul_nonneg hκ0 hE0
    have n4 := mul_nonneg hu (abs_nonneg o.pos.z)
    have hη0 : 0 ≤ η := (abs_nonneg _).trans bP
    have huη : u * η ≤ 1 / 100000 * η := mul_le_mul_of_nonneg_right hu1 hη0
    have huE : u * E ≤ 1 / 100000 * E := mul_le_mul_of_nonneg_right hu1 hE0
    have nB := mul_nonneg hu (abs_nonneg B.z)
    obtain ⟨M, hM⟩ : ∃ M, M = (P'.z + Q'.z) / 2 := ⟨_, rfl⟩
    have hMB : |M - B.z| ≤ η := by
      rw [hM, abs_le]
      have := abs_le.1 bP
      have := abs_le.1 bQ
      constructor <;> linarith
    have hMa : |M| ≤ |B.z| + η := by
      have := abs_add_le (M - B.z) B.z
      rw [sub_add_cancel] at this
      linarith
    have hw : |w - M| ≤ 21 / 10 * u * |M| := by
      obtain ⟨a, ha, ea⟩ := r1.form hu
      obtain ⟨b, hb, eb⟩ := r2.form hu
      rw [show P'.z + Q'.z = 2 * M by rw [hM]; ring] at ea
      have : w - M = M * ((a - 1) + (b - 1) + (a - 1) * (b - 1)) := by rw [eb, ea]; ring
      rw [this, abs_mul, mul_comm]
      refine mul_le_mul_of_nonneg_right ?_ (abs_nonneg _)
      have t := abs_add_three (a - 1) (b - 1) ((a - 1) * (b - 1))
      rw [abs_mul] at t
      have t2 := mul_le_mul ha (hb.trans hu1) (abs_nonneg _) hu
      linarith
    have hwM := hw.trans (mul_le_mul_of_nonneg_left hMa (by positivity : 0 ≤ 21 / 10 * u))
    have hwB := abs_sub_le w M B.z
    have hr : |n - (w - F.z)| ≤ u * |w - F.z| := r3
    have c1 : |w - F.z - (B.z - A.z)| ≤ |w - B.z| + |F.z - A.z| := by
      rw [show w - F.z - (B.z - A.z) = (w - B.z) - (F.z - A.z) by ring]
      exact abs_sub _ _
    have c2 : |w - F.z| ≤ |B.z - A.z| + |w - F.z - (B.z - A.z)| := by
      have := abs_add_le (w - F.z - (B.z - A.z)) (B.z - A.z)
      rw [sub_add_cancel] at this
      linarith
    have c3 := abs_sub_le n (w - F.z) (B.z - A.z)
    have c4 := mul_le_mul_of_nonneg_left c2 hu
    obtain ⟨T, hT⟩ : ∃ T, T = |w - F.z - (B.z - A.z)| := ⟨_, rfl⟩
    rw [← hT] at c1 c2 c3 c4
    have hT0 : 0 ≤ T := by rw [hT]; exact abs_nonneg _
    have c5 : u * T ≤ 1 / 100000 * T := mul_le_mul_of_nonneg_right hu1 hT0
    have c6 : T ≤ η + 21 / 10 * u * (|B.z| + η) + E := by linarith
    have c7 : |n - (B.z - A.z)| ≤ (1 + 1 / 100000) * (η + 21 / 10 * u * (|B.z| + η) + E) + u * |B.z - A.z| := by linarith
    have c8 : 21 / 10 * u * (|B.z| + η) ≤ 21 / 10 * (u * |B.z|) + 21 / 10 * (1 / 100000 * η) := by linarith
    have c9 : |n - (B.z - A.z)| ≤ 101 / 100 * η + 101 / 100 * E + 22 / 10 * (u * |B.z|) + u * |B.z - A.z| := by linarith
    rw [hη] at c9
    linarith
  · exact absurd ⟨P, hP⟩ h
  · exact absurd ⟨Q, hQ⟩ h

namespace Rounded

open Projection Camera

theorem exOrient_ray (p : V2 ℝ) (d : V3 ℝ) (h : d = ⟨(p.x - 50) / 100, -((p.y - 25) / 100), -1⟩) :
    (Camera.getRay ⟨.rectilinear, ⟨100, 100, 50, 25, 100, 50⟩, exOrient, noDistortion⟩ p.num).2.Is d := by
  have hr : (Projection.getRay .rectilinear ⟨100, 100, 50, 25, 100, 50⟩ p.num).Is d :=
    (Projection.getRay_is .rectilinear (by norm_num) (by norm_num) (V2.is_num _)).congr (by rw [h]; simp [Projection.rayR])
  have h1 := M3.apply_is (A := exOrient.mat.Rinv) hr
  refine V3.Is.congr h1 ?_
  rw [exOrient_mat.2]
  ext <;> simp [M3.applyR, M3.one, V3.dot]

theorem ObjectLength.exists {u : ℝ} (hu : 0 ≤ u) (k : Kind) (I : Intr) (t : V3 ℝ) (Rinv : M3) (p q : V2 ℝ) (Z : ℝ) :
    ∃ out, ObjectLength u k I t Rinv p q Z out := by
  obtain ⟨f, hf, cf⟩ := SpaceFromImageAny.exists hu k I t Rinv p 2 Z
  obtain ⟨b, hb, cb⟩ := SpaceFromImageAny.exists hu k I t Rinv q 2 Z
  rcases cf with cf | ⟨F, hF⟩
  · exact ⟨.nan, f, b, hf, hb, .inr ⟨.inl cf, rfl⟩⟩
  · rcases cb with cb | ⟨B, hB⟩
    · exact ⟨.nan, f, b, hf, hb, .inr ⟨.inr cb, rfl⟩⟩
    · exact ⟨.fin _, f, b, hf, hb, .inl ⟨F, B, F - B, _, _, hF, hB, Rd.exact hu _, Rd.exact hu _, Rd.exact hu _, Dot.exact hu _ _, Rd.exact hu _, Num.is_fin _⟩⟩

theorem ObjectHeight.exists {u : ℝ} (hu : 0 ≤ u) (k : Kind) (I : Intr) (t : V3 ℝ) (Rinv : M3) (p q : V2 ℝ) (Z : ℝ) :
    ∃ out, ObjectHeight u k I t Rinv p q Z out := by
  obtain ⟨f, hf, cf⟩ := SpaceFromImageAny.exists hu k I t Rinv p 2 Z
  rcases cf with cf | ⟨F, hF⟩
  · exact ⟨.nan, f, hf, .inr ⟨cf, rfl⟩⟩
  · obtain ⟨g, hg, -⟩ := SpaceFromImageAny.exists hu k I t Rinv q 1 F.y
    obtain ⟨h, hh, -⟩ := SpaceFromImageAny.exists hu k I t Rinv q 0 F.x
    by_cases cg : ∃ A, g.Is A
    · by_cases ch : ∃ B, h.Is B
      · obtain ⟨A, hA⟩ := cg
        obtain ⟨B, hB⟩ := ch
        exact ⟨.fin _, f, hf, .inl ⟨F, hF, g, h, hg, hh, .inl ⟨A, B, _, _, _, hA, hB, Rd.exact hu _, Rd.exact hu _, Rd.exact hu _, Num.is_fin _⟩⟩⟩
      · exact ⟨.nan, f, hf, .inl ⟨F, hF, g, h, hg, hh, .inr (.inr ch)⟩⟩
    · exact ⟨.nan, f, hf, .inl ⟨F, hF, g, h, hg, hh, .inr (.inl cg)⟩⟩

end Rounded

open Projection Rounded Camera in
/-- An object 3 m long on the ground. -/
example : ∃ (out : Num) (L : ℝ), ObjectLength (1 / 2 ^ 53) .rectilinear ⟨100, 100, 50, 25, 100, 50⟩ exOrient.pos exOrient.mat.Rinv ⟨60, 45⟩ ⟨90, 45⟩ 0 out ∧
    Num.Is out L ∧ |L - 3| ≤ 1 / 10 ^ 12 := by
  obtain ⟨out, h⟩ := ObjectLength.exists (u := 1 / 2 ^ 53) (by norm_num) .rectilinear ⟨100, 100, 50, 25, 100, 50⟩ exOrient.pos exOrient.mat.Rinv ⟨60, 45⟩ ⟨90, 45⟩ 0
  obtain ⟨L, hL, hb⟩ := C186_length .rectilinear _ (by norm_num) (by norm_num) (1 / 2 ^ 53) 0 (by norm_num) (by norm_num) (by norm_num) exOrient _
    (Near.refl le_rfl _) ⟨60, 45⟩ ⟨90, 45⟩ ⟨1 / 10, -(1 / 5), -1⟩ ⟨2 / 5, -(1 / 5), -1⟩ ⟨1, -2, 0⟩ ⟨4, -2, 0⟩ 10 10 0 (by simp) (by simp)
    (exOrient_ray _ _ (by norm_num)) (exOrient_ray _ _ (by norm_num))
    (by norm_num [raySize, size, rayR, abs_of_nonneg, abs_of_nonpos]) (by norm_num [raySize, size, rayR, abs_of_nonneg, abs_of_nonpos]) (by norm_num) (by norm_num)
    (by ext <;> norm_num [exOrient, Camera.Orient.pos]) (by ext <;> norm_num [exOrient, Camera.Orient.pos]) rfl rfl out h
  refine ⟨out, L, h, hL, ?_⟩
  have e : V3.dist ⟨1, -2, 0⟩ ⟨4, -2, 0⟩ = 3 := by
    show Real.sqrt _ = 3
    rw [show (3 : ℝ) = Real.sqrt (3 ^ 2) by rw [Real.sqrt_sq (by norm_num)]]
    congr 1
    norm_num [V3.normSq]
  rw [e] at hb
  refine hb.trans ?_
  norm_num [raySize, size, rayR, exOrient, Camera.Orient.pos, abs_of_nonneg, abs_of_nonpos]

open Projection Rounded Camera in
/-- An object 5 m high on the ground. -/
example : ∃ (out : Num) (H : ℝ), ObjectHeight (1 / 2 ^ 53) .rectilinear ⟨100, 100, 50, 25, 100, 50⟩ exOrient.pos exOrient.mat.Rinv ⟨60, 35⟩ ⟨70, 45⟩ 0 out ∧
    Num.Is out H ∧ |H - 5| ≤ 1 / 10 ^ 10 := by
  obtain ⟨out, h⟩ := ObjectHeight.exists (u := 1 / 2 ^ 53) (by norm_num) .rectilinear ⟨100, 100, 50, 25, 100, 50⟩ exOrient.pos exOrient.mat.Rinv ⟨60, 35⟩ ⟨70, 45⟩ 0
  obtain ⟨H, hH, hb⟩ := C186_height .rectilinear _ (by norm_num) (by norm_num) (1 / 2 ^ 53) 0 (by norm_num) (by norm_num) (by norm_num) exOrient _
    (Near.refl le_rfl _) ⟨60, 35⟩ ⟨70, 45⟩ ⟨1 / 10, -(1 / 10), -1⟩ ⟨1 / 5, -(1 / 5), -1⟩ ⟨1, -1, 0⟩ ⟨1, -1, 5⟩ 10 5 (1 / 5) _ (by simp) (by simp)
    (exOrient_ray _ _ (by norm_num)) (exOrient_ray _ _ (by norm_num))
    (by norm_num [raySize, size, rayR, abs_of_nonneg, abs_of_nonpos]) (by norm_num [raySize, size, rayR, abs_of_nonneg, abs_of_nonpos])
    (by norm_num [abs_of_nonneg, abs_of_nonpos]) (by norm_num [abs_of_nonneg, abs_of_nonpos]) (by norm_num) (by norm_num)
    (by ext <;> norm_num [exOrient, Camera.Orient.pos]) (by ext <;> norm_num [exOrient, Camera.Orient.pos]) rfl rfl rfl
    (by norm_num [raySize, size, rayR, exOrient, Camera.Orient.pos, abs_of_nonneg, abs_of_nonpos])
    (by norm_num [raySize, size, rayR, exOrient, Camera.Orient.pos, abs_of_nonneg, abs_of_nonpos]) out h
  refine ⟨out, H, h, hH, ?_⟩
  norm_num [raySize, size, rayR, exOrient, Camera.Orient.pos, abs_of_nonneg, abs_of_nonpos] at hb ⊢
  exact hb.trans (by norm_num)
