import Verif.Model.RoundedMeshImage
import Verif.Spec.ClearTurned
import Verif.Props.RoundMesh
import Verif.Props.RoundTest
import Verif.Props.RoundObject

/-! # C197: the points of a mesh that belong to pixels, with rounding errors -/

open Classical

open Projection Rounded Camera in
/-- The direction of the ray of a pixel. -/
theorem Rounded.direction_rel_near {u e : ℝ} (hu : 0 ≤ u) (hu1 : u ≤ 1 / 100000) (he1 : e ≤ 1 / 1000) (I : Intr) (hfx : I.fx ≠ 0) (hfy : I.fy ≠ 0) (o : Orient) (R : M3)
    (hR : Near e R o.mat.Rinv) (q : V2 ℝ) {d v : V3 ℝ} (hd : (Camera.getRay ⟨.rectilinear, I, o, noDistortion⟩ q.num).2.Is d) (hv : Direction u I R q false v) :
    0 < d.norm ∧ (v - d).norm ≤ (3 * e + 18 * u) * d.norm := by
  have he : 0 ≤ e := (abs_nonneg _).trans hR.1
  have hq : (noDistortion.imageFromDistorted q.num).Is q := V2.is_num q
  obtain ⟨s, -, hs, -, hdir⟩ := getRay_dir ⟨.rectilinear, I, o, noDistortion⟩ hfx hfy hq false
  rw [hs rfl] at hdir
  have hd' : d = dirR ⟨.rectilinear, I, o, noDistortion⟩ q := by
    rw [hd.unique hdir]; ext <;> simp
  have hinv : o.mat.Rinv = o.mat.R.T := by cases o <;> exact Spatial.inv_rot _ _ _
  obtain ⟨r, hr⟩ : ∃ r, r = rayR .rectilinear I q := ⟨_, rfl⟩
  have hdr : d = o.mat.Rinv.applyR r := by rw [hinv, hr, hd']; rfl
  have hnorm : d.norm = r.norm := by
    rw [hd', hr]
    unfold dirR V3.norm
    rw [M3.normSq_applyR (A := o.mat.R.T) (rigid_mat o).RT]
  have hpos : 0 < d.norm := by rw [hnorm, hr]; exact ray_norm_pos I q
  refine ⟨hpos, ?_⟩
  have hn := fun j => (direction_near I hu hu1 he1 o R hR q v hv j).1
  rw [← hr, ← hdr] at hn
  have hk : 0 ≤ e + 6 * u := by positivity
  have hsz : size r ^ 2 ≤ 3 * d.norm ^ 2 := by
    rw [hnorm, V3.norm_sq]
    unfold size V3.normSq
    rw [← sq_abs r.x, ← sq_abs r.y, ← sq_abs r.z]
    nlinarith [sq_nonneg (|r.x| - |r.y|), sq_nonneg (|r.y| - |r.z|), sq_nonneg (|r.x| - |r.z|)]
  refine Real.sqrt_le_iff.2 ⟨by positivity, ?_⟩
  have sqb : ∀ j, (v.get j - d.get j) ^ 2 ≤ (e + 6 * u) ^ 2 * (3 * d.norm ^ 2) := fun j => by
    have h1 := sq_le_sq' (abs_le.1 (hn j)).1 (abs_le.1 (hn j)).2
    rw [mul_pow] at h1
    exact h1.trans (mul_le_mul_of_nonneg_left hsz (sq_nonneg _))
  have s0 : (v.x - d.x) ^ 2 ≤ _ := sqb 0
  have s1 : (v.y - d.y) ^ 2 ≤ _ := sqb 1
  have s2 : (v.z - d.z) ^ 2 ≤ _ := sqb 2
  unfold V3.normSq
  simp only [V3.sub_x, V3.sub_y, V3.sub_z]
  rw [show ((3 * e + 18 * u) * d.norm) ^ 2 = 3 * ((e + 6 * u) ^ 2 * (3 * d.norm ^ 2)) by ring]
  linarith

namespace Rounded

theorem dist_at (o d : V3 ℝ) (t : ℝ) : o.dist (Geo.at' o d t) = |t| * d.norm := by
  rw [← dist_sub, ← nrm_mulS]
  congr 1
  ext <;> simp [Geo.at'] <;> ring

theorem onPlane_of {T : Ray.Tri ℝ} {Q : V3 ℝ} {s r : ℝ} (h : Q - T.a = (T.b - T.a).mulS s + (T.c - T.a).mulS r) : Geo.OnPlane T Q := by
  refine ⟨s, r, ?_, ?_, ?_⟩
  · have := congrArg V3.x h; simp at this; linarith
  · have := congrArg V3.y h; simp at this; linarith
  · have := congrArg V3.z h; simp at this; linarith

/-- The intersection of a ray with a plane when the direction of the ray is turned a little. -/
theorem turned {u η : ℝ} (hu : 0 ≤ u) (hη : 0 ≤ η) {o d v : V3 ℝ} (hd : 0 < d.norm) (hv : (v - d).norm ≤ η * d.norm) {T : Ray.Tri ℝ} (hn : ¬ Geo.Degenerate T) {k t : ℝ}
    {Q : V3 ℝ} (hm : Geo.MeetsTurned u η o d T k t Q) (hon : Geo.OnPlane T Q) :
    ∃ t' Q', Geo.Meets u o v T (101 / 100 * k) t' Q' ∧ Geo.OnPlane T Q' ∧ (0 ≤ t → 0 ≤ t') ∧ (t < 0 → t' < 0) ∧ (Q' - Q).norm ≤ 21 / 10 * (k * η * o.dist Q) ∧
      |t' - t| * d.norm ≤ 101 / 100 * (k * η * o.dist Q) ∧ o.dist Q' ≤ 1003 / 1000 * o.dist Q ∧ 1 ≤ k ∧ 999 / 1000 * d.norm ≤ v.norm ∧ v.norm ≤ 1001 / 1000 * d.norm := by
  obtain ⟨hk, huk, hkη, hQ, hbig⟩ := hm
  obtain ⟨N, hN⟩ : ∃ N, N = Geo.normal T := ⟨_, rfl⟩
  obtain ⟨S, hS⟩ : ∃ S, S = (T.b - T.a).norm * (T.c - T.a).norm := ⟨_, rfl⟩
  have hNS : N.norm ≤ S := by rw [hN, hS]; exact nrm_cross _ _
  have hN0 : 0 < N.norm := V3.norm_pos (by rw [hN]; exact hn)
  have hS0 : 0 < S := lt_of_lt_of_le hN0 hNS
  rw [← hS, ← hN] at hk
  have hB0 : 0 < |N.dot d| := by
    rcases (abs_nonneg (N.dot d)).lt_or_eq with h | h
    · exact h
    · rw [← h, mul_zero] at hk
      have := mul_pos hS0 hd
      linarith
  have hBS : |N.dot d| ≤ S * d.norm := (Ray.abs_dot_le _ _).trans (mul_le_mul_of_nonneg_right hNS hd.le)
  have hk1 : 1 ≤ k := by
    have h1 : 1 * |N.dot d| ≤ k * |N.dot d| := by linarith
    exact le_of_mul_le_mul_right h1 hB0
  have hk0 : 0 ≤ k := by linarith
  have hη1 : 1000 * η ≤ 1 := by
    have := mul_le_mul_of_nonneg_right hk1 hη
    linarith
  have hvn := abs_le.1 ((norm_diff v d).trans hv)
  have hηd := mul_le_mul_of_nonneg_right hη1 hd.le
  have hv1 : v.norm ≤ 1001 / 1000 * d.norm := by linarith
  have hv2 : 999 / 1000 * d.norm ≤ v.norm := by linarith
  have hdB : |N.dot v - N.dot d| ≤ k * η * |N.dot d| := by
    have t1 := Ray.abs_dot_le N (v - d)
    rw [show N.dot (v - d) = N.dot v - N.dot d by simp only [V3.dot, V3.sub_x, V3.sub_y, V3.sub_z]; ring] at t1
    have t2 := mul_le_mul hNS hv (V3.norm_nonneg _) hS0.le
    have t3 := mul_le_mul_of_nonneg_left hk hη
    linarith
  have hkB := mul_le_mul_of_nonneg_right hkη hB0.le
  have hB' : 999 / 1000 * |N.dot d| ≤ |N.dot v| := by
    have t1 := (abs_le.1 ((abs_abs_sub_abs_le_abs_sub (N.dot v) (N.dot d)).trans hdB)).1
    linarith
  have hB'0 : N.dot v ≠ 0 := by
    intro h
    rw [h, abs_zero] at hB'
    linarith
  have hBd0 : N.dot d ≠ 0 := abs_pos.1 hB0
  obtain ⟨t', ht'⟩ : ∃ t', t' = t * N.dot d / N.dot v := ⟨_, rfl⟩
  have htB : t' * N.dot v = t * N.dot d := by rw [ht']; field_simp
  have hpos : 0 < N.dot d * N.dot v := by
    have t1 := abs_le.1 hdB
    rcases lt_or_gt_of_ne hBd0 with h | h
    · rw [abs_of_neg h] at t1 hkB
      exact mul_pos_of_neg_of_neg h (by linarith [t1.2])
    · rw [abs_of_pos h] at t1 hkB
      exact mul_pos h (by linarith [t1.1])
  have hsign : t' * (N.dot v) ^ 2 = t * (N.dot d * N.dot v) := by linear_combination N.dot v * htB
  have hv2' : 0 < (N.dot v) ^ 2 := by positivity
  have hL : o.dist Q = |t| * d.norm := by rw [hQ]; exact dist_at o d t
  have hL0 : 0 ≤ o.dist Q := by rw [hL]; positivity
  have hkη0 : 0 ≤ k * η := by positivity
  have hdt : |t' - t| ≤ 1002 / 1000 * (k * η * |t|) := by
    have e : (t' - t) * N.dot v = -(t * (N.dot v - N.dot d)) := by linear_combination htB
    have t1 : |t' - t| * |N.dot v| ≤ |t| * (k * η * |N.dot d|) := by
      rw [← abs_mul, e, abs_neg, abs_mul]
      exact mul_le_mul_of_nonneg_left hdB (abs_nonneg _)
    have t2 := mul_le_mul_of_nonneg_left hB' (abs_nonneg (t' - t))
    have t3 : (999 / 1000 * |t' - t|) * |N.dot d| ≤ (k * η * |t|) * |N.dot d| := by linarith
    have t4 := le_of_mul_le_mul_right t3 hB0
    have t5 : 0 ≤ k * η * |t| := by positivity
    linarith
  have hdt2 : |t' - t| * d.norm ≤ 1002 / 1000 * (k * η * o.dist Q) := by
    have := mul_le_mul_of_nonneg_right hdt hd.le
    rw [hL]
    linarith
  have hkL : 0 ≤ k * η * o.dist Q := by positivity
  have hηk : η ≤ k * η := by
    have := mul_le_mul_of_nonneg_right hk1 hη
    linarith
  have hQQ : (Geo.at' o v t' - Q).norm ≤ 202 / 100 * (k * η * o.dist Q) := by
    have e : Geo.at' o v t' - Q = v.mulS (t' - t) + (v - d).mulS t := by rw [hQ]; ext <;> simp [Geo.at'] <;> ring
    rw [e]
    refine (nrm_add _ _).trans ?_
    rw [nrm_mulS, nrm_mulS]
    have t1 := mul_le_mul_of_nonneg_left hv1 (abs_nonneg (t' - t))
    have t2 := mul_le_mul_of_nonneg_left hv (abs_nonneg t)
    have t3 := mul_le_mul_of_nonneg_right hηk hL0
    have t4 : |t| * (η * d.norm) = η * o.dist Q := by rw [hL]; ring
    rw [t4] at t2
    linarith
  have hkL1 : k * η * o.dist Q ≤ 1 / 1000 * o.dist Q := by
    have := mul_le_mul_of_nonneg_right hkη hL0
    linarith
  have hdd : |o.dist (Geo.at' o v t') - o.dist Q| ≤ 202 / 100 * (k * η * o.dist Q) := by
    refine le_trans ?_ hQQ
    have t1 := norm_diff (Geo.at' o v t' - o) (Q - o)
    rw [dist_sub o (Geo.at' o v t'), dist_sub o Q] at t1
    refine t1.trans (le_of_eq ?_)
    congr 1
    ext <;> simp
  replace hdd := abs_le.1 hdd
  have hoa : 0 ≤ o.dist T.a := by rw [← dist_sub]; exact V3.norm_nonneg _
  refine ⟨t', Geo.at' o v t', ⟨?_, ?_, rfl, ?_⟩, ?_, ?_, ?_, hQQ.trans (by linarith), hdt2.trans (by linarith), by linarith, hk1, hv2, hv1⟩
  · rw [← hS, ← hN]
    have t1 := mul_le_mul_of_nonneg_left hv1 hS0.le
    have t2 := mul_le_mul_of_nonneg_left hB' hk0
    have t3 : 0 ≤ k * |N.dot v| := by positivity
    linarith
  · have : 0 ≤ u * k := by positivity
    linarith
  · have huk0 : 0 ≤ u * k := by positivity
    have t1 : u * k * (o.dist T.a + o.dist (Geo.at' o v t')) ≤ u * k * (1003 / 1000 * (o.dist T.a + o.dist Q)) :=
      mul_le_mul_of_nonneg_left (by linarith) huk0
    linarith
  · rw [Ray.onPlane_iff hn, ← hN]
    have := (Ray.onPlane_iff hn o d t).1 (hQ ▸ hon)
    rw [← hN] at this
    rw [htB, this]
  · intro h
    by_contra hlt
    have t1 := mul_neg_of_neg_of_pos (not_le.1 hlt) hv2'
    have t2 := mul_nonneg h hpos.le
    linarith
  · intro h
    by_contra hlt
    have t1 := mul_nonneg (not_lt.1 hlt) hv2'.le
    have t2 := mul_neg_of_neg_of_pos h hpos
    linarith

/-- The coordinates with respect to the edges when the direction of the ray is turned a little. -/
theorem turned_coords {u η : ℝ} (hu : 0 ≤ u) {o : V3 ℝ} {T : Ray.Tri ℝ} (hn : ¬ Geo.Degenerate T) {k σ s r e : ℝ} {Q Q' : V3 ℝ} (hk1 : 1 ≤ k)
    (hc : Geo.CoordsTurned u η o T k σ s r e Q) (hon : Geo.OnPlane T Q') (hQQ : (Q' - Q).norm ≤ 21 / 10 * (k * η * o.dist Q)) (hQL : o.dist Q' ≤ 1003 / 1000 * o.dist Q) :
    ∃ s' r' δ, |s' - s| ≤ δ ∧ |r' - r| ≤ δ ∧ Geo.Coords u o T (101 / 100 * k) σ s' r' (e - δ) Q' := by
  obtain ⟨hσ, hσ2, hsr, l, hl, hlb, hlc, hm⟩ := hc
  obtain ⟨s', r', hx, hy, hz⟩ := hon
  obtain ⟨X, hX⟩ : ∃ X, X = T.b - T.a := ⟨_, rfl⟩
  obtain ⟨Y, hY⟩ : ∃ Y, Y = T.c - T.a := ⟨_, rfl⟩
  have hN : Geo.normal T = X.cross Y := by rw [hX, hY]; rfl
  have hN0 : 0 < (X.cross Y).norm := V3.norm_pos (by rw [← hN]; exact hn)
  have hsr' : Q' - T.a = X.mulS s' + Y.mulS r' := by
    rw [hX, hY]
    ext <;> simp <;> linarith
  have hσ' := hσ
  rw [← hX, ← hY, hN] at hσ'
  rw [← hX, ← hY] at hsr
  rw [← hX] at hlb
  rw [← hY] at hlc
  have hΔ : Q' - Q = X.mulS (s' - s) + Y.mulS (r' - r) := by
    have e1 : Q' - Q = (Q' - T.a) - (Q - T.a) := by ext <;> simp
    rw [e1, hsr', hsr]
    ext <;> simp <;> ring
  have hs : |s' - s| * (X.cross Y).norm ≤ (Q' - Q).norm * Y.norm := by
    rw [← nrm_mulS]
    refine le_trans (le_of_eq ?_) (nrm_cross (Q' - Q) Y)
    congr 1
    rw [hΔ]
    ext <;> simp [V3.cross] <;> ring
  have hr : |r' - r| * (X.cross Y).norm ≤ (Q' - Q).norm * X.norm := by
    rw [← nrm_mulS, mul_comm]
    refine le_trans (le_of_eq ?_) (nrm_cross X (Q' - Q))
    congr 1
    rw [hΔ]
    ext <;> simp [V3.cross] <;> ring
  have hX0 : 0 < X.norm := lt_of_lt_of_le hl hlb
  have hY0 : 0 < Y.norm := lt_of_lt_of_le hl hlc
  have hσ0 : 0 < σ := by
    by_contra h
    have t1 := mul_nonpos_of_nonpos_of_nonneg (not_lt.1 h) hN0.le
    have t2 := mul_pos hX0 hY0
    linarith
  have hD0 := V3.norm_nonneg (Q' - Q)
  have hs2 : |s' - s| * X.norm ≤ σ * (Q' - Q).norm := by
    have t1 := mul_le_mul_of_nonneg_right hs hX0.le
    have t2 := mul_le_mul_of_nonneg_left hσ' hD0
    have t3 : (|s' - s| * X.norm) * (X.cross Y).norm ≤ (σ * (Q' - Q).norm) * (X.cross Y).norm := by linarith
    exact le_of_mul_le_mul_right t3 hN0
  have hr2 : |r' - r| * Y.norm ≤ σ * (Q' - Q).norm := by
    have t1 := mul_le_mul_of_nonneg_right hr hY0.le
    have t2 := mul_le_mul_of_nonneg_left hσ' hD0
    have t3 : (|r' - r| * Y.norm) * (X.cross Y).norm ≤ (σ * (Q' - Q).norm) * (X.cross Y).norm := by linarith
    exact le_of_mul_le_mul_right t3 hN0
  obtain ⟨δ, hδ⟩ : ∃ δ, δ = 21 / 10 * (σ * (k * η * o.dist Q)) / l := ⟨_, rfl⟩
  have hδl : δ * l = 21 / 10 * (σ * (k * η * o.dist Q)) := by rw [hδ]; field_simp
  have hσQ := mul_le_mul_of_nonneg_left hQQ hσ0.le
  have b1 : |s' - s| ≤ δ := by
    have t1 := mul_le_mul_of_nonneg_left hlb (abs_nonneg (s' - s))
    have t2 : |s' - s| * l ≤ δ * l := by linarith
    exact le_of_mul_le_mul_right t2 hl
  have b2 : |r' - r| ≤ δ := by
    have t1 := mul_le_mul_of_nonneg_left hlc (abs_nonneg (r' - r))
    have t2 : |r' - r| * l ≤ δ * l := by linarith
    exact le_of_mul_le_mul_right t2 hl
  have hoa : 0 ≤ o.dist T.a := by rw [← dist_sub]; exact V3.norm_nonneg _
  have hoQ : 0 ≤ o.dist Q := by rw [← dist_sub]; exact V3.norm_nonneg _
  have ho := V3.norm_nonneg o
  have hk0 : 0 ≤ k := by linarith
  have hbig : 178 * σ ^ 3 * (u * (101 / 100 * k * (o.dist T.a + o.dist Q') + o.norm)) ≤ (e - δ) * l := by
    have t1 : 101 / 100 * k * (o.dist T.a + o.dist Q') + o.norm ≤ 10131 / 10000 * (k * (o.dist T.a + o.dist Q) + o.norm) := by
      have s1 := mul_le_mul_of_nonneg_left (by linarith : o.dist T.a + o.dist Q' ≤ 1003 / 1000 * (o.dist T.a + o.dist Q)) (by positivity : 0 ≤ 101 / 100 * k)
      have s2 : 0 ≤ k * (o.dist T.a + o.dist Q) := by positivity
      linarith
    have t2 := mul_le_mul_of_nonneg_left t1 (by positivity : 0 ≤ 178 * σ ^ 3 * u)
    have t3 : 0 ≤ σ ^ 3 * (u * (k * (o.dist T.a + o.dist Q) + o.norm)) := by positivity
    rw [sub_mul, hδl]
    linarith
  have hp : 0 ≤ (e - δ) * l := by
    have hoQ' : 0 ≤ o.dist Q' := by rw [← dist_sub]; exact V3.norm_nonneg _
    exact le_trans (by positivity) hbig
  have he : 0 ≤ e - δ := nonneg_of_mul_nonneg_left hp hl
  refine ⟨s', r', δ, b1, b2, hσ, hσ2, by rw [← hX, ← hY]; exact hsr', ?_, ?_⟩
  · rw [← hX]
    exact hbig.trans (mul_le_mul_of_nonneg_left hlb he)
  · rw [← hY]
    exact hbig.trans (mul_le_mul_of_nonneg_left hlc he)

theorem TriParam.clear_turned {u η : ℝ} (hu : 0 ≤ u) (hu1 : u ≤ 1 / 100000) (hη : 0 ≤ η) {o d v : V3 ℝ} (hd : 0 < d.norm) (hv : (v - d).norm ≤ η * d.norm) (hv0 : v ≠ ⟨0, 0, 0⟩)
    {T : Ray.Tri ℝ} {ε t : ℝ} (hc : Geo.ClearHitTurned u η o d T ε t) {r : Option ℝ} (h : TriParam u o v T r) : ∃ q, r = some q ∧ |q - t| * d.norm ≤ ε := by
  obtain ⟨hn, ht, k, σ, s, r0, e, Q, hm, hco, hs, hr, hsum, hε⟩ := hc
  obtain ⟨t', Q', hm', hon', hp, -, hQQ, htt, hQL, hk1, hv1, hv2⟩ := turned hu hη hd hv hn hm (onPlane_of hco.2.2.1)
  obtain ⟨s', r', δ, b1, b2, hco'⟩ := turned_coords hu hn hk1 hco hon' hQQ hQL
  have a1 := abs_le.1 b1
  have a2 := abs_le.1 b2
  have hch : Geo.ClearHit u o v T (10 * u * (101 / 100 * k) * (o.dist T.a + o.dist Q')) t' := by
    refine ⟨hn, hp ht, 101 / 100 * k, σ, s', r', e - δ, Q', hm', hco', by linarith [a1.1], by linarith [a2.1], ?_, le_rfl⟩
    have := mul_le_mul_of_nonneg_right (by linarith [a1.2, a2.2] : s' + r' + 2 * (e - δ) ≤ s + r0 + 2 * e) (by linarith : 0 ≤ 1 + u)
    linarith
  obtain ⟨q, hq, hq'⟩ := h.clear hu hu1 hv0 hch
  refine ⟨q, hq, ?_⟩
  have huk : 0 ≤ u * k := mul_nonneg hu (by linarith)
  have t1 := mul_le_mul_of_nonneg_left hv1 (abs_nonneg (q - t'))
  have t2 := mul_le_mul_of_nonneg_right (abs_sub_le q t' t) hd.le
  have hoa : 0 ≤ o.dist T.a := by rw [← dist_sub]; exact V3.norm_nonneg _
  have t3 := mul_le_mul_of_nonneg_left (by linarith : o.dist T.a + o.dist Q' ≤ 1003 / 1000 * (o.dist T.a + o.dist Q)) huk
  have hoQ : 0 ≤ o.dist Q := by rw [← dist_sub]; exact V3.norm_nonneg _
  have t4 : 0 ≤ u * k * (o.dist T.a + o.dist Q) := by positivity
  have t5 : 0 ≤ k * η * o.dist Q := mul_nonneg (mul_nonneg (by linarith) hη) hoQ
  linarith

theorem TriParam.miss_turned {u η : ℝ} (hu : 0 ≤ u) (hu1 : u ≤ 1 / 100000) (hη : 0 ≤ η) {o d v : V3 ℝ} (hd : 0 < d.norm) (hv : (v - d).norm ≤ η * d.norm) (hv0 : v ≠ ⟨0, 0, 0⟩)
    {T : Ray.Tri ℝ} (hc : Geo.ClearMissTurned u η o d T) {r : Option ℝ} (h : TriParam u o v T r) : r = none := by
  obtain ⟨hn, k, t, Q, hm, hcase⟩ := hc
  refine h.miss hu hu1 hv0 ⟨hn, ?_⟩
  rcases hcase with ⟨ht, hon⟩ | ⟨ht, σ, s, r0, e, hco, hout⟩
  · obtain ⟨t', Q', hm', hon', -, hneg, -⟩ := turned hu hη hd hv hn hm hon
    exact ⟨101 / 100 * k, t', Q', hm', Or.inl ⟨hneg ht, hon'⟩⟩
  · obtain ⟨t', Q', hm', hon', hp, -, hQQ, htt, hQL, hk1, hv1, hv2⟩ := turned hu hη hd hv hn hm (onPlane_of hco.2.2.1)
    obtain ⟨s', r', δ, b1, b2, hco'⟩ := turned_coords hu hn hk1 hco hon' hQQ hQL
    have a1 := abs_le.1 b1
    have a2 := abs_le.1 b2
    refine ⟨101 / 100 * k, t', Q', hm', Or.inr ⟨hp ht, σ, s', r', e - δ, hco', ?_⟩⟩
    rcases hout with h1 | h1 | h1
    · exact Or.inl (by linarith [a1.2])
    · exact Or.inr (Or.inl (by linarith [a2.2]))
    · refine Or.inr (Or.inr ?_)
      have := mul_le_mul_of_nonneg_right (by linarith [a1.1, a2.1] : s + r0 - 2 * e ≤ s' + r' - 2 * (e - δ)) (by linarith : 0 ≤ 1 - u)
      linarith

end Rounded

namespace Rounded

theorem turned_ne {η : ℝ} (hη1 : η ≤ 1 / 1000) {d v : V3 ℝ} (hd : 0 < d.norm) (hv : (v - d).norm ≤ η * d.norm) : v ≠ ⟨0, 0, 0⟩ := by
  have hvn := abs_le.1 ((norm_diff v d).trans hv)
  have hηd := mul_le_mul_of_nonneg_right hη1 hd.le
  intro h0
  have : v.norm = 0 := by rw [h0]; simp [V3.norm, V3.normSq]
  linarith [hvn.1]

/-- The nearest hit of a ray that is turned a little. -/
theorem mesh_nearest {u η : ℝ} (hu : 0 ≤ u) (hu1 : u ≤ 1 / 100000) (hη0 : 0 ≤ η) (hη1 : η ≤ 1 / 1000) {o d v : V3 ℝ} (hd : 0 < d.norm) (hv : (v - d).norm ≤ η * d.norm)
    {mesh : List (Ray.Tri ℝ)} {ε : ℝ} (hall : ∀ T ∈ mesh, Geo.ClearMissTurned u η o d T ∨ ∃ t, Geo.ClearHitTurned u η o d T ε t) {T0 : Ray.Tri ℝ} (h0 : T0 ∈ mesh) {t0 : ℝ}
    (hc0 : Geo.ClearHitTurned u η o d T0 ε t0) (hmin : ∀ T ∈ mesh, ∀ t, Geo.ClearHitTurned u η o d T ε t → t0 ≤ t)
    {out : Option (V3 ℝ)} (h : MeshHit u o v mesh out) :
    ∃ P, out = some P ∧ ∀ j, |P.get j - (Geo.at' o d t0).get j| ≤ 1003 / 1000 * ε + (η + 21 / 10 * u) * o.dist (Geo.at' o d t0) + u * |o.get j| := by
  obtain ⟨rs, hf, hcase⟩ := h
  have hvn := abs_le.1 ((norm_diff v d).trans hv)
  have hηd := mul_le_mul_of_nonneg_right hη1 hd.le
  have hv0 := turned_ne hη1 hd hv
  have find : ∀ T ∈ mesh, ∃ r ∈ rs, TriParam u o v T r := by
    intro T hT
    obtain ⟨i, hi, rfl⟩ := List.getElem_of_mem hT
    have hl := hf.length_eq
    exact ⟨rs[i]'(hl ▸ hi), List.getElem_mem _, List.Forall₂.get hf hi (hl ▸ hi)⟩
  have find' : ∀ r ∈ rs, ∃ T ∈ mesh, TriParam u o v T r := by
    intro r hr
    obtain ⟨i, hi, rfl⟩ := List.getElem_of_mem hr
    have hl := hf.length_eq
    exact ⟨mesh[i]'(hl ▸ hi), List.getElem_mem _, List.Forall₂.get hf (hl ▸ hi) hi⟩
  obtain ⟨r, hr, hr'⟩ := find T0 h0
  obtain ⟨q0, rfl, hq0⟩ := hr'.clear_turned hu hu1 hη0 hd hv hv0 hc0
  rcases hcase with ⟨hnone, -⟩ | ⟨q, hq, hle, P, hP, hal⟩
  · have := hnone _ hr
    simp at this
  · refine ⟨P, hP, ?_⟩
    have h1 : q ≤ q0 := hle q0 hr
    obtain ⟨T, hT, hT'⟩ := find' _ hq
    have h2 : |q - t0| * d.norm ≤ ε := by
      rcases hall T hT with hmiss | ⟨t, hhit⟩
      · have := hT'.miss_turned hu hu1 hη0 hd hv hv0 hmiss
        simp at this
      · obtain ⟨q', e', hq'⟩ := hT'.clear_turned hu hu1 hη0 hd hv hv0 hhit
        rw [Option.some_inj] at e'
        subst e'
        have h3 := hmin T hT t hhit
        rcases abs_cases (q - t0) with ⟨e', -⟩ | ⟨e', -⟩
        · rw [e']
          have s1 := mul_le_mul_of_nonneg_right (h1.trans (by linarith [le_abs_self (q0 - t0)] : q0 ≤ t0 + |q0 - t0|)) hd.le
          linarith
        · rw [e']
          have s1 := mul_le_mul_of_nonneg_right (by linarith [neg_abs_le (q - t)] : -(q - t0) ≤ |q - t|) hd.le
          linarith
    have hε : 0 ≤ ε := le_trans (by positivity) h2
    rw [dist_at]
    obtain ⟨L, hL'⟩ : ∃ L, L = |t0| * d.norm := ⟨_, rfl⟩
    have hL0 : 0 ≤ L := by rw [hL']; positivity
    rw [← hL']
    have key : ∀ {ox vx dx a P : ℝ}, |vx| ≤ v.norm → |dx| ≤ d.norm → |vx - dx| ≤ (v - d).norm → Rd u (q * vx) a → Rd u (ox + a) P →
        |P - (ox + t0 * dx)| ≤ 1003 / 1000 * ε + (η + 21 / 10 * u) * L + u * |ox| := by
      intro ox vx dx a P hvx hdx hvd ha hP
      have k1 : |q * vx - t0 * dx| ≤ 1001 / 1000 * ε + η * L := by
        rw [show q * vx - t0 * dx = (q - t0) * vx + t0 * (vx - dx) by ring]
        refine (abs_add_le _ _).trans ?_
        rw [abs_mul, abs_mul]
        have s1 := mul_le_mul_of_nonneg_left (hvx.trans (by linarith [hvn.2] : v.norm ≤ 1001 / 1000 * d.norm)) (abs_nonneg (q - t0))
        have s2 := mul_le_mul_of_nonneg_left (hvd.trans hv) (abs_nonneg t0)
        have s3 : |t0| * (η * d.norm) = η * L := by rw [hL']; ring
        rw [s3] at s2
        linarith
      have k2 : |t0 * dx| ≤ L := by
        rw [abs_mul, hL']
        exact mul_le_mul_of_nonneg_left hdx (abs_nonneg _)
      have hηL : 0 ≤ η * L := by positivity
      have hηL1 : η * L ≤ 1 / 1000 * L := mul_le_mul_of_nonneg_right hη1 hL0
      have b1 : u * ε ≤ 1 / 100000 * ε := mul_le_mul_of_nonneg_right hu1 hε
      have b2 : u * (u * L) ≤ 1 / 100000 * (u * L) := mul_le_mul_of_nonneg_right hu1 (by positivity)
      have b3 : 0 ≤ u * L := by positivity
      have b4 : u * (u * ε) ≤ 1 / 100000 * (u * ε) := mul_le_mul_of_nonneg_right hu1 (by positivity)
      have b5 : u * (η * L) ≤ u * (1 / 1000 * L) := mul_le_mul_of_nonneg_left hηL1 hu
      have b6 : u * (u * (η * L)) ≤ 1 / 100000 * (u * (η * L)) := mul_le_mul_of_nonneg_right hu1 (by positivity)
      have k3 : |a - t0 * dx| ≤ 10011 / 10000 * ε + η * L + 1002 / 1000 * (u * L) := (rd_close hu ha k1 (abs_close k1 k2)).trans (by linarith)
      have k4 : |ox + a - (ox + t0 * dx)| ≤ 10011 / 10000 * ε + η * L + 1002 / 1000 * (u * L) := by rwa [add_sub_add_left_eq_sub]
      have k5 : |ox + t0 * dx| ≤ |ox| + L := (abs_add_le _ _).trans (by linarith)
      refine (rd_close hu hP k4 (abs_close k4 k5)).trans ?_
      linarith
    obtain ⟨a, b, c, a1, a2, a3, p1, p2, p3⟩ := hal
    intro j
    fin_cases j
    · exact key (nrm_coord v 0) (nrm_coord d 0) (nrm_coord (v - d) 0) a1 p1
    · exact key (nrm_coord v 1) (nrm_coord d 1) (nrm_coord (v - d) 1) a2 p2
    · exact key (nrm_coord v 2) (nrm_coord d 2) (nrm_coord (v - d) 2) a3 p3

theorem mesh_miss {u η : ℝ} (hu : 0 ≤ u) (hu1 : u ≤ 1 / 100000) (hη0 : 0 ≤ η) (hη1 : η ≤ 1 / 1000) {o d v : V3 ℝ} (hd : 0 < d.norm) (hv : (v - d).norm ≤ η * d.norm)
    {mesh : List (Ray.Tri ℝ)} (hall : ∀ T ∈ mesh, Geo.ClearMissTurned u η o d T) {out : Option (V3 ℝ)} (h : MeshHit u o v mesh out) : out = none := by
  obtain ⟨rs, hf, ⟨-, h1⟩ | ⟨q, hq, -⟩⟩ := h
  · exact h1
  · obtain ⟨i, hi, e'⟩ := List.getElem_of_mem hq
    have hl := hf.length_eq
    have := (List.Forall₂.get hf (hl ▸ hi) hi).miss_turned hu hu1 hη0 hd hv (turned_ne hη1 hd hv) (hall _ (List.getElem_mem _))
    simp only [List.get_eq_getElem] at this
    rw [e'] at this
    simp at this

end Rounded

open Projection Rounded Camera in
/-- The direction of the ray of a pixel, for the three projections. -/
theorem Rounded.direction_any_near (k : Kind) {u e : ℝ} (hu : 0 ≤ u) (hu1 : u ≤ 1 / 200000) (he1 : e ≤ 1 / 1000) (I : Intr) (hfx : I.fx ≠ 0) (hfy : I.fy ≠ 0) (o : Orient) (R : M3)
    (hR : Near e R o.mat.Rinv) (q : V2 ℝ)
    (hpole : k = .equirectangular → 201 / 100 * u * |(q.y - I.cy) / I.fy| ≤ |Real.cos ((q.y - I.cy) / I.fy)| / 2 ∧ Real.cos ((q.y - I.cy) / I.fy) ≠ 0)
    (hsm : u * raySize k I q ≤ 1 / 100) {d v : V3 ℝ} (hd : (Camera.getRay ⟨k, I, o, noDistortion⟩ q.num).2.Is d) (hv : DirectionAny u k I R q false v) :
    0 < d.norm ∧ (v - d).norm ≤ 3 * (e + 16 * u) * raySize k I q := by
  have hq : (noDistortion.imageFromDistorted q.num).Is q := V2.is_num q
  obtain ⟨s, -, hs, -, hdir⟩ := getRay_dir ⟨k, I, o, noDistortion⟩ hfx hfy hq false
  rw [hs rfl] at hdir
  have hinv : o.mat.Rinv = o.mat.R.T := by cases o <;> exact Spatial.inv_rot _ _ _
  have hd' : d = o.mat.Rinv.applyR (rayR k I q) := by
    rw [hd.unique hdir, hinv]
    ext <;> simp [dirR]
  have hpos : 0 < d.norm := by
    rw [hd', hinv]
    unfold V3.norm
    rw [M3.normSq_applyR (A := o.mat.R.T) (rigid_mat o).RT]
    exact Real.sqrt_pos.2 (rayR_normSq_pos k I q)
  refine ⟨hpos, ?_⟩
  obtain ⟨-, -, n, -, hn, -, hj⟩ := direction_any k I hu hu1 he1 o R hR q hpole hsm false v hv
  rw [hn rfl, ← hd'] at hj
  have h0 := hj 0
  have h1 := hj 1
  have h2 := hj 2
  rw [one_mul] at h0 h1 h2
  have := norm_sum (v - d)
  have h0' : |(v - d).x| ≤ _ := h0
  have h1' : |(v - d).y| ≤ _ := h1
  have h2' : |(v - d).z| ≤ _ := h2
  linarith

open Projection Rounded Camera in
/-- **C197** The point of a mesh that belongs to a pixel, with rounding errors, for a rectilinear camera: if the exact ray hits or misses every triangle by more than the rounding errors, the result is the
nearest hit up to the largest of the rounding errors. -/
theorem C197_nearest (I : Intr) (hfx : I.fx ≠ 0) (hfy : I.fy ≠ 0) (u e : ℝ) (hu : 0 ≤ u) (hu1 : u ≤ 1 / 100000) (he1 : e ≤ 1 / 10000) (o : Orient) (Rinv : M3)
    (hR : Near e Rinv o.mat.Rinv) (p : V2 ℝ) (d : V3 ℝ) (hd : (Camera.getRay ⟨.rectilinear, I, o, noDistortion⟩ p.num).2.Is d) (mesh : List (Ray.Tri ℝ)) (ε : ℝ)
    (hall : ∀ T ∈ mesh, Geo.ClearMissTurned u (3 * e + 18 * u) o.pos d T ∨ ∃ t, Geo.ClearHitTurned u (3 * e + 18 * u) o.pos d T ε t) (T0 : Ray.Tri ℝ) (h0 : T0 ∈ mesh) (t0 : ℝ)
    (hc0 : Geo.ClearHitTurned u (3 * e + 18 * u) o.pos d T0 ε t0) (hmin : ∀ T ∈ mesh, ∀ t, Geo.ClearHitTurned u (3 * e + 18 * u) o.pos d T ε t → t0 ≤ t)
    (out : Option (V3 ℝ)) (h : SpaceFromImageMesh u .rectilinear I o.pos Rinv p mesh out) :
    ∃ P, out = some P ∧ ∀ j, |P.get j - (Geo.at' o.pos d t0).get j| ≤
      1003 / 1000 * ε + (31 / 10 * e + 21 * u) * o.pos.dist (Geo.at' o.pos d t0) + u * |o.pos.get j| := by
  obtain ⟨v, hdir, h⟩ := h
  have he : 0 ≤ e := (abs_nonneg _).trans hR.1
  obtain ⟨hδ, hv⟩ := direction_rel_near hu hu1 (by linarith) I hfx hfy o Rinv hR p hd hdir
  obtain ⟨P, hP, hb⟩ := mesh_nearest hu hu1 (by positivity) (by linarith) hδ hv hall h0 hc0 hmin h
  refine ⟨P, hP, fun j => (hb j).trans ?_⟩
  have hL : 0 ≤ o.pos.dist (Geo.at' o.pos d t0) := by rw [← dist_sub]; exact V3.norm_nonneg _
  have := mul_le_mul_of_nonneg_right (by linarith : 3 * e + 18 * u + 21 / 10 * u ≤ 31 / 10 * e + 21 * u) hL
  linarith

open Projection Rounded Camera in
/-- **C197** If the exact ray of the pixel of a rectilinear camera misses every triangle of the mesh by more than the rounding errors, there is no hit. -/
theorem C197_miss (I : Intr) (hfx : I.fx ≠ 0) (hfy : I.fy ≠ 0) (u e : ℝ) (hu : 0 ≤ u) (hu1 : u ≤ 1 / 100000) (he1 : e ≤ 1 / 10000) (o : Orient) (Rinv : M3)
    (hR : Near e Rinv o.mat.Rinv) (p : V2 ℝ) (d : V3 ℝ) (hd : (Camera.getRay ⟨.rectilinear, I, o, noDistortion⟩ p.num).2.Is d) (mesh : List (Ray.Tri ℝ))
    (hall : ∀ T ∈ mesh, Geo.ClearMissTurned u (3 * e + 18 * u) o.pos d T) (out : Option (V3 ℝ)) (h : SpaceFromImageMesh u .rectilinear I o.pos Rinv p mesh out) : out = none := by
  obtain ⟨v, hdir, h⟩ := h
  have he : 0 ≤ e := (abs_nonneg _).trans hR.1
  obtain ⟨hδ, hv⟩ := direction_rel_near hu hu1 (by linarith) I hfx hfy o Rinv hR p hd hdir
  exact mesh_miss hu hu1 (by positivity) (by linarith) hδ hv hall h

open Projection Rounded Camera in
/-- **C197** The same for all three projections, if the direction of the ray has a relative error of at most `η`. -/
theorem C197_nearest_any (k : Kind) (I : Intr) (hfx : I.fx ≠ 0) (hfy : I.fy ≠ 0) (u e : ℝ) (hu : 0 ≤ u) (hu1 : u ≤ 1 / 200000) (he1 : e ≤ 1 / 1000) (o : Orient)
    (Rinv : M3) (hR : Near e Rinv o.mat.Rinv) (p : V2 ℝ)
    (hpole : k = .equirectangular → 201 / 100 * u * |(p.y - I.cy) / I.fy| ≤ |Real.cos ((p.y - I.cy) / I.fy)| / 2 ∧ Real.cos ((p.y - I.cy) / I.fy) ≠ 0)
    (hsm : u * raySize k I p ≤ 1 / 100) (d : V3 ℝ) (hd : (Camera.getRay ⟨k, I, o, noDistortion⟩ p.num).2.Is d) (η : ℝ) (hη1 : η ≤ 1 / 1000)
    (hη : 3 * (e + 16 * u) * raySize k I p ≤ η * d.norm) (mesh : List (Ray.Tri ℝ)) (ε : ℝ)
    (hall : ∀ T ∈ mesh, Geo.ClearMissTurned u η o.pos d T ∨ ∃ t, Geo.ClearHitTurned u η o.pos d T ε t) (T0 : Ray.Tri ℝ) (h0 : T0 ∈ mesh) (t0 : ℝ)
    (hc0 : Geo.ClearHitTurned u η o.pos d T0 ε t0) (hmin : ∀ T ∈ mesh, ∀ t, Geo.ClearHitTurned u η o.pos d T ε t → t0 ≤ t)
    (out : Option (V3 ℝ)) (h : SpaceFromImageMesh u k I o.pos Rinv p mesh out) :
    ∃ P, out = some P ∧ ∀ j, |P.get j - (Geo.at' o.pos d t0).get j| ≤ 1003 / 1000 * ε + (η + 21 / 10 * u) * o.pos.dist (Geo.at' o.pos d t0) + u * |o.pos.get j| := by
  obtain ⟨v, hdir, h⟩ := h
  obtain ⟨hδ, hv'⟩ := direction_any_near k hu hu1 he1 I hfx hfy o Rinv hR p hpole hsm hd hdir
  have hv := hv'.trans hη
  have hη0 : 0 ≤ η := nonneg_of_mul_nonneg_left ((V3.norm_nonneg _).trans hv) hδ
  exact mesh_nearest hu (by linarith) hη0 hη1 hδ hv hall h0 hc0 hmin h

open Projection Rounded Camera in
/-- **C197** The same for rays that miss the mesh. -/
theorem C197_miss_any (k : Kind) (I : Intr) (hfx : I.fx ≠ 0) (hfy : I.fy ≠ 0) (u e : ℝ) (hu : 0 ≤ u) (hu1 : u ≤ 1 / 200000) (he1 : e ≤ 1 / 1000) (o : Orient)
    (Rinv : M3) (hR : Near e Rinv o.mat.Rinv) (p : V2 ℝ)
    (hpole : k = .equirectangular → 201 / 100 * u * |(p.y - I.cy) / I.fy| ≤ |Real.cos ((p.y - I.cy) / I.fy)| / 2 ∧ Real.cos ((p.y - I.cy) / I.fy) ≠ 0)
    (hsm : u * raySize k I p ≤ 1 / 100) (d : V3 ℝ) (hd : (Camera.getRay ⟨k, I, o, noDistortion⟩ p.num).2.Is d) (η : ℝ) (hη1 : η ≤ 1 / 1000)
    (hη : 3 * (e + 16 * u) * raySize k I p ≤ η * d.norm) (mesh : List (Ray.Tri ℝ))
    (hall : ∀ T ∈ mesh, Geo.ClearMissTurned u η o.pos d T) (out : Option (V3 ℝ)) (h : SpaceFromImageMesh u k I o.pos Rinv p mesh out) : out = none := by
  obtain ⟨v, hdir, h⟩ := h
  obtain ⟨hδ, hv'⟩ := direction_any_near k hu hu1 he1 I hfx hfy o Rinv hR p hpole hsm hd hdir
  have hv := hv'.trans hη
  have hη0 : 0 ≤ η := nonneg_of_mul_nonneg_left ((V3.norm_nonneg _).trans hv) hδ
  exact mesh_miss hu (by linarith) hη0 hη1 hδ hv hall h

open Projection Rounded Camera in
theorem Rounded.SpaceFromImageMesh.exists {u : ℝ} (hu : 0 ≤ u) (k : Kind) (I : Intr) (t : V3 ℝ) (Rinv : M3) (p : V2 ℝ) (mesh : List (Ray.Tri ℝ)) : ∃ out, SpaceFromImageMesh u k I t Rinv p mesh out := by
  obtain ⟨v, hv⟩ := DirectionAny.exists hu k I Rinv p false
  obtain ⟨out, h⟩ := MeshHit.exists hu t v mesh
  exact ⟨out, v, hv, h⟩

namespace Rounded

/-- A triangle at height 5 under the example camera. -/
noncomputable def exTriUnder (x : ℝ) : Ray.Tri ℝ := ⟨⟨-x, -x, 5⟩, ⟨1 - x, -x, 5⟩, ⟨-x, 1 - x, 5⟩⟩

theorem exUnder_norm (x : ℝ) : ((exTriUnder x).b - (exTriUnder x).a).norm = 1 ∧ ((exTriUnder x).c - (exTriUnder x).a).norm = 1 ∧ Geo.normal (exTriUnder x) = ⟨0, 0, 1⟩ := by
  refine ⟨?_, ?_, ?_⟩
  · simp [exTriUnder, V3.norm, V3.normSq]
  · simp [exTriUnder, V3.norm, V3.normSq]
  · ext <;> simp [exTriUnder, Geo.normal, V3.cross]

theorem exUnder_clear (x : ℝ) (hx : 0 ≤ x) (hx3 : x ≤ 3) (η : ℝ) (hη : η ≤ 1 / 10 ^ 6) : ¬ Geo.Degenerate (exTriUnder x) ∧
    Geo.MeetsTurned (1 / 2 ^ 53) η exOrient.pos ⟨0, 0, -1⟩ (exTriUnder x) 1 5 ⟨0, 0, 5⟩ ∧
    Geo.CoordsTurned (1 / 2 ^ 53) η exOrient.pos (exTriUnder x) 1 1 x x (1 / 10) ⟨0, 0, 5⟩ ∧
    11 * ((1 / 2 ^ 53) * 1 * (exOrient.pos.dist (exTriUnder x).a + exOrient.pos.dist ⟨0, 0, 5⟩)) + 11 / 10 * (1 * η * exOrient.pos.dist ⟨0, 0, 5⟩) ≤ 1 := by
  obtain ⟨e1, e2, e3⟩ := exUnder_norm x
  have hp : exOrient.pos = ⟨0, 0, 10⟩ := rfl
  rw [hp]
  have hD : V3.dist (⟨0, 0, 10⟩ : V3 ℝ) ⟨0, 0, 5⟩ = 5 := by
    rw [← dist_sub, V3.norm, V3.normSq, Real.sqrt_eq_iff_mul_self_eq_of_pos (by norm_num)]
    simp; norm_num
  have h2 : V3.dist ⟨0, 0, 10⟩ (exTriUnder x).a ≤ 11 := by
    rw [← dist_sub]
    refine (norm_sum _).trans ?_
    simp only [exTriUnder, V3.sub_x, V3.sub_y, V3.sub_z]
    rw [sub_zero, abs_neg, abs_of_nonneg hx, show |(5 : ℝ) - 10| = 5 by norm_num]
    linarith
  have h1 : V3.norm (⟨0, 0, 10⟩ : V3 ℝ) ≤ 11 := by
    refine (norm_sum _).trans ?_
    norm_num
  refine ⟨?_, ⟨?_, by norm_num, by linarith, by ext <;> simp [Geo.at']; norm_num, by rw [hD]; norm_num; linarith⟩,
    ⟨?_, by norm_num, by ext <;> simp [exTriUnder], 1, one_pos, e1.ge, e2.ge, ?_⟩, ?_⟩
  · intro h
    rw [Geo.Degenerate, e3] at h
    simpa using congrArg V3.z h
  · rw [e1, e2, e3]; simp [V3.norm, V3.normSq, V3.dot]
  · rw [e1, e2, e3]; simp [V3.norm, V3.normSq]
  · rw [hD]; norm_num; linarith
  · rw [hD]; norm_num; linarith

end Rounded

open Projection Rounded Camera in
example : ∃ out, SpaceFromImageMesh (1 / 2 ^ 53) .rectilinear ⟨100, 100, 50, 25, 100, 50⟩ exOrient.pos exOrient.mat.Rinv ⟨50, 25⟩ [exTriUnder (1 / 4), exTriUnder 3] out ∧ ∃ P, out = some P := by
  obtain ⟨out, h⟩ := SpaceFromImageMesh.exists (u := 1 / 2 ^ 53) (by norm_num) .rectilinear ⟨100, 100, 50, 25, 100, 50⟩ exOrient.pos exOrient.mat.Rinv ⟨50, 25⟩ [exTriUnder (1 / 4), exTriUnder 3]
  obtain ⟨a1, a2, a3, a4⟩ := exUnder_clear (1 / 4) (by norm_num) (by norm_num) (3 * 0 + 18 * (1 / 2 ^ 53)) (by norm_num)
  obtain ⟨b1, b2, b3, b4⟩ := exUnder_clear 3 (by norm_num) (by norm_num) (3 * 0 + 18 * (1 / 2 ^ 53)) (by norm_num)
  have hc : Geo.ClearHitTurned (1 / 2 ^ 53) (3 * 0 + 18 * (1 / 2 ^ 53)) exOrient.pos ⟨0, 0, -1⟩ (exTriUnder (1 / 4)) 1 5 :=
    ⟨a1, by norm_num, 1, 1, 1 / 4, 1 / 4, 1 / 10, ⟨0, 0, 5⟩, a2, a3, by norm_num, by norm_num, by norm_num, a4⟩
  have hm : Geo.ClearMissTurned (1 / 2 ^ 53) (3 * 0 + 18 * (1 / 2 ^ 53)) exOrient.pos ⟨0, 0, -1⟩ (exTriUnder 3) :=
    ⟨b1, 1, 5, ⟨0, 0, 5⟩, b2, Or.inr ⟨by norm_num, 1, 3, 3, 1 / 10, b3, Or.inr (Or.inr (by norm_num))⟩⟩
  obtain ⟨P, hP, -⟩ := C197_nearest ⟨100, 100, 50, 25, 100, 50⟩ (by norm_num) (by norm_num) (1 / 2 ^ 53) 0 (by norm_num) (by norm_num) (by norm_num) exOrient _ (Near.refl le_rfl _)
    ⟨50, 25⟩ ⟨0, 0, -1⟩ (exOrient_ray _ _ (by norm_num)) [exTriUnder (1 / 4), exTriUnder 3] 1
    (fun T hT => by
      simp only [List.mem_cons, List.not_mem_nil, or_false] at hT
      rcases hT with rfl | rfl
      · exact Or.inr ⟨5, hc⟩
      · exact Or.inl hm)
    (exTriUnder (1 / 4)) (by simp) 5 hc
    (fun T hT t ht => by
      obtain ⟨-, -, k, σ, s, r, e, Q, ⟨-, -, -, hQ, -⟩, ⟨-, -, hsr, -⟩, -⟩ := ht
      simp only [List.mem_cons, List.not_mem_nil, or_false] at hT
      have := congrArg V3.z hsr
      rw [hQ] at this
      rcases hT with rfl | rfl <;> simp [exTriUnder, Geo.at', exOrient, Orient.pos] at this <;> linarith) out h
  exact ⟨out, h, P, hP⟩

open Projection Rounded Camera in
example : ∃ out, SpaceFromImageMesh (1 / 2 ^ 53) .rectilinear ⟨100, 100, 50, 25, 100, 50⟩ exOrient.pos exOrient.mat.Rinv ⟨50, 25⟩ [exTriUnder 3] out ∧ out = none := by
  obtain ⟨out, h⟩ := SpaceFromImageMesh.exists (u := 1 / 2 ^ 53) (by norm_num) .rectilinear ⟨100, 100, 50, 25, 100, 50⟩ exOrient.pos exOrient.mat.Rinv ⟨50, 25⟩ [exTriUnder 3]
  obtain ⟨b1, b2, b3, b4⟩ := exUnder_clear 3 (by norm_num) (by norm_num) (3 * 0 + 18 * (1 / 2 ^ 53)) (by norm_num)
  refine ⟨out, h, C197_miss ⟨100, 100, 50, 25, 100, 50⟩ (by norm_num) (by norm_num) (1 / 2 ^ 53) 0 (by norm_num) (by norm_num) (by norm_num) exOrient _ (Near.refl le_rfl _)
    ⟨50, 25⟩ ⟨0, 0, -1⟩ (exOrient_ray _ _ (by norm_num)) [exTriUnder 3] (fun T hT => ?_) out h⟩
  rw [List.mem_singleton.1 hT]
  exact ⟨b1, 1, 5, ⟨0, 0, 5⟩, b2, Or.inr ⟨by norm_num, 1, 3, 3, 1 / 10, b3, Or.inr (Or.inr (by norm_num))⟩⟩

open Projection Rounded Camera in
theorem Rounded.exUnder_ray (k : Kind) : (Camera.getRay ⟨k, ⟨100, 100, 50, 25, 100, 50⟩, exOrient, noDistortion⟩ (V2.num ⟨50, 25⟩)).2.Is ⟨0, 0, -1⟩ := by
  have hr : (Projection.getRay k ⟨100, 100, 50, 25, 100, 50⟩ (V2.num ⟨50, 25⟩)).Is ⟨0, 0, -1⟩ :=
    (Projection.getRay_is k (by norm_num) (by norm_num) (V2.is_num _)).congr (by cases k <;> simp [Projection.rayR])
  have h1 := M3.apply_is (A := exOrient.mat.Rinv) hr
  refine V3.Is.congr h1 ?_
  rw [exOrient_mat.2]
  ext <;> simp [M3.applyR, M3.one, V3.dot]

open Projection Rounded in
theorem Rounded.exUnder_size (k : Kind) : raySize k ⟨100, 100, 50, 25, 100, 50⟩ ⟨50, 25⟩ ≤ 2 := by
  cases k <;> norm_num [raySize, size, panSize, rayR]

open Projection Rounded Camera in
example (k : Kind) : ∃ out, SpaceFromImageMesh (1 / 2 ^ 53) k ⟨100, 100, 50, 25, 100, 50⟩ exOrient.pos exOrient.mat.Rinv ⟨50, 25⟩ [exTriUnder (1 / 4), exTriUnder 3] out ∧ ∃ P, out = some P := by
  obtain ⟨out, h⟩ := SpaceFromImageMesh.exists (u := 1 / 2 ^ 53) (by norm_num) k ⟨100, 100, 50, 25, 100, 50⟩ exOrient.pos exOrient.mat.Rinv ⟨50, 25⟩ [exTriUnder (1 / 4), exTriUnder 3]
  obtain ⟨a1, a2, a3, a4⟩ := exUnder_clear (1 / 4) (by norm_num) (by norm_num) (96 * (1 / 2 ^ 53)) (by norm_num)
  have hsz := exUnder_size k
  have hone : (⟨0, 0, -1⟩ : V3 ℝ).norm = 1 := by unfold V3.norm V3.normSq; norm_num
  obtain ⟨b1, b2, b3, b4⟩ := exUnder_clear 3 (by norm_num) (by norm_num) (96 * (1 / 2 ^ 53)) (by norm_num)
  have hc : Geo.ClearHitTurned (1 / 2 ^ 53) (96 * (1 / 2 ^ 53)) exOrient.pos ⟨0, 0, -1⟩ (exTriUnder (1 / 4)) 1 5 :=
    ⟨a1, by norm_num, 1, 1, 1 / 4, 1 / 4, 1 / 10, ⟨0, 0, 5⟩, a2, a3, by norm_num, by norm_num, by norm_num, a4⟩
  have hm : Geo.ClearMissTurned (1 / 2 ^ 53) (96 * (1 / 2 ^ 53)) exOrient.pos ⟨0, 0, -1⟩ (exTriUnder 3) :=
    ⟨b1, 1, 5, ⟨0, 0, 5⟩, b2, Or.inr ⟨by norm_num, 1, 3, 3, 1 / 10, b3, Or.inr (Or.inr (by norm_num))⟩⟩
  obtain ⟨P, hP, -⟩ := C197_nearest_any k ⟨100, 100, 50, 25, 100, 50⟩ (by norm_num) (by norm_num) (1 / 2 ^ 53) 0 (by norm_num) (by norm_num) (by norm_num) exOrient _ (Near.refl le_rfl _)
    ⟨50, 25⟩ (fun _ => by norm_num) (by linarith) ⟨0, 0, -1⟩ (exUnder_ray k)
    (96 * (1 / 2 ^ 53)) (by norm_num) (by rw [hone]; linarith) [exTriUnder (1 / 4), exTriUnder 3] 1
    (fun T hT => by
      simp only [List.mem_cons, List.not_mem_nil, or_false] at hT
      rcases hT with rfl | rfl
      · exact Or.inr ⟨5, hc⟩
      · exact Or.inl hm)
    (exTriUnder (1 / 4)) (by simp) 5 hc
    (fun T hT t ht => by
      obtain ⟨-, -, k, σ, s, r, e, Q, ⟨-, -, -, hQ, -⟩, ⟨-, -, hsr, -⟩, -⟩ := ht
      simp only [List.mem_cons, List.not_mem_nil, or_false] at hT
      have := congrArg V3.z hsr
      rw [hQ] at this
      rcases hT with rfl | rfl <;> simp [exTriUnder, Geo.at', exOrient, Orient.pos] at this <;> linarith) out h
  exact ⟨out, h, P, hP⟩

open Projection Rounded Camera in
example (k : Kind) : ∃ out, SpaceFromImageMesh (1 / 2 ^ 53) k ⟨100, 100, 50, 25, 100, 50⟩ exOrient.pos exOrient.mat.Rinv ⟨50, 25⟩ [exTriUnder 3] out ∧ out = none := by
  obtain ⟨out, h⟩ := SpaceFromImageMesh.exists (u := 1 / 2 ^ 53) (by norm_num) k ⟨100, 100, 50, 25, 100, 50⟩ exOrient.pos exOrient.mat.Rinv ⟨50, 25⟩ [exTriUnder 3]
  have hsz := exUnder_size k
  have hone : (⟨0, 0, -1⟩ : V3 ℝ).norm = 1 := by unfold V3.norm V3.normSq; norm_num
  obtain ⟨b1, b2, b3, b4⟩ := exUnder_clear 3 (by norm_num) (by norm_num) (96 * (1 / 2 ^ 53)) (by norm_num)
  refine ⟨out, h, C197_miss_any k ⟨100, 100, 50, 25, 100, 50⟩ (by norm_num) (by norm_num) (1 / 2 ^ 53) 0 (by norm_num) (by norm_num) (by norm_num) exOrient _ (Near.refl le_rfl _)
    ⟨50, 25⟩ (fun _ => by norm_num) (by linarith) ⟨0, 0, -1⟩ (exUnder_ray k)
    (96 * (1 / 2 ^ 53)) (by norm_num) (by rw [hone]; linarith) [exTriUnder 3] (fun T hT => ?_) out h⟩
  rw [List.mem_singleton.1 hT]
  exact ⟨b1, 1, 5, ⟨0, 0, 5⟩, b2, Or.inr ⟨by norm_num, 1, 3, 3, 1 / 10, b3, Or.inr (Or.inr (by norm_num))⟩⟩
