import Verif.Model.RoundedPlane
import Verif.Props.RoundLines
import Verif.Props.RoundArea
import Verif.Props.Planes

/-! # C194: rays and planes with rounding errors -/

open Classical

namespace Rounded

/-- The normal of a triangle. -/
theorem normal_near {u : ℝ} (hu : 0 ≤ u) (hu1 : u ≤ 1 / 100000) {X Y U V n : V3 ℝ} (hU : (U - X).norm ≤ u * X.norm) (hV : (V - Y).norm ≤ u * Y.norm)
    (hn : Cross u U V n) : (n - X.cross Y).norm ≤ 501 / 100 * u * (X.norm * Y.norm) := by
  have hx := V3.norm_nonneg X
  have hy := V3.norm_nonneg Y
  have kU := (abs_le.1 ((norm_diff U X).trans hU)).2
  have kV := (abs_le.1 ((norm_diff V Y).trans hV)).2
  have t1 := hn.near hu hu1
  have t2 := nrm_cross (U - X) V
  have t3 := nrm_cross X (V - Y)
  have t4 := nrm_add (n - U.cross V) ((U - X).cross V)
  have t5 := nrm_add (n - U.cross V + (U - X).cross V) (X.cross (V - Y))
  rw [show n - U.cross V + (U - X).cross V + X.cross (V - Y) = n - X.cross Y by ext <;> simp [V3.cross] <;> ring] at t5
  have t6 := mul_le_mul hU (by linarith : V.norm ≤ Y.norm + u * Y.norm) (V3.norm_nonneg _) (by positivity)
  have t7 := mul_le_mul_of_nonneg_left hV hx
  have t8 := mul_le_mul (by linarith : U.norm ≤ X.norm + u * X.norm) (by linarith : V.norm ≤ Y.norm + u * Y.norm) (V3.norm_nonneg _) (by positivity)
  have t9 := mul_le_mul_of_nonneg_left t8 (by positivity : 0 ≤ 3 * u)
  obtain ⟨S, hS⟩ : ∃ S, S = X.norm * Y.norm := ⟨_, rfl⟩
  have hS0 : 0 ≤ S := by rw [hS]; positivity
  have e6 : u * X.norm * (Y.norm + u * Y.norm) = u * S + u * (u * S) := by rw [hS]; ring
  have e7 : X.norm * (u * Y.norm) = u * S := by rw [hS]; ring
  have e9 : 3 * u * ((X.norm + u * X.norm) * (Y.norm + u * Y.norm)) = 3 * (u * S) + 6 * (u * (u * S)) + 3 * (u * (u * (u * S))) := by rw [hS]; ring
  have b1 : u * (u * S) ≤ 1 / 100000 * (u * S) := mul_le_mul_of_nonneg_right hu1 (by positivity)
  have b2 : u * (u * (u * S)) ≤ 1 / 100000 * (u * (u * S)) := mul_le_mul_of_nonneg_right hu1 (by positivity)
  have b3 : 0 ≤ u * S := by positivity
  rw [← hS]
  linarith

/-- The parameter of a hit. -/
theorem plane_param {u S k t a b A B ω δ q : ℝ} (hu : 0 ≤ u) (hu1 : u ≤ 1 / 100000) (hS : 0 ≤ S) (hω : 0 ≤ ω) (hδ : 0 < δ) (hk1 : 1 ≤ k) (hk : S * δ ≤ k * |B|)
    (huk : 1000 * u * k ≤ 1) (hB : B ≠ 0) (hA : A = t * B) (ha : |a - A| ≤ 91 / 10 * u * (S * ω)) (hb : |b - B| ≤ 81 / 10 * u * (S * δ)) :
    b ≠ 0 ∧ (Rd u (a / b) q → |q - t| * δ ≤ 10 * (u * k * (ω + |t| * δ))) := by
  have hB0 : 0 < |B| := abs_pos.2 hB
  have hb2 : 99 / 100 * |B| ≤ |b| := by
    have t1 := mul_le_mul_of_nonneg_left hk (by positivity : 0 ≤ 81 / 10 * u)
    have t2 := mul_le_mul_of_nonneg_right huk hB0.le
    have t3 := abs_abs_sub_abs_le_abs_sub b B
    linarith [(abs_le.1 (t3.trans hb)).1]
  have hb0 : b ≠ 0 := by
    rintro rfl
    rw [abs_zero] at hb2
    linarith
  refine ⟨hb0, fun hq => ?_⟩
  obtain ⟨X, hX⟩ : ∃ X, X = a / b := ⟨_, rfl⟩
  have hXb : X * b = a := by rw [hX]; field_simp
  obtain ⟨M, hM⟩ : ∃ M, M = u * k * (ω + |t| * δ) := ⟨_, rfl⟩
  have hT : 0 ≤ |t| * δ := by positivity
  have hM0 : 0 ≤ M := by rw [hM]; positivity
  have h1 : |X - t| * |b| ≤ 91 / 10 * u * S * (ω + |t| * δ) := by
    rw [← abs_mul, show (X - t) * b = (a - A) - t * (b - B) by rw [hA]; linear_combination hXb]
    refine (abs_sub _ _).trans ?_
    rw [abs_mul t]
    have t1 := mul_le_mul_of_nonneg_left hb (abs_nonneg t)
    have t2 : 0 ≤ u * S * (|t| * δ) := by positivity
    linarith
  have h2 : |X - t| * δ ≤ 92 / 10 * M := by
    have t1 := mul_le_mul_of_nonneg_right h1 hδ.le
    have t2 := mul_le_mul_of_nonneg_left hk (by positivity : 0 ≤ 91 / 10 * u * (ω + |t| * δ))
    have t3 := mul_le_mul_of_nonneg_left hb2 (by positivity : 0 ≤ |X - t| * δ)
    have e : 91 / 10 * u * (ω + |t| * δ) * (k * |B|) = 91 / 10 * M * |B| := by rw [hM]; ring
    have t4 : (99 / 100 * (|X - t| * δ)) * |B| ≤ (91 / 10 * M) * |B| := by linarith
    have t5 := le_of_mul_le_mul_right t4 hB0
    linarith
  rw [← hX] at hq
  have h3 : |q - t| ≤ |X - t| + u * (|t| + |X - t|) := by
    have t1 : |q - X| ≤ u * |X| := hq
    have t2 := abs_sub_le q X t
    have t3 : |X| ≤ |t| + |X - t| := by
      have := abs_add_le t (X - t)
      rwa [add_sub_cancel] at this
    have t4 := mul_le_mul_of_nonneg_left t3 hu
    linarith
  have h4 := mul_le_mul_of_nonneg_right h3 hδ.le
  have h5 : u * (|X - t| * δ) ≤ 1 / 100000 * (92 / 10 * M) := mul_le_mul hu1 h2 (by positivity) (by norm_num)
  rw [← hM]
  have h8 : |X - t| * δ ≤ 92 / 10 * (u * k * ω) + 83 / 10 * (u * k * (|t| * δ)) := by
    have g1 : |X - t| * |b| ≤ u * S * (91 / 10 * ω + 81 / 10 * (|t| * δ)) := by
      rw [← abs_mul, show (X - t) * b = (a - A) - t * (b - B) by rw [hA]; linear_combination hXb]
      refine (abs_sub _ _).trans ?_
      rw [abs_mul t]
      have t1 := mul_le_mul_of_nonneg_left hb (abs_nonneg t)
      linarith
    have t1 := mul_le_mul_of_nonneg_right g1 hδ.le
    have t2 := mul_le_mul_of_nonneg_left hk (by positivity : 0 ≤ u * (91 / 10 * ω + 81 / 10 * (|t| * δ)))
    have t3 := mul_le_mul_of_nonneg_left hb2 (by positivity : 0 ≤ |X - t| * δ)
    have t4 : (99 / 100 * (|X - t| * δ)) * |B| ≤ (u * k * (91 / 10 * ω + 81 / 10 * (|t| * δ))) * |B| := by linarith
    have t5 := le_of_mul_le_mul_right t4 hB0
    have t6 : 0 ≤ u * k * ω := by positivity
    have t7 : 0 ≤ u * k * (|t| * δ) := by positivity
    linarith
  have h9 := mul_le_mul_of_nonneg_left hk1 (by positivity : 0 ≤ u * (|t| * δ))
  have h10 : 0 ≤ u * k * ω := by positivity
  have h11 : 0 ≤ u * k * (|t| * δ) := by positivity
  rw [hM] at h5 ⊢
  linarith

end Rounded

open Rounded in
/-- The parameter that the code computes for the plane of a triangle. -/
theorem Rounded.PlaneHit.param {u : ℝ} (hu : 0 ≤ u) (hu1 : u ≤ 1 / 100000) {o d : V3 ℝ} (hd : d ≠ ⟨0, 0, 0⟩) {T : Ray.Tri ℝ} (hn : ¬ Geo.Degenerate T) {k t : ℝ} {Q : V3 ℝ}
    (hk : (T.b - T.a).norm * (T.c - T.a).norm * d.norm ≤ k * |(Geo.normal T).dot d|) (huk : 1000 * u * k ≤ 1) (hQ : Q = Geo.at' o d t) (hT : Geo.OnPlane T Q)
    {out : Option (V3 ℝ)} (h : PlaneHit u o d T out) :
    1 ≤ k ∧ ∃ q, |q - t| * d.norm ≤ 10 * (u * k * (o.dist T.a + |t| * d.norm)) ∧ if q < 0 then out = none else ∃ P, out = some P ∧ Along u o d q P := by
  obtain ⟨U, V, n, w, b, a, hU, hV, hc, hb, hw, ha, ho⟩ := h
  have hδ := V3.norm_pos hd
  obtain ⟨X, hX⟩ : ∃ X, X = T.b - T.a := ⟨_, rfl⟩
  obtain ⟨Y, hY⟩ : ∃ Y, Y = T.c - T.a := ⟨_, rfl⟩
  obtain ⟨W, hW⟩ : ∃ W, W = T.a - o := ⟨_, rfl⟩
  have hN : Geo.normal T = X.cross Y := by rw [hX, hY]; rfl
  have hon := (Ray.onPlane_iff hn o d t).1 (hQ ▸ hT)
  rw [hN, ← hW] at hon
  rw [← hX, ← hY, hN] at hk
  have hN0 : 0 < (X.cross Y).norm := V3.norm_pos (by rw [← hN]; exact hn)
  have hNS := nrm_cross X Y
  have hS0 : 0 < X.norm * Y.norm := lt_of_lt_of_le hN0 hNS
  have hB : (X.cross Y).dot d ≠ 0 := by
    intro e
    rw [e, abs_zero, mul_zero] at hk
    have := mul_pos hS0 hδ
    linarith
  have hBS : |(X.cross Y).dot d| ≤ X.norm * Y.norm * d.norm :=
    (Ray.abs_dot_le _ _).trans (mul_le_mul_of_nonneg_right hNS hδ.le)
  have hk1 : 1 ≤ k := by
    have h1 : 1 * |(X.cross Y).dot d| ≤ k * |(X.cross Y).dot d| := by linarith
    exact le_of_mul_le_mul_right h1 (abs_pos.2 hB)
  refine ⟨hk1, ?_⟩
  have hUX : (U - X).norm ≤ u * X.norm := sub_norm_near hu (by rw [hX]; exact hU.1) (by rw [hX]; exact hU.2.1) (by rw [hX]; exact hU.2.2)
  have hVY : (V - Y).norm ≤ u * Y.norm := sub_norm_near hu (by rw [hY]; exact hV.1) (by rw [hY]; exact hV.2.1) (by rw [hY]; exact hV.2.2)
  have hnn := normal_near hu hu1 hUX hVY hc
  obtain ⟨S, hS⟩ : ∃ S, S = X.norm * Y.norm := ⟨_, rfl⟩
  rw [← hS] at hnn hNS hS0 hk
  have hnorm : n.norm ≤ S + 501 / 100 * u * S := by
    have := (abs_le.1 ((norm_diff n (X.cross Y)).trans hnn)).2
    linarith
  have hω := V3.norm_nonneg W
  have huu : u * u ≤ 1 / 100000 * u := mul_le_mul_of_nonneg_right hu1 hu
  have near : ∀ {z c y : ℝ} {v : V3 ℝ}, 0 ≤ y → v.norm = y → |z - n.dot v| ≤ c * u * (n.norm * y) → 0 ≤ c → c ≤ 5 → |z - (X.cross Y).dot v| ≤ (c + 502 / 100) * u * (S * y) := by
    intro z c y v hy hv hz hc0 hc
    have t1 := Ray.abs_dot_le (n - X.cross Y) v
    rw [show (n - X.cross Y).dot v = n.dot v - (X.cross Y).dot v by simp only [V3.dot, V3.sub_x, V3.sub_y, V3.sub_z]; ring, hv] at t1
    have t2 := mul_le_mul_of_nonneg_right hnn hy
    have t3 := mul_le_mul_of_nonneg_left (mul_le_mul_of_nonneg_right hnorm hy) (by positivity : 0 ≤ c * u)
    have t4 := abs_sub_le z (n.dot v) ((X.cross Y).dot v)
    have t5 : u * (u * (S * y)) ≤ 1 / 100000 * (u * (S * y)) := mul_le_mul_of_nonneg_right hu1 (by positivity)
    have t6 : 0 ≤ u * (u * (S * y)) := by positivity
    have t7 := mul_le_mul_of_nonneg_right hc t6
    have t8 : 0 ≤ u * (S * y) := by positivity
    linarith
  have hb' := near hδ.le rfl (hb.norm_near hu hu1) (by norm_num) (by norm_num)
  have ha' := near hω rfl (ha.diff_near (q := W) hu hu1 (by rw [hW]; exact hw.1) (by rw [hW]; exact hw.2.1) (by rw [hW]; exact hw.2.2)) (by norm_num) (by norm_num)
  have hdist : W.norm = o.dist T.a := by rw [hW]; exact dist_sub _ _
  have huS : 0 ≤ u * (S * W.norm) := by positivity
  have huS' : 0 ≤ u * (S * d.norm) := by positivity
  have key := fun q => plane_param (q := q) hu hu1 hS0.le hω hδ hk1 hk huk hB hon.symm (ha'.trans (by linarith)) (hb'.trans (by linarith))
  have hb0 := (key 0).1
  rw [if_neg (fun h => hb0 h.1)] at ho
  obtain ⟨q, hq, hq'⟩ := ho
  rw [if_neg hb0] at hq
  refine ⟨q, ?_, hq'⟩
  rw [← hdist]
  exact (key q).2 hq

open Rounded in
theorem Rounded.along_coord {u k q t δ ω ox dx a P : ℝ} (hu : 0 ≤ u) (hu1 : u ≤ 1 / 100000) (hk1 : 1 ≤ k) (hω : 0 ≤ ω) (hδ : 0 ≤ δ) (hdx : |dx| ≤ δ)
    (hq : |q - t| * δ ≤ 10 * (u * k * (ω + |t| * δ))) (ha : Rd u (q * dx) a) (hP : Rd u (ox + a) P) :
    |P - (ox + t * dx)| ≤ 13 * u * k * (ω + |t| * δ) + u * |ox| := by
  obtain ⟨M, hM⟩ : ∃ M, M = u * k * (ω + |t| * δ) := ⟨_, rfl⟩
  rw [← hM] at hq
  have hM0 : 0 ≤ M := by rw [hM]; positivity
  have hT0 : 0 ≤ |t| * δ := by positivity
  have hT : u * (|t| * δ) ≤ M := by
    rw [hM]
    have s1 := mul_le_mul_of_nonneg_left hk1 (by positivity : 0 ≤ u * (|t| * δ))
    have s2 : 0 ≤ u * k * ω := by positivity
    linarith
  have huM : u * M ≤ 1 / 100000 * M := mul_le_mul_of_nonneg_right hu1 hM0
  have h1 : |q * dx - t * dx| ≤ 10 * M := by
    rw [← sub_mul, abs_mul]
    exact (mul_le_mul_of_nonneg_left hdx (abs_nonneg _)).trans hq
  have h2 : |t * dx| ≤ |t| * δ := by
    rw [abs_mul]
    exact mul_le_mul_of_nonneg_left hdx (abs_nonneg _)
  have h3 : |a - t * dx| ≤ 111 / 10 * M := (rd_close hu ha h1 (abs_close h1 h2)).trans (by linarith)
  have h4 : |ox + a - (ox + t * dx)| ≤ 111 / 10 * M := by rwa [add_sub_add_left_eq_sub]
  have h5 : |ox + t * dx| ≤ |ox| + |t| * δ := (abs_add_le _ _).trans (by linarith)
  refine (rd_close hu hP h4 (abs_close h4 h5)).trans ?_
  have e : 13 * u * k * (ω + |t| * δ) = 13 * M := by rw [hM]; ring
  rw [e]
  linarith

open Rounded in
/-- **C194** The point in which a ray meets the plane of a triangle, with rounding errors. -/
theorem C194_plane (u : ℝ) (hu : 0 ≤ u) (hu1 : u ≤ 1 / 100000) (o d : V3 ℝ) (hd : d ≠ ⟨0, 0, 0⟩) (T : Ray.Tri ℝ) (hn : ¬ Geo.Degenerate T) (k : ℝ)
    (hk : (T.b - T.a).norm * (T.c - T.a).norm * d.norm ≤ k * |(Geo.normal T).dot d|) (huk : 1000 * u * k ≤ 1) (t : ℝ) (Q : V3 ℝ) (hQ : Q = Geo.at' o d t)
    (hT : Geo.OnPlane T Q) (ht : 0 ≤ t) (hm : 10 * u * k * (o.dist T.a + o.dist Q) ≤ o.dist Q) (out : Option (V3 ℝ)) (h : PlaneHit u o d T out) :
    ∃ P, out = some P ∧ ∀ j, |P.get j - Q.get j| ≤ 13 * u * k * (o.dist T.a + o.dist Q) + u * |o.get j| := by
  obtain ⟨hk1, q, hq, hq'⟩ := PlaneHit.param hu hu1 hd hn hk huk hQ hT h
  have hδ := V3.norm_pos hd
  have hdQ : o.dist Q = |t| * d.norm := by
    rw [← dist_sub, hQ, ← nrm_mulS]
    congr 1
    ext <;> simp [Geo.at'] <;> ring
  rw [hdQ] at hm ⊢
  have hω : 0 ≤ o.dist T.a := by rw [← dist_sub]; exact V3.norm_nonneg _
  have hq0 : ¬ q < 0 := by
    intro hneg
    have t1 : (t - q) * d.norm ≤ |q - t| * d.norm := by
      refine mul_le_mul_of_nonneg_right ?_ hδ.le
      rw [abs_sub_comm]
      exact le_abs_self _
    have t2 := mul_neg_of_neg_of_pos hneg hδ
    rw [abs_of_nonneg ht] at hm hq
    linarith
  rw [if_neg hq0] at hq'
  obtain ⟨P, hP, a, b, c, a1, a2, a3, p1, p2, p3⟩ := hq'
  refine ⟨P, hP, fun j => ?_⟩
  rw [hQ]
  fin_cases j
  · exact along_coord hu hu1 hk1 hω hδ.le (nrm_coord d 0) hq a1 p1
  · exact along_coord hu hu1 hk1 hω hδ.le (nrm_coord d 1) hq a2 p2
  · exact along_coord hu hu1 hk1 hω hδ.le (nrm_coord d 2) hq a3 p3

open Rounded in
/-- **C194** A plane that the line of the ray meets behind the origin is not hit. -/
theorem C194_behind (u : ℝ) (hu : 0 ≤ u) (hu1 : u ≤ 1 / 100000) (o d : V3 ℝ) (hd : d ≠ ⟨0, 0, 0⟩) (T : Ray.Tri ℝ) (hn : ¬ Geo.Degenerate T) (k : ℝ)
    (hk : (T.b - T.a).norm * (T.c - T.a).norm * d.norm ≤ k * |(Geo.normal T).dot d|) (huk : 1000 * u * k ≤ 1) (t : ℝ) (Q : V3 ℝ) (hQ : Q = Geo.at' o d t)
    (hT : Geo.OnPlane T Q) (ht : t < 0) (hm : 10 * u * k * (o.dist T.a + o.dist Q) < o.dist Q) (out : Option (V3 ℝ)) (h : PlaneHit u o d T out) : out = none := by
  obtain ⟨hk1, q, hq, hq'⟩ := PlaneHit.param hu hu1 hd hn hk huk hQ hT h
  have hδ := V3.norm_pos hd
  have hdQ : o.dist Q = |t| * d.norm := by
    rw [← dist_sub, hQ, ← nrm_mulS]
    congr 1
    ext <;> simp [Geo.at'] <;> ring
  rw [hdQ] at hm
  have hq0 : q < 0 := by
    by_contra hneg
    have t1 : (q - t) * d.norm ≤ |q - t| * d.norm := mul_le_mul_of_nonneg_right (le_abs_self _) hδ.le
    have t2 := mul_nonneg (not_lt.1 hneg) hδ.le
    rw [abs_of_neg ht] at hm hq
    linarith
  rwa [if_pos hq0] at hq'

open Rounded in
/-- **C194** Whatever the rounding errors, a hit is never taken from behind the origin. -/
theorem C194_never_behind (u : ℝ) (o d : V3 ℝ) (T : Ray.Tri ℝ) (P : V3 ℝ) (h : PlaneHit u o d T (some P)) : ∃ q, 0 ≤ q ∧ Along u o d q P := by
  obtain ⟨U, V, n, w, b, a, -, -, -, -, -, -, ho⟩ := h
  split at ho
  · simp at ho
  · obtain ⟨q, -, hq⟩ := ho
    split at hq
    · simp at hq
    · obtain ⟨P', e, hP⟩ := hq
      rw [Option.some_inj] at e
      rw [e]
      exact ⟨q, by linarith, hP⟩

open Rounded in
theorem Rounded.PlaneHit.exists {u : ℝ} (hu : 0 ≤ u) (o d : V3 ℝ) (T : Ray.Tri ℝ) : ∃ out, PlaneHit u o d T out := by
  have df : ∀ P Q : V3 ℝ, Diff u P Q (P - Q) := fun P Q => ⟨Rd.exact hu _, Rd.exact hu _, Rd.exact hu _⟩
  obtain ⟨n, hn⟩ : ∃ n, Cross u (T.b - T.a) (T.c - T.a) n := ⟨_, Cross.exact hu _ _⟩
  by_cases h : n.dot d = 0 ∧ n.dot (T.a - o) ≠ 0
  · exact ⟨none, _, _, n, _, _, _, df _ _, df _ _, hn, Dot.exact hu _ _, df _ _, Dot.exact hu _ _, by rw [if_pos h]⟩
  · obtain ⟨q, hq⟩ : ∃ q, if n.dot d = 0 then q = 0 else Rd u (n.dot (T.a - o) / n.dot d) q := by
      by_cases h0 : n.dot d = 0
      · exact ⟨0, by rw [if_pos h0]⟩
      · exact ⟨_, by rw [if_neg h0]; exact Rd.exact hu _⟩
    by_cases hq0 : q < 0
    · exact ⟨none, _, _, n, _, _, _, df _ _, df _ _, hn, Dot.exact hu _ _, df _ _, Dot.exact hu _ _, by rw [if_neg h]; exact ⟨q, hq, by rw [if_pos hq0]⟩⟩
    · exact ⟨some ⟨_, _, _⟩, _, _, n, _, _, _, df _ _, df _ _, hn, Dot.exact hu _ _, df _ _, Dot.exact hu _ _, by
        rw [if_neg h]
        exact ⟨q, hq, by rw [if_neg hq0]; exact ⟨_, rfl, _, _, _, Rd.exact hu _, Rd.exact hu _, Rd.exact hu _, Rd.exact hu _, Rd.exact hu _, Rd.exact hu _⟩⟩⟩

namespace Rounded

noncomputable def exTri : Ray.Tri ℝ := ⟨⟨0, 0, 0⟩, ⟨1, 0, 0⟩, ⟨0, 1, 0⟩⟩

theorem exTri_norm : (exTri.b - exTri.a).norm = 1 ∧ (exTri.c - exTri.a).norm = 1 ∧ Geo.normal exTri = ⟨0, 0, 1⟩ := by
  refine ⟨?_, ?_, ?_⟩
  · simp [exTri, V3.norm, V3.normSq]
  · simp [exTri, V3.norm, V3.normSq]
  · ext <;> simp [exTri, Geo.normal, V3.cross]

end Rounded

open Rounded in
example : ∃ out, PlaneHit (1 / 2 ^ 53) ⟨0, 0, 5⟩ ⟨0, 0, -1⟩ exTri out ∧ ∃ P, out = some P ∧ ∀ j, |P.get j - (⟨0, 0, 0⟩ : V3 ℝ).get j| ≤ 150 / 2 ^ 53 := by
  obtain ⟨out, h⟩ := PlaneHit.exists (u := 1 / 2 ^ 53) (by norm_num) ⟨0, 0, 5⟩ ⟨0, 0, -1⟩ exTri
  obtain ⟨e1, e2, e3⟩ := exTri_norm
  have hd : V3.dist ⟨0, 0, 5⟩ (⟨0, 0, 0⟩ : V3 ℝ) = 5 := by
    rw [← dist_sub, V3.norm, V3.normSq, Real.sqrt_eq_iff_mul_self_eq_of_pos (by norm_num)]
    simp; norm_num
  have hda : V3.dist ⟨0, 0, 5⟩ exTri.a = 5 := hd
  obtain ⟨P, hP, hb⟩ := C194_plane (1 / 2 ^ 53) (by norm_num) (by norm_num) ⟨0, 0, 5⟩ ⟨0, 0, -1⟩ (by intro h; simpa using congrArg V3.z h) exTri
    (by intro h; rw [Geo.Degenerate, e3] at h; simpa using congrArg V3.z h) 1 (by rw [e1, e2, e3]; simp [V3.norm, V3.normSq, V3.dot]) (by norm_num) 5 ⟨0, 0, 0⟩
    (by ext <;> simp [Geo.at']) ⟨0, 0, by simp [exTri], by simp [exTri], by simp [exTri]⟩ (by norm_num) (by rw [hd, hda]; norm_num) out h
  refine ⟨out, h, P, hP, fun j => (hb j).trans ?_⟩
  rw [hd, hda]
  have : |(⟨0, 0, 5⟩ : V3 ℝ).get j| ≤ 5 := by
    fin_cases j
    · show |(0 : ℝ)| ≤ 5; norm_num
    · show |(0 : ℝ)| ≤ 5; norm_num
    · show |(5 : ℝ)| ≤ 5; norm_num
  have t := mul_le_mul_of_nonneg_left this (by norm_num : (0 : ℝ) ≤ 1 / 2 ^ 53)
  norm_num at t ⊢
  linarith

open Rounded in
example : ∃ out, PlaneHit (1 / 2 ^ 53) ⟨0, 0, 5⟩ ⟨0, 0, 1⟩ exTri out ∧ out = none := by
  obtain ⟨out, h⟩ := PlaneHit.exists (u := 1 / 2 ^ 53) (by norm_num) ⟨0, 0, 5⟩ ⟨0, 0, 1⟩ exTri
  obtain ⟨e1, e2, e3⟩ := exTri_norm
  have hd : V3.dist ⟨0, 0, 5⟩ (⟨0, 0, 0⟩ : V3 ℝ) = 5 := by
    rw [← dist_sub, V3.norm, V3.normSq, Real.sqrt_eq_iff_mul_self_eq_of_pos (by norm_num)]
    simp; norm_num
  have hda : V3.dist ⟨0, 0, 5⟩ exTri.a = 5 := hd
  exact ⟨out, h, C194_behind (1 / 2 ^ 53) (by norm_num) (by norm_num) ⟨0, 0, 5⟩ ⟨0, 0, 1⟩ (by intro h; simpa using congrArg V3.z h) exTri
    (by intro h; rw [Geo.Degenerate, e3] at h; simpa using congrArg V3.z h) 1 (by rw [e1, e2, e3]; simp [V3.norm, V3.normSq, V3.dot]) (by norm_num) (-5) ⟨0, 0, 0⟩
    (by ext <;> simp [Geo.at']) ⟨0, 0, by simp [exTri], by simp [exTri], by simp [exTri]⟩ (by norm_num) (by rw [hd, hda]; norm_num) out h⟩
