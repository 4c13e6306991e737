import Verif.Model.RoundedMesh
import Verif.Spec.Clear
import Verif.Props.RoundTri

/-! # C196: rays and meshes with rounding errors -/

open Classical

open Rounded in
theorem Rounded.PlaneParam.near {u : ℝ} (hu : 0 ≤ u) (hu1 : u ≤ 1 / 100000) {o d : V3 ℝ} (hd : d ≠ ⟨0, 0, 0⟩) {T : Ray.Tri ℝ} (hn : ¬ Geo.Degenerate T) {k t : ℝ} {Q : V3 ℝ}
    (hk : (T.b - T.a).norm * (T.c - T.a).norm * d.norm ≤ k * |(Geo.normal T).dot d|) (huk : 1000 * u * k ≤ 1) (hQ : Q = Geo.at' o d t) (hT : Geo.OnPlane T Q)
    {r : Option ℝ} (h : PlaneParam u o d T r) (q : ℝ) (hr : r = some q) : |q - t| * d.norm ≤ 10 * (u * k * (o.dist T.a + |t| * d.norm)) := by
  obtain ⟨U, V, n, w, b, a, hU, hV, hc, hb, hw, ha, ho⟩ := h
  have hδ := V3.norm_pos hd
  obtain ⟨X, hX⟩ : ∃ X, X = T.b - T.a := ⟨_, rfl⟩
  obtain ⟨Y, hY⟩ : ∃ Y, Y = T.c - T.a := ⟨_, rfl⟩
  obtain ⟨W, hW⟩ : ∃ W, W = T.a - o := ⟨_, rfl⟩
  have hN : Geo.normal T = X.cross Y := by rw [hX, hY]; rfl
  have hon := (Ray.onPlane_iff hn o d t).1 (hQ ▸ hT)
  rw [hN, ← hW] at hon
  rw [← hX, ← hY, hN] at hk
  have hN0 : 0 < (X.cross Y).norm := V3.norm_pos (by rw [← hN]; exact hn)
  have hNS := nrm_cross X Y
  have hS0 : 0 < X.norm * Y.norm := lt_of_lt_of_le hN0 hNS
  have hB : (X.cross Y).dot d ≠ 0 := by
    intro e
    rw [e, abs_zero, mul_zero] at hk
    have := mul_pos hS0 hδ
    linarith
  have hBS : |(X.cross Y).dot d| ≤ X.norm * Y.norm * d.norm :=
    (Ray.abs_dot_le _ _).trans (mul_le_mul_of_nonneg_right hNS hδ.le)
  have hk1 : 1 ≤ k := by
    have h1 : 1 * |(X.cross Y).dot d| ≤ k * |(X.cross Y).dot d| := by linarith
    exact le_of_mul_le_mul_right h1 (abs_pos.2 hB)
  have hUX : (U - X).norm ≤ u * X.norm := sub_norm_near hu (by rw [hX]; exact hU.1) (by rw [hX]; exact hU.2.1) (by rw [hX]; exact hU.2.2)
  have hVY : (V - Y).norm ≤ u * Y.norm := sub_norm_near hu (by rw [hY]; exact hV.1) (by rw [hY]; exact hV.2.1) (by rw [hY]; exact hV.2.2)
  have hnn := normal_near hu hu1 hUX hVY hc
  obtain ⟨S, hS⟩ : ∃ S, S = X.norm * Y.norm := ⟨_, rfl⟩
  rw [← hS] at hnn hNS hS0 hk
  have hnorm : n.norm ≤ S + 501 / 100 * u * S := by
    have := (abs_le.1 ((norm_diff n (X.cross Y)).trans hnn)).2
    linarith
  have hω := V3.norm_nonneg W
  have near : ∀ {z c y : ℝ} {v : V3 ℝ}, 0 ≤ y → v.norm = y → |z - n.dot v| ≤ c * u * (n.norm * y) → 0 ≤ c → c ≤ 5 → |z - (X.cross Y).dot v| ≤ (c + 502 / 100) * u * (S * y) := by
    intro z c y v hy hv hz hc0 hc
    have t1 := Ray.abs_dot_le (n - X.cross Y) v
    rw [show (n - X.cross Y).dot v = n.dot v - (X.cross Y).dot v by simp only [V3.dot, V3.sub_x, V3.sub_y, V3.sub_z]; ring, hv] at t1
    have t2 := mul_le_mul_of_nonneg_right hnn hy
    have t3 := mul_le_mul_of_nonneg_left (mul_le_mul_of_nonneg_right hnorm hy) (by positivity : 0 ≤ c * u)
    have t4 := abs_sub_le z (n.dot v) ((X.cross Y).dot v)
    have t5 : u * (u * (S * y)) ≤ 1 / 100000 * (u * (S * y)) := mul_le_mul_of_nonneg_right hu1 (by positivity)
    have t6 : 0 ≤ u * (u * (S * y)) := by positivity
    have t7 := mul_le_mul_of_nonneg_right hc t6
    have t8 : 0 ≤ u * (S * y) := by positivity
    linarith
  have hb' := near hδ.le rfl (hb.norm_near hu hu1) (by norm_num) (by norm_num)
  have ha' := near hω rfl (ha.diff_near (q := W) hu hu1 (by rw [hW]; exact hw.1) (by rw [hW]; exact hw.2.1) (by rw [hW]; exact hw.2.2)) (by norm_num) (by norm_num)
  have hdist : W.norm = o.dist T.a := by rw [hW]; exact dist_sub _ _
  have huS : 0 ≤ u * (S * W.norm) := by positivity
  have huS' : 0 ≤ u * (S * d.norm) := by positivity
  have key := fun q => plane_param (q := q) hu hu1 hS0.le hω hδ hk1 hk huk hB hon.symm (ha'.trans (by linarith)) (hb'.trans (by linarith))
  have hb0 := (key 0).1
  rw [if_neg (fun h => hb0 h.1)] at ho
  obtain ⟨q', hq, hq'⟩ := ho
  rw [if_neg hb0] at hq
  split at hq'
  · rw [hq'] at hr; simp at hr
  · rw [hq', Option.some_inj] at hr
    rw [← hdist, ← hr]
    exact (key q').2 hq

open Rounded in
theorem Rounded.PlaneParam.none_hit {u : ℝ} {o d : V3 ℝ} {T : Ray.Tri ℝ} (h : PlaneParam u o d T none) : PlaneHit u o d T none := by
  obtain ⟨U, V, n, w, b, a, h1, h2, h3, h4, h5, h6, ho⟩ := h
  refine ⟨U, V, n, w, b, a, h1, h2, h3, h4, h5, h6, ?_⟩
  split at ho
  · rw [if_pos (by assumption)]
  · rw [if_neg (by assumption)]
    obtain ⟨q, hq, hq'⟩ := ho
    refine ⟨q, hq, ?_⟩
    split at hq'
    · rw [if_pos (by assumption)]
    · simp at hq'

open Rounded in
theorem Rounded.PlaneParam.some_hit {u q : ℝ} {o d P : V3 ℝ} {T : Ray.Tri ℝ} (h : PlaneParam u o d T (some q)) (hP : Along u o d q P) : PlaneHit u o d T (some P) := by
  obtain ⟨U, V, n, w, b, a, h1, h2, h3, h4, h5, h6, ho⟩ := h
  refine ⟨U, V, n, w, b, a, h1, h2, h3, h4, h5, h6, ?_⟩
  split at ho
  · simp at ho
  · rw [if_neg (by assumption)]
    obtain ⟨q', hq, hq'⟩ := ho
    refine ⟨q', hq, ?_⟩
    split at hq'
    · simp at hq'
    · rw [if_neg (by assumption)]
      rw [Option.some_inj] at hq'
      exact ⟨P, rfl, hq' ▸ hP⟩

open Rounded in
/-- The entry of a triangle is nan if and only if the triangle alone is not hit. -/
theorem Rounded.TriParam.hit {u : ℝ} {o d : V3 ℝ} {T : Ray.Tri ℝ} {r : Option ℝ} (h : TriParam u o d T r) :
    ∃ out, TriHit u o d T out ∧ (out = none ↔ r = none) ∧ ∀ q, r = some q → PlaneParam u o d T (some q) := by
  obtain ⟨r0, h1, h2, h3⟩ := h
  rcases r0 with _ | q
  · refine ⟨none, ⟨none, h1.none_hit, fun _ => rfl, fun P hP => by simp at hP⟩, ⟨fun _ => h2 rfl, fun _ => rfl⟩, fun q hq => ?_⟩
    rw [h2 rfl] at hq
    simp at hq
  · obtain ⟨P, out, hP, hin, g1, g2⟩ := h3 q rfl
    refine ⟨out, ⟨some P, h1.some_hit hP, fun h => by simp at h, fun P' h => ?_⟩, ⟨g1, fun hr => ?_⟩, fun q' hq' => ?_⟩
    · rw [Option.some_inj] at h
      rw [← h]; exact hin
    · by_contra hne
      rw [g2 hne] at hr
      simp at hr
    · by_cases hne : out = none
      · rw [g1 hne] at hq'; simp at hq'
      · rw [g2 hne] at hq'
        rw [← hq']
        exact h1

open Rounded in
theorem Rounded.TriParam.clear {u : ℝ} (hu : 0 ≤ u) (hu1 : u ≤ 1 / 100000) {o d : V3 ℝ} (hd : d ≠ ⟨0, 0, 0⟩) {T : Ray.Tri ℝ} {ε t : ℝ} (hc : Geo.ClearHit u o d T ε t)
    {r : Option ℝ} (h : TriParam u o d T r) : ∃ q, r = some q ∧ |q - t| * d.norm ≤ ε := by
  obtain ⟨hn, ht, k, σ, s, r', e, Q, ⟨hk, huk, hQ, hm⟩, ⟨hσ, hσ2, hsr, hb, hcc⟩, hs, hr, hsum, hε⟩ := hc
  obtain ⟨out, hout, hiff, hq⟩ := h.hit
  obtain ⟨P, hP, -⟩ := C195_inside u hu hu1 o d hd T hn k σ hk huk hσ hσ2 t s r' Q hQ hsr ht hm.le e hb hcc hs hr hsum out hout
  rcases r with _ | q
  · rw [hiff.2 rfl] at hP
    simp at hP
  · refine ⟨q, rfl, ?_⟩
    have hon : Geo.OnPlane T Q := by
      refine ⟨s, r', ?_, ?_, ?_⟩
      · have := congrArg V3.x hsr; simp at this; linarith
      · have := congrArg V3.y hsr; simp at this; linarith
      · have := congrArg V3.z hsr; simp at this; linarith
    have := PlaneParam.near hu hu1 hd hn hk huk hQ hon (hq q rfl) q rfl
    have hdQ : o.dist Q = |t| * d.norm := by
      rw [← dist_sub, hQ, ← nrm_mulS]
      congr 1
      ext <;> simp [Geo.at'] <;> ring
    rw [hdQ] at hε
    linarith

open Rounded in
theorem Rounded.TriParam.miss {u : ℝ} (hu : 0 ≤ u) (hu1 : u ≤ 1 / 100000) {o d : V3 ℝ} (hd : d ≠ ⟨0, 0, 0⟩) {T : Ray.Tri ℝ} (hc : Geo.ClearMiss u o d T)
    {r : Option ℝ} (h : TriParam u o d T r) : r = none := by
  obtain ⟨hn, k, t, Q, ⟨hk, huk, hQ, hm⟩, hcase⟩ := hc
  obtain ⟨out, hout, hiff, -⟩ := h.hit
  rw [← hiff]
  rcases hcase with ⟨ht, hon⟩ | ⟨ht, σ, s, r', e, ⟨hσ, hσ2, hsr, hb, hcc⟩, ho⟩
  · exact C195_behind u hu hu1 o d hd T hn k hk huk t Q hQ hon ht hm out hout
  · exact C195_outside u hu hu1 o d hd T hn k σ hk huk hσ hσ2 t s r' Q hQ hsr ht hm.le e hb hcc ho out hout

open Rounded in
/-- **C196** If the ray hits or misses every triangle of the mesh by more than the rounding errors, and hits at least one, the result is the nearest hit up to the largest of the
rounding errors. -/
theorem C196_nearest (u : ℝ) (hu : 0 ≤ u) (hu1 : u ≤ 1 / 100000) (o d : V3 ℝ) (hd : d ≠ ⟨0, 0, 0⟩) (mesh : List (Ray.Tri ℝ)) (ε : ℝ)
    (hall : ∀ T ∈ mesh, Geo.ClearMiss u o d T ∨ ∃ t, Geo.ClearHit u o d T ε t) (T0 : Ray.Tri ℝ) (h0 : T0 ∈ mesh) (t0 : ℝ) (hc0 : Geo.ClearHit u o d T0 ε t0)
    (hmin : ∀ T ∈ mesh, ∀ t, Geo.ClearHit u o d T ε t → t0 ≤ t) (out : Option (V3 ℝ)) (h : MeshHit u o d mesh out) :
    ∃ P, out = some P ∧ ∀ j, |P.get j - (Geo.at' o d t0).get j| ≤ 1001 / 1000 * ε + 21 / 10 * u * o.dist (Geo.at' o d t0) + u * |o.get j| := by
  obtain ⟨rs, hf, hcase⟩ := h
  have hδ := V3.norm_pos hd
  have find : ∀ T ∈ mesh, ∃ r ∈ rs, TriParam u o d T r := by
    intro T hT
    obtain ⟨i, hi, rfl⟩ := List.getElem_of_mem hT
    have hl := hf.length_eq
    exact ⟨rs[i]'(hl ▸ hi), List.getElem_mem _, List.Forall₂.get hf hi (hl ▸ hi)⟩
  have find' : ∀ r ∈ rs, ∃ T ∈ mesh, TriParam u o d T r := by
    intro r hr
    obtain ⟨i, hi, rfl⟩ := List.getElem_of_mem hr
    have hl := hf.length_eq
    exact ⟨mesh[i]'(hl ▸ hi), List.getElem_mem _, List.Forall₂.get hf (hl ▸ hi) hi⟩
  obtain ⟨r, hr, hr'⟩ := find T0 h0
  obtain ⟨q0, rfl, hq0⟩ := hr'.clear hu hu1 hd hc0
  rcases hcase with ⟨hnone, -⟩ | ⟨q, hq, hle, P, hP, hal⟩
  · have := hnone _ hr
    simp at this
  · refine ⟨P, hP, ?_⟩
    have h1 : q ≤ q0 := hle q0 hr
    obtain ⟨T, hT, hT'⟩ := find' _ hq
    have h2 : |q - t0| * d.norm ≤ ε := by
      rcases hall T hT with hmiss | ⟨t, hhit⟩
      · have := hT'.miss hu hu1 hd hmiss
        simp at this
      · obtain ⟨q', e, hq'⟩ := hT'.clear hu hu1 hd hhit
        rw [Option.some_inj] at e
        subst e
        have h3 := hmin T hT t hhit
        rcases abs_cases (q - t0) with ⟨e, -⟩ | ⟨e, -⟩
        · rw [e]
          have s1 := mul_le_mul_of_nonneg_right (h1.trans (by linarith [le_abs_self (q0 - t0)] : q0 ≤ t0 + |q0 - t0|)) hδ.le
          linarith
        · rw [e]
          have s1 := mul_le_mul_of_nonneg_right (by linarith [neg_abs_le (q - t)] : -(q - t0) ≤ |q - t|) hδ.le
          linarith
    have hε : 0 ≤ ε := le_trans (by positivity) h2
    have hL : o.dist (Geo.at' o d t0) = |t0| * d.norm := by
      rw [← dist_sub, ← nrm_mulS]
      congr 1
      ext <;> simp [Geo.at'] <;> ring
    obtain ⟨L, hL'⟩ : ∃ L, L = |t0| * d.norm := ⟨_, rfl⟩
    have hL0 : 0 ≤ L := by rw [hL']; positivity
    rw [hL, ← hL']
    have key : ∀ {ox dx a p : ℝ}, |dx| ≤ d.norm → Rd u (q * dx) a → Rd u (ox + a) p → |p - (ox + t0 * dx)| ≤ 1001 / 1000 * ε + 21 / 10 * u * L + u * |ox| := by
      intro ox dx a p hdx ha hp
      have k1 : |q * dx - t0 * dx| ≤ ε := by
        rw [← sub_mul, abs_mul]
        exact (mul_le_mul_of_nonneg_left hdx (abs_nonneg _)).trans h2
      have k2 : |t0 * dx| ≤ L := by
        rw [abs_mul, hL']
        exact mul_le_mul_of_nonneg_left hdx (abs_nonneg _)
      have b1 : u * ε ≤ 1 / 100000 * ε := mul_le_mul_of_nonneg_right hu1 hε
      have b2 : u * (u * L) ≤ 1 / 100000 * (u * L) := mul_le_mul_of_nonneg_right hu1 (by positivity)
      have b3 : 0 ≤ u * L := by positivity
      have b4 : u * (u * ε) ≤ 1 / 100000 * (u * ε) := mul_le_mul_of_nonneg_right hu1 (by positivity)
      have k3 : |a - t0 * dx| ≤ ε + u * (L + ε) := (rd_close hu ha k1 (abs_close k1 k2)).trans (by linarith)
      have k4 : |ox + a - (ox + t0 * dx)| ≤ ε + u * (L + ε) := by rwa [add_sub_add_left_eq_sub]
      have k5 : |ox + t0 * dx| ≤ |ox| + L := (abs_add_le _ _).trans (by linarith)
      refine (rd_close hu hp k4 (abs_close k4 k5)).trans ?_
      linarith
    obtain ⟨a, b, c, a1, a2, a3, p1, p2, p3⟩ := hal
    intro j
    fin_cases j
    · exact key (nrm_coord d 0) a1 p1
    · exact key (nrm_coord d 1) a2 p2
    · exact key (nrm_coord d 2) a3 p3

open Rounded in
/-- **C196** If the ray misses every triangle of the mesh by more than the rounding errors, there is no hit. -/
theorem C196_miss (u : ℝ) (hu : 0 ≤ u) (hu1 : u ≤ 1 / 100000) (o d : V3 ℝ) (hd : d ≠ ⟨0, 0, 0⟩) (mesh : List (Ray.Tri ℝ)) (hall : ∀ T ∈ mesh, Geo.ClearMiss u o d T)
    (out : Option (V3 ℝ)) (h : MeshHit u o d mesh out) : out = none := by
  obtain ⟨rs, hf, ⟨-, h1⟩ | ⟨q, hq, -⟩⟩ := h
  · exact h1
  · obtain ⟨i, hi, e⟩ := List.getElem_of_mem hq
    have hl := hf.length_eq
    have := (List.Forall₂.get hf (hl ▸ hi) hi).miss hu hu1 hd (hall _ (List.getElem_mem _))
    simp only [List.get_eq_getElem] at this
    rw [e] at this
    simp at this

open Rounded in
theorem Rounded.TriParam.exists {u : ℝ} (hu : 0 ≤ u) (o d : V3 ℝ) (T : Ray.Tri ℝ) : ∃ r, TriParam u o d T r := by
  obtain ⟨pl, U, V, n, w, b, a, h1, h2, h3, h4, h5, h6, ho⟩ := PlaneHit.exists hu o d T
  have hp : ∃ r0, PlaneParam u o d T r0 := by
    by_cases hb : b = 0 ∧ a ≠ 0
    · exact ⟨none, U, V, n, w, b, a, h1, h2, h3, h4, h5, h6, by rw [if_pos hb]⟩
    · rw [if_neg hb] at ho
      obtain ⟨q, hq, -⟩ := ho
      by_cases hq0 : q < 0
      · exact ⟨none, U, V, n, w, b, a, h1, h2, h3, h4, h5, h6, by rw [if_neg hb]; exact ⟨q, hq, by rw [if_pos hq0]⟩⟩
      · exact ⟨some q, U, V, n, w, b, a, h1, h2, h3, h4, h5, h6, by rw [if_neg hb]; exact ⟨q, hq, by rw [if_neg hq0]⟩⟩
  obtain ⟨r0, hr0⟩ := hp
  rcases r0 with _ | q
  · exact ⟨none, none, hr0, fun _ => rfl, fun q h => by simp at h⟩
  · obtain ⟨P, hP⟩ : ∃ P, Along u o d q P := ⟨⟨_, _, _⟩, _, _, _, Rd.exact hu _, Rd.exact hu _, Rd.exact hu _, Rd.exact hu _, Rd.exact hu _, Rd.exact hu _⟩
    obtain ⟨out, hout⟩ := InTest.exists hu T P
    by_cases ho : out = none
    · exact ⟨none, some q, hr0, fun h => by simp at h, fun q' h => ⟨P, out, by rw [Option.some_inj] at h; rw [← h]; exact hP, hout, fun _ => rfl, fun h => absurd ho h⟩⟩
    · exact ⟨some q, some q, hr0, fun h => by simp at h, fun q' h => ⟨P, out, by rw [Option.some_inj] at h; rw [← h]; exact hP, hout, fun h => absurd h ho, fun _ => h⟩⟩

open Rounded in
theorem Rounded.MeshHit.exists {u : ℝ} (hu : 0 ≤ u) (o d : V3 ℝ) (mesh : List (Ray.Tri ℝ)) : ∃ out, MeshHit u o d mesh out := by
  choose f hf using TriParam.exists hu o d
  have hfor : List.Forall₂ (TriParam u o d) mesh (mesh.map f) := by
    induction mesh with
    | nil => exact .nil
    | cons T l ih => exact .cons (hf T) ih
  by_cases hall : ∀ r ∈ mesh.map f, r = none
  · exact ⟨none, _, hfor, Or.inl ⟨hall, rfl⟩⟩
  · push Not at hall
    obtain ⟨r, hr, hne⟩ := hall
    obtain ⟨q1, rfl⟩ := Option.ne_none_iff_exists'.1 hne
    have hq1 : q1 ∈ ((mesh.map f).filterMap id).toFinset := by simpa using hr
    obtain ⟨q, hq, hmin⟩ := Finset.exists_min_image ((mesh.map f).filterMap id).toFinset id ⟨q1, hq1⟩
    refine ⟨some ⟨_, _, _⟩, _, hfor, Or.inr ⟨q, by simpa using hq, fun q' hq' => hmin q' (by simpa using hq'), _, rfl, _, _, _, Rd.exact hu _, Rd.exact hu _,
      Rd.exact hu _, Rd.exact hu _, Rd.exact hu _, Rd.exact hu _⟩⟩

namespace Rounded

theorem exMeets (x : ℝ) (hx : 0 ≤ x) (hx3 : x ≤ 3) : Geo.Meets (1 / 2 ^ 53) ⟨x, x, 5⟩ ⟨0, 0, -1⟩ exTri 1 5 ⟨x, x, 0⟩ ∧
    Geo.Coords (1 / 2 ^ 53) ⟨x, x, 5⟩ exTri 1 1 x x (1 / 10) ⟨x, x, 0⟩ ∧ V3.dist ⟨x, x, 5⟩ exTri.a ≤ 11 := by
  obtain ⟨e1, e2, e3⟩ := exTri_norm
  have hD := exDist x x
  have h1 : V3.norm (⟨x, x, 5⟩ : V3 ℝ) ≤ 11 := by
    refine (norm_sum _).trans ?_
    show |x| + |x| + |(5 : ℝ)| ≤ 11
    rw [abs_of_nonneg hx, abs_of_pos (by norm_num : (0 : ℝ) < 5)]
    linarith
  have h2 : V3.dist ⟨x, x, 5⟩ exTri.a ≤ 11 := by
    rw [← dist_sub]
    refine le_trans (le_of_eq ?_) h1
    unfold V3.norm
    congr 1
    simp [V3.normSq, exTri]
  refine ⟨⟨?_, by norm_num, by ext <;> simp [Geo.at'], by rw [hD]; norm_num; linarith⟩, ⟨?_, by norm_num, by ext <;> simp [exTri], ?_, ?_⟩, h2⟩
  · rw [e1, e2, e3]; simp [V3.norm, V3.normSq, V3.dot]
  · rw [e1, e2, e3]; simp [V3.norm, V3.normSq]
  · rw [hD, e1]; norm_num; linarith
  · rw [hD, e2]; norm_num; linarith

theorem exNotFlat : ¬ Geo.Degenerate exTri := by
  intro h
  rw [Geo.Degenerate, exTri_norm.2.2] at h
  simpa using congrArg V3.z h

end Rounded

open Rounded in
example : ∃ out, MeshHit (1 / 2 ^ 53) ⟨1 / 4, 1 / 4, 5⟩ ⟨0, 0, -1⟩ [exTri] out ∧ ∃ P, out = some P := by
  obtain ⟨out, h⟩ := MeshHit.exists (u := 1 / 2 ^ 53) (by norm_num) ⟨1 / 4, 1 / 4, 5⟩ ⟨0, 0, -1⟩ [exTri]
  obtain ⟨h1, h2, h3⟩ := exMeets (1 / 4) (by norm_num) (by norm_num)
  have hD := exDist (1 / 4) (1 / 4)
  have hc : Geo.ClearHit (1 / 2 ^ 53) ⟨1 / 4, 1 / 4, 5⟩ ⟨0, 0, -1⟩ exTri 1 5 :=
    ⟨exNotFlat, by norm_num, 1, 1, 1 / 4, 1 / 4, 1 / 10, ⟨1 / 4, 1 / 4, 0⟩, h1, h2, by norm_num, by norm_num, by norm_num, by rw [hD]; norm_num at h3 ⊢; linarith⟩
  have hmem : ∀ T ∈ [exTri], T = exTri := by simp
  obtain ⟨P, hP, -⟩ := C196_nearest (1 / 2 ^ 53) (by norm_num) (by norm_num) _ _ (by intro h; simpa using congrArg V3.z h) [exTri] 1
    (fun T hT => Or.inr ⟨5, by rw [hmem T hT]; exact hc⟩) exTri (by simp) 5 hc (fun T hT t ht => by
      rw [hmem T hT] at ht
      obtain ⟨-, -, k, σ, s, r, e, Q, ⟨-, -, hQ, -⟩, ⟨-, -, hsr, -⟩, -⟩ := ht
      have := congrArg V3.z hsr
      rw [hQ] at this
      simp [exTri, Geo.at'] at this
      linarith) out h
  exact ⟨out, h, P, hP⟩

open Rounded in
example : ∃ out, MeshHit (1 / 2 ^ 53) ⟨3, 3, 5⟩ ⟨0, 0, -1⟩ [exTri] out ∧ out = none := by
  obtain ⟨out, h⟩ := MeshHit.exists (u := 1 / 2 ^ 53) (by norm_num) ⟨3, 3, 5⟩ ⟨0, 0, -1⟩ [exTri]
  obtain ⟨h1, h2, h3⟩ := exMeets 3 (by norm_num) (by norm_num)
  have hmem : ∀ T ∈ [exTri], T = exTri := by simp
  exact ⟨out, h, C196_miss (1 / 2 ^ 53) (by norm_num) (by norm_num) _ _ (by intro h; simpa using congrArg V3.z h) [exTri]
    (fun T hT => by
      rw [hmem T hT]
      exact ⟨exNotFlat, 1, 5, ⟨3, 3, 0⟩, h1, Or.inr ⟨by norm_num, 1, 3, 3, 1 / 10, h2, Or.inr (Or.inr (by norm_num))⟩⟩) out h⟩
