import Verif.Spec.Epipolar
import Verif.Props.Stereo

/-! # Epipolar lines of arbitrary pixels (C125) -/

open Classical Camera Stereo Num

/-! ### the closest point of a line in the plane -/

theorem Stereo.closest_foot {o v p : V2 Num} {O V Q : V2 ℝ} (ho : o.Is O) (hv : v.Is V) (hV : V ≠ ⟨0, 0⟩) (hp : p.Is Q) :
    ∃ F : V2 ℝ, (closestOnLine o v p).Is F ∧ Geo.IsFoot O V Q F ∧
      Num.Is (norm2 (sub2 (closestOnLine o v p) p)) (Geo.dist2 F Q) := by
  have hpos : 0 < V.x * V.x + V.y * V.y := by
    rcases eq_or_lt_of_le (add_nonneg (mul_self_nonneg V.x) (mul_self_nonneg V.y)) with h | h
    · exfalso; apply hV; ext <;> simp only <;> nlinarith [mul_self_nonneg V.x, mul_self_nonneg V.y]
    · exact h
  have hn : Num.Is (norm2 v) (Real.sqrt (V.x * V.x + V.y * V.y)) := ((hv.1.mul hv.1).add (hv.2.mul hv.2)).sqrt hpos.le
  have hs : 0 < Real.sqrt (V.x * V.x + V.y * V.y) := Real.sqrt_pos.2 hpos
  have hsq := Real.mul_self_sqrt hpos.le
  set r := Real.sqrt (V.x * V.x + V.y * V.y)
  have hx := hv.1.div hn hs.ne'
  have hy := hv.2.div hn hs.ne'
  have hf := (hx.mul (hp.1.sub ho.1)).add (hy.mul (hp.2.sub ho.2))
  set m := (V.x * (Q.x - O.x) + V.y * (Q.y - O.y)) / (V.x * V.x + V.y * V.y) with hm
  have em : m * (V.x * V.x + V.y * V.y) = V.x * (Q.x - O.x) + V.y * (Q.y - O.y) := div_mul_cancel₀ _ hpos.ne'
  have e : V.x / r * (Q.x - O.x) + V.y / r * (Q.y - O.y) = m * r := by
    have : m * r * r = V.x * (Q.x - O.x) + V.y * (Q.y - O.y) := by rw [mul_assoc, hsq, em]
    field_simp
    linarith
  have hf' := hf.congr e
  have hF : (closestOnLine o v p).Is (Geo.at2 O V m) := by
    refine ⟨(ho.1.add (hf'.mul hx)).congr ?_, (ho.2.add (hf'.mul hy)).congr ?_⟩ <;> simp only [Geo.at2] <;> field_simp
  refine ⟨_, hF, ⟨⟨m, rfl⟩, fun l => ?_⟩, ?_⟩
  · unfold Geo.dist2 Geo.at2
    apply Real.sqrt_le_sqrt
    simp only
    have : (O.x + l * V.x - Q.x) ^ 2 + (O.y + l * V.y - Q.y) ^ 2 =
        (O.x + m * V.x - Q.x) ^ 2 + (O.y + m * V.y - Q.y) ^ 2 + (l - m) ^ 2 * (V.x * V.x + V.y * V.y) := by
      linear_combination (2 * (l - m)) * em
    rw [this]
    have := mul_nonneg (sq_nonneg (l - m)) hpos.le
    linarith
  · refine ((((hF.1.sub hp.1).mul (hF.1.sub hp.1)).add ((hF.2.sub hp.2).mul (hF.2.sub hp.2))).sqrt ?_).congr ?_
    · exact add_nonneg (mul_self_nonneg _) (mul_self_nonneg _)
    · unfold Geo.dist2; congr 1; ring

/-- The foot gives the distance. -/
theorem Geo.IsFoot.dist {A V q F : V2 ℝ} (h : Geo.IsFoot A V q F) : Geo.IsDistLine2 A V q (Geo.dist2 F q) := by
  obtain ⟨⟨l, e⟩, h⟩ := h
  exact ⟨⟨l, by rw [e]⟩, h⟩

/-- Two points determine a line. -/
theorem Geo.IsFoot.other {A V B W q F : V2 ℝ} (h : Geo.IsFoot B W q F) (hW : W ≠ ⟨0, 0⟩) {l1 l2 : ℝ} (h1 : B = Geo.at2 A V l1)
    (h2 : Geo.at2 B W 1 = Geo.at2 A V l2) : Geo.IsFoot A V q F := by
  have ex := congrArg V2.x h2
  have ey := congrArg V2.y h2
  have bx := congrArg V2.x h1
  have by' := congrArg V2.y h1
  simp only [Geo.at2, one_mul] at ex ey bx by'
  have wx : W.x = (l2 - l1) * V.x := by linear_combination ex - bx
  have wy : W.y = (l2 - l1) * V.y := by linear_combination ey - by'
  have hl : l2 - l1 ≠ 0 := by
    intro h0; apply hW; ext
    · rw [wx, h0, zero_mul]
    · rw [wy, h0, zero_mul]
  obtain ⟨⟨l, e⟩, h⟩ := h
  refine ⟨⟨l1 + l * (l2 - l1), ?_⟩, fun k => ?_⟩
  · rw [e]
    ext <;> simp only [Geo.at2]
    · linear_combination bx + l * wx
    · linear_combination by' + l * wy
  · have : Geo.at2 A V k = Geo.at2 B W ((k - l1) / (l2 - l1)) := by
      have c := div_mul_cancel₀ (k - l1) hl
      ext <;> simp only [Geo.at2]
      · linear_combination (-1) * bx - (k - l1) / (l2 - l1) * wx - V.x * c
      · linear_combination (-1) * by' - (k - l1) / (l2 - l1) * wy - V.y * c
    rw [this]; exact h _

/-! ### the image of a line -/

/-- The pixel of a point given in camera coordinates. -/
noncomputable def Stereo.pix (c : Cam) (Q : V3 ℝ) : V2 ℝ := ⟨-Q.x * c.intr.fx / Q.z + c.intr.cx, Q.y * c.intr.fy / Q.z + c.intr.cy⟩

theorem Stereo.ep_diff' (a b c d f k t1 t2 : ℝ) (h1 : c * t1 + d ≠ 0) (h2 : c * t2 + d ≠ 0) :
    (a * t2 + b) * f / (c * t2 + d) + k - ((a * t1 + b) * f / (c * t1 + d) + k) =
      f * (a * d - b * c) * (t2 - t1) / ((c * t2 + d) * (c * t1 + d)) := by
  rw [eq_div_iff (mul_ne_zero h2 h1)]
  have e2 := div_mul_cancel₀ ((a * t2 + b) * f) h2
  have e1 := div_mul_cancel₀ ((a * t1 + b) * f) h1
  linear_combination (c * t1 + d) * e2 - (c * t2 + d) * e1

theorem Stereo.ep_lam' (a b c d f k t1 t2 u : ℝ) (ht : t1 ≠ t2) (h1 : c * t1 + d ≠ 0) (h2 : c * t2 + d ≠ 0) (hu : c * u + d ≠ 0) :
    (a * u + b) * f / (c * u + d) + k = (a * t1 + b) * f / (c * t1 + d) + k + (u - t1) * (c * t2 + d) / ((c * u + d) * (t2 - t1)) *
      ((a * t2 + b) * f / (c * t2 + d) + k - ((a * t1 + b) * f / (c * t1 + d) + k)) := by
  rw [← sub_eq_iff_eq_add', ep_diff' a b c d f k t1 u h1 hu, ep_diff' a b c d f k t1 t2 h1 h2]
  have h3 : t2 - t1 ≠ 0 := sub_ne_zero.2 ht.symm
  rw [div_mul_div_comm, div_eq_div_iff (mul_ne_zero hu h1) (mul_ne_zero (mul_ne_zero hu h3) (mul_ne_zero h2 h1))]
  ring

/-- What a rectilinear camera without lens shows of a line that misses it. -/
theorem Stereo.line_image (c : Cam) (hc : c.Proper) {D C : V3 ℝ} (hcr : V3.cross D C ≠ ⟨0, 0, 0⟩) {t1 t2 : ℝ} (ht : t1 ≠ t2)
    (h1 : (D.mulS t1 + C).z ≠ 0) (h2 : (D.mulS t2 + C).z ≠ 0) :
    (⟨(pix c (D.mulS t2 + C)).x - (pix c (D.mulS t1 + C)).x, (pix c (D.mulS t2 + C)).y - (pix c (D.mulS t1 + C)).y⟩ : V2 ℝ) ≠ ⟨0, 0⟩ ∧
    ∀ u, (D.mulS u + C).z ≠ 0 → ∃ l, pix c (D.mulS u + C) = Geo.at2 (pix c (D.mulS t1 + C))
      ⟨(pix c (D.mulS t2 + C)).x - (pix c (D.mulS t1 + C)).x, (pix c (D.mulS t2 + C)).y - (pix c (D.mulS t1 + C)).y⟩ l := by
  simp only [V3.add_z, V3.mulS_z] at h1 h2
  have nx : ∀ t, -(D.x * t + C.x) = -D.x * t + -C.x := fun t => by ring
  constructor
  · intro h0
    have hx := congrArg V2.x h0
    have hy := congrArg V2.y h0
    simp only [pix, V3.add_x, V3.add_y, V3.add_z, V3.mulS_x, V3.mulS_y, V3.mulS_z, nx] at hx hy
    rw [ep_diff' _ _ _ _ _ _ _ _ h1 h2] at hx hy
    have hm := mul_ne_zero h2 h1
    have ht' : t2 - t1 ≠ 0 := sub_ne_zero.2 ht.symm
    have b1 := (mul_eq_zero.1 ((mul_eq_zero.1 ((div_eq_zero_iff.1 hx).resolve_right hm)).resolve_right ht')).resolve_left hc.1
    have b2 := (mul_eq_zero.1 ((mul_eq_zero.1 ((div_eq_zero_iff.1 hy).resolve_right hm)).resolve_right ht')).resolve_left hc.2
    apply hcr
    have h3 : (D.x * C.y - D.y * C.x) * (D.z * t1 + C.z) = 0 := by
      linear_combination (-(C.y + D.y * t1)) * b1 - (C.x + D.x * t1) * b2
    have hz := (mul_eq_zero.1 h3).resolve_right h1
    ext <;> simp only [V3.cross]
    · linear_combination b2
    · linear_combination b1
    · exact hz
  · intro u hu
    simp only [V3.add_z, V3.mulS_z] at hu
    refine ⟨(u - t1) * (D.z * t2 + C.z) / ((D.z * u + C.z) * (t2 - t1)), ?_⟩
    ext
    · simp only [pix, Geo.at2, V3.add_x, V3.add_z, V3.mulS_x, V3.mulS_z, nx]
      exact ep_lam' _ _ _ _ _ _ _ _ _ ht h1 h2 hu
    · simp only [pix, Geo.at2, V3.add_y, V3.add_z, V3.mulS_y, V3.mulS_z]
      exact ep_lam' _ _ _ _ _ _ _ _ _ ht h1 h2 hu

/-- The points a rectilinear camera without lens shows at a pixel are those of the viewing line. -/
theorem Stereo.shown_at (c : Cam) (hc : c.Proper) (hk : c.kind = .rectilinear) (hl : c.lens = noDistortion) {q : V2 ℝ} {P : V3 ℝ}
    (hP : Deep c P) (h : (imageFromSpace c P.num false).Is q) : ∃ u, P = (dirR c q).mulS u + c.orient.pos := by
  have hd := deep_depth c hP
  have hi := (image_rect c hk hl (V3.is_num P) hd false (by simp)).unique h
  have hz : (camR c P).z ≠ 0 := by
    intro h0; rw [h0] at hd; simp [Projection.minDepth] at hd; norm_num at hd
  have hx := congrArg V2.x hi
  have hy := congrArg V2.y hi
  simp only at hx hy
  refine ⟨-(camR c P).z, space_on_ray c P ?_⟩
  rw [hk]
  have fx := hc.1
  have fy := hc.2
  ext <;> simp only [Projection.rayR, V3.mulS_x, V3.mulS_y, V3.mulS_z]
  · rw [← hx]; field_simp; ring
  · rw [← hy]; field_simp; ring
  · ring

/-- The line through two points computed from the ray of a pixel is the epipolar line, and the only one. -/
theorem Stereo.epi_line (ci cj : Cam) (hi : ci.Proper) (hj : cj.Proper) (ki : ci.kind = .rectilinear) (kj : cj.kind = .rectilinear)
    (li : ci.lens = noDistortion) (lj : cj.lens = noDistortion) (q : V2 ℝ) {normed : Bool} {d : V3 ℝ}
    (hd : (getRay ci q.num normed).2.Is d) (hcr : V3.cross d (ci.orient.pos - cj.orient.pos) ≠ ⟨0, 0, 0⟩) {t1 t2 : ℝ} (ht : t1 ≠ t2)
    (d1 : Deep cj (ci.orient.pos + d.mulS t1)) (d2 : Deep cj (ci.orient.pos + d.mulS t2)) (hide : Bool)
    (hh : hide = true → InFront cj (ci.orient.pos + d.mulS t1) ∧ InFront cj (ci.orient.pos + d.mulS t2)) :
    ∃ A V : V2 ℝ, (imageFromSpace cj ((getRay ci q.num normed).1 + (getRay ci q.num normed).2.mulS (fin t1)) hide).Is A ∧
      (imageFromSpace cj ((getRay ci q.num normed).1 + (getRay ci q.num normed).2.mulS (fin t2)) hide).Is (Geo.at2 A V 1) ∧
      IsEpipolarLine ci cj q A V ∧
      (∀ t, Deep cj (ci.orient.pos + d.mulS t) → ∃ l, (imageFromSpace cj
        ((getRay ci q.num normed).1 + (getRay ci q.num normed).2.mulS (fin t)) false).Is (Geo.at2 A V l)) ∧
      (Deep ci (ci.orient.pos + d.mulS t1) → Deep ci (ci.orient.pos + d.mulS t2) → ∀ A' V', IsEpipolarLine ci cj q A' V' →
        ∃ l1 l2, A = Geo.at2 A' V' l1 ∧ Geo.at2 A V 1 = Geo.at2 A' V' l2) := by
  obtain ⟨s, hs, -, -, hr⟩ := getRay_dir ci hi.1 hi.2 (n := q.num) (p := q) (by rw [li]; exact V2.is_num q) normed
  have ed : d = (dirR ci q).mulS s := hd.unique hr
  have ho := getRay_offset ci q.num normed
  set C := camR cj ci.orient.pos with hC
  set D := cj.orient.mat.R.applyR d with hD
  have aff : ∀ t, camR cj (ci.orient.pos + d.mulS t) = D.mulS t + C := by
    intro t
    simp only [hC, hD, camR]
    rw [← M3.applyR_mulS, ← M3.applyR_add]
    congr 1
    ext <;> simp <;> ring
  have hcr' : V3.cross D C ≠ ⟨0, 0, 0⟩ := by
    intro h0
    have hn := M3.normSq_cross_applyR (rigid_mat cj.orient).TR d (ci.orient.pos - cj.orient.pos)
    rw [show cj.orient.mat.R.applyR (ci.orient.pos - cj.orient.pos) = C from rfl, show cj.orient.mat.R.applyR d = D from rfl, h0] at hn
    exact hcr (V3.eq_zero_of_normSq (hn.symm.trans (by simp [V3.normSq])))
  have nz : ∀ P, Deep cj P → (camR cj P).z ≠ 0 := by
    intro P hP h0
    have := deep_depth cj hP
    rw [h0] at this; simp [Projection.minDepth] at this; norm_num at this
  have img : ∀ t, Deep cj (ci.orient.pos + d.mulS t) → ∀ hide' : Bool, (hide' = true → InFront cj (ci.orient.pos + d.mulS t)) →
      (imageFromSpace cj ((getRay ci q.num normed).1 + (getRay ci q.num normed).2.mulS (fin t)) hide').Is (pix cj (D.mulS t + C)) := by
    intro t h hide' hf
    have := image_rect cj kj lj (ho.add (hd.mulS (is_fin t))) (deep_depth cj h) hide' (fun e => by
      obtain ⟨Q, hQ, hz⟩ := hf e
      rw [camR_of_is cj hQ] at hz
      have : (0 : ℝ) < Projection.minDepth := by norm_num [Projection.minDepth]
      linarith)
    rw [aff] at this
    exact this
  have z1 := nz _ d1
  have z2 := nz _ d2
  rw [aff] at z1 z2
  obtain ⟨g1, g2⟩ := line_image cj hj hcr' ht z1 z2
  have at1 : ∀ P R : V2 ℝ, Geo.at2 P ⟨R.x - P.x, R.y - P.y⟩ 1 = R := by
    intro P R; ext <;> simp [Geo.at2]
  refine ⟨pix cj (D.mulS t1 + C), ⟨_, _⟩, img t1 d1 hide (fun h => (hh h).1), ?_, ⟨g1, ?_⟩, ?_, ?_⟩
  · rw [at1]; exact img t2 d2 hide (fun h => (hh h).2)
  · intro P hP1 hP2 hP
    obtain ⟨u, e⟩ := shown_at ci hi ki li hP1 hP
    have e' : P = ci.orient.pos + d.mulS (u / s) := by
      rw [e, ed]
      ext <;> simp <;> field_simp <;> ring
    have hz := nz _ hP2
    have him := image_rect cj kj lj (V3.is_num P) (deep_depth cj hP2) false (by simp)
    have hc : camR cj P = D.mulS (u / s) + C := by rw [← aff, ← e']
    rw [hc] at hz him
    obtain ⟨l, hl⟩ := g2 _ hz
    exact ⟨l, hl ▸ him⟩
  · intro t h
    have hz := nz _ h
    rw [aff] at hz
    obtain ⟨l, hl⟩ := g2 _ hz
    exact ⟨l, hl ▸ img t h false (by simp)⟩
  · intro e1 e2 A' V' hE
    have own : ∀ t, Deep ci (ci.orient.pos + d.mulS t) → (imageFromSpace ci (ci.orient.pos + d.mulS t).num false).Is q := by
      intro t h
      have := image_rect ci ki li (V3.is_num (ci.orient.pos + d.mulS t)) (deep_depth ci h) false (by simp)
      have hz := deep_depth ci h
      have e : camR ci (ci.orient.pos + d.mulS t) = (Projection.rayR ci.kind ci.intr q).mulS (s * t) := by
        rw [← camR_on_ray, ed]
        congr 1
        ext <;> simp <;> ring
      rw [e] at this hz
      rw [ki] at this hz
      simp only [Projection.rayR, V3.mulS_x, V3.mulS_y, V3.mulS_z] at this hz
      have hst : s * t ≠ 0 := by
        intro h0; rw [h0] at hz; simp [Projection.minDepth] at hz; norm_num at hz
      refine this.congr ?_
      have fx := hi.1
      have fy := hi.2
      have h1 := left_ne_zero_of_mul hst
      have h2 := right_ne_zero_of_mul hst
      ext <;> simp only <;> field_simp <;> ring
    obtain ⟨l1, h1⟩ := hE.2 _ e1 d1 (own t1 e1)
    obtain ⟨l2, h2⟩ := hE.2 _ e2 d2 (own t2 e2)
    have u1 := image_rect cj kj lj (V3.is_num (ci.orient.pos + d.mulS t1)) (deep_depth cj d1) false (by simp)
    have u2 := image_rect cj kj lj (V3.is_num (ci.orient.pos + d.mulS t2)) (deep_depth cj d2) false (by simp)
    rw [aff] at u1 u2
    refine ⟨l1, l2, u1.unique h1, ?_⟩
    rw [at1]
    exact u2.unique h2

theorem Stereo.deep_own (c : Cam) (hc : c.Proper) (hk : c.kind = .rectilinear) (hl : c.lens = noDistortion) (q : V2 ℝ) {d : V3 ℝ}
    (hd : (getRay c q.num).2.Is d) {t : ℝ} (ht : 1 ≤ t) : Deep c (c.orient.pos + d.mulS t) := by
  have ed : d = dirR c q := hd.unique (getRay_real c hc (by rw [hl]; exact V2.is_num q))
  refine ⟨_, cameraFromSpace_is c (V3.is_num _), ?_⟩
  have e : c.orient.pos + d.mulS t = (dirR c q).mulS t + c.orient.pos := by rw [ed]; ext <;> simp <;> ring
  rw [e, camR_on_ray, hk]
  simp only [Projection.rayR, V3.mulS_z]
  rw [abs_of_neg (by linarith)]
  simp only [Projection.minDepth]; norm_num; linarith

theorem Stereo.error_is (ci cj : Cam) (hi : ci.Proper) (hj : cj.Proper) (ki : ci.kind = .rectilinear) (kj : cj.kind = .rectilinear)
    (li : ci.lens = noDistortion) (lj : cj.lens = noDistortion) (qi qj : V2 ℝ) {d : V3 ℝ} (hd : (getRay ci qi.num).2.Is d)
    (hcr : V3.cross d (ci.orient.pos - cj.orient.pos) ≠ ⟨0, 0, 0⟩) (d1 : Deep cj (ci.orient.pos + d)) (d2 : Deep cj (ci.orient.pos + d.mulS 2)) :
    (∃ A V, IsEpipolarLine ci cj qi A V) ∧
    ∃ D, Num.Is (epipolarDistance ci cj qi.num qj.num false) D ∧ ∀ A V, IsEpipolarLine ci cj qi A V → Geo.IsDistLine2 A V qj D := by
  have d1' : Deep cj (ci.orient.pos + d.mulS 1) := by
    have : d.mulS 1 = d := by ext <;> simp
    rw [this]; exact d1
  obtain ⟨A, V, i1, i2, hE, -, hu⟩ := epi_line ci cj hi hj ki kj li lj qi hd hcr (by norm_num : (1 : ℝ) ≠ 2) d1' d2 false (by simp)
  have hv : (sub2 (imageFromSpace cj ((getRay ci qi.num).1 + (getRay ci qi.num).2.mulS (fin 2)) false)
      (imageFromSpace cj ((getRay ci qi.num).1 + (getRay ci qi.num).2.mulS (fin 1)) false)).Is V :=
    ⟨(i2.1.sub i1.1).congr (by simp [Geo.at2]), (i2.2.sub i1.2).congr (by simp [Geo.at2])⟩
  obtain ⟨F, -, hF, hD⟩ := closest_foot i1 hv hE.1 (V2.is_num qj)
  refine ⟨⟨A, V, hE⟩, _, hD, fun A' V' hE' => ?_⟩
  obtain ⟨l1, l2, e1, e2⟩ := hu (deep_own ci hi ki li qi hd le_rfl) (deep_own ci hi ki li qi hd one_le_two) A' V' hE'
  exact (hF.other hE.1 e1 e2).dist

theorem Stereo.drawing_is (cA cB : Cam) (hA : cA.Proper) (hB : cB.Proper) (kA : cA.kind = .rectilinear) (kB : cB.kind = .rectilinear)
    (lA : cA.lens = noDistortion) (lB : cB.lens = noDistortion) (pA pB : V2 ℝ) {d : V3 ℝ} (hd : (getRay cB pB.num true).2.Is d)
    (hcr : V3.cross d (cB.orient.pos - cA.orient.pos) ≠ ⟨0, 0, 0⟩)
    (hdeep : ∀ t, t = -10000 ∨ t = -9900 → Deep cA (cB.orient.pos + d.mulS t) ∧ Deep cB (cB.orient.pos + d.mulS t)) {A V : V2 ℝ}
    (hE : IsEpipolarLine cB cA pB A V) :
    (drawMine cA cB pA.num pB.num).curve.length = 200 ∧
    (∀ i : ℕ, i < 200 → Deep cA (cB.orient.pos + d.mulS (-10000 + 100 * i)) →
      ∃ n l, (drawMine cA cB pA.num pB.num).curve[i]? = some n ∧ n.Is (Geo.at2 A V l)) ∧
    ∃ F, (drawMine cA cB pA.num pB.num).foot.Is F ∧ Geo.IsFoot A V pA F ∧
      Num.Is (drawMine cA cB pA.num pB.num).distance (Geo.dist2 F pA) := by
  obtain ⟨A', V', i1, i2, hE', hc, hu⟩ := epi_line cB cA hB hA kB kA lB lA pB hd hcr (by norm_num : (-10000 : ℝ) ≠ -9900)
    (hdeep _ (.inl rfl)).1 (hdeep _ (.inr rfl)).1 false (by simp)
  obtain ⟨l1, l2, e1, e2⟩ := hu (hdeep _ (.inl rfl)).2 (hdeep _ (.inr rfl)).2 A V hE
  refine ⟨by simp [drawMine], ?_, ?_⟩
  · intro i hi h
    obtain ⟨l, hl⟩ := hc _ h
    have ex := congrArg V2.x e2
    have ey := congrArg V2.y e2
    have bx := congrArg V2.x e1
    have by' := congrArg V2.y e1
    simp only [Geo.at2, one_mul] at ex ey bx by'
    refine ⟨_, l1 + l * (l2 - l1), by simp only [drawMine, List.getElem?_map, List.getElem?_range hi, Option.map_some], hl.congr ?_⟩
    ext <;> simp only [Geo.at2]
    · linear_combination bx + l * (ex - bx)
    · linear_combination by' + l * (ey - by')
  · have p0 : (-10000 + 100 * ((0 : ℕ) : ℝ)) = -10000 := by norm_num
    have p1 : (-10000 + 100 * ((1 : ℕ) : ℝ)) = -9900 := by norm_num
    have hv : (sub2 (imageFromSpace cA ((getRay cB pB.num true).1 + (getRay cB pB.num true).2.mulS (fin (-9900))) false)
        (imageFromSpace cA ((getRay cB pB.num true).1 + (getRay cB pB.num true).2.mulS (fin (-10000))) false)).Is V' :=
      ⟨(i2.1.sub i1.1).congr (by simp [Geo.at2]), (i2.2.sub i1.2).congr (by simp [Geo.at2])⟩
    obtain ⟨F, f1, f2, f3⟩ := closest_foot i1 hv hE'.1 (V2.is_num pA)
    refine ⟨F, ?_, f2.other hE'.1 e1 e2, ?_⟩
    · simp only [drawMine, p0, p1]; exact f1
    · simp only [drawMine, p0, p1]; exact f3

/-- **C125** For every pair of pixels the numbers that `pointCorrespondenceError` gives are the distances of the pixels from the
epipolar lines: the lines on which a camera shows everything that the other camera shows at the corresponding pixel. -/
theorem C125_error (c1 c2 : Cam) (h1 : c1.Proper) (h2 : c2.Proper) (k1 : c1.kind = .rectilinear) (k2 : c2.kind = .rectilinear)
    (l1 : c1.lens = noDistortion) (l2 : c2.lens = noDistortion) (q1 q2 : V2 ℝ) :
    (General c1 c2 q1 → IsEpipolarError c1 c2 q1 q2 (pointCorrespondenceError c1 c2 q1.num q2.num).1) ∧
    (General c2 c1 q2 → IsEpipolarError c2 c1 q2 q1 (pointCorrespondenceError c1 c2 q1.num q2.num).2) :=
  ⟨fun ⟨_, hd, hcr, d1, d2⟩ => error_is c1 c2 h1 h2 k1 k2 l1 l2 q1 q2 hd hcr d1 d2,
   fun ⟨_, hd, hcr, d1, d2⟩ => error_is c2 c1 h2 h1 k2 k1 l2 l1 q2 q1 hd hcr d1 d2⟩

/-- **C125** `plotMyEpiploarLines` draws, for each correspondence and in each image, the epipolar line of the pixel of the other
image, the point of the line closest to the pixel, and their distance. -/
theorem C125_drawing (c1 c2 : Cam) (h1 : c1.Proper) (h2 : c2.Proper) (k1 : c1.kind = .rectilinear) (k2 : c2.kind = .rectilinear)
    (l1 : c1.lens = noDistortion) (l2 : c2.lens = noDistortion) (q1 q2 : List (V2 ℝ)) (hq : q1.length = q2.length) :
    (plotMine c1 c2 (q1.map V2.num) (q2.map V2.num)).1.length = q1.length ∧
    (plotMine c1 c2 (q1.map V2.num) (q2.map V2.num)).2.length = q1.length ∧
    ∀ (i : ℕ) (p1 p2 : V2 ℝ), q1[i]? = some p1 → q2[i]? = some p2 →
      (GeneralFar c2 c1 p2 → ∃ g, (plotMine c1 c2 (q1.map V2.num) (q2.map V2.num)).1[i]? = some g ∧ IsEpipolarDrawing c1 c2 p1 p2 g) ∧
      (GeneralFar c1 c2 p1 → ∃ g, (plotMine c1 c2 (q1.map V2.num) (q2.map V2.num)).2[i]? = some g ∧ IsEpipolarDrawing c2 c1 p2 p1 g) := by
  have key : ∀ (cA cB : Cam) (pA pB : V2 ℝ), cA.Proper → cB.Proper → cA.kind = .rectilinear → cB.kind = .rectilinear →
      cA.lens = noDistortion → cB.lens = noDistortion → GeneralFar cB cA pB → IsEpipolarDrawing cA cB pA pB (drawMine cA cB pA.num pB.num) := by
    intro cA cB pA pB hA hB kA kB lA lB ⟨d, hd, hcr, hdeep⟩
    obtain ⟨A, V, -, -, hE, -, -⟩ := epi_line cB cA hB hA kB kA lB lA pB hd hcr (by norm_num : (-10000 : ℝ) ≠ -9900)
      (hdeep _ (.inl rfl)).2 (hdeep _ (.inr rfl)).2 false (by simp)
    refine ⟨⟨A, V, hE⟩, by simp [drawMine], V2.is_num pA, fun A V hE => ?_⟩
    obtain ⟨-, g2, g3⟩ := drawing_is cA cB hA hB kA kB lA lB pA pB hd hcr (fun t ht => (hdeep t ht).symm) hE
    refine ⟨fun d' i hd' hi h => ?_, g3⟩
    have := hd'.unique hd; subst this
    exact g2 i hi h
  refine ⟨by simp [plotMine, hq], by simp [plotMine, hq], fun i p1 p2 e1 e2 => ⟨fun h => ⟨_, ?_, key c1 c2 p1 p2 h1 h2 k1 k2 l1 l2 h⟩,
    fun h => ⟨_, ?_, key c2 c1 p2 p1 h2 h1 k2 k1 l2 l1 h⟩⟩⟩ <;>
  simp [plotMine, List.getElem?_zipWith, e1, e2]

/-- **C125** A ray that passes through the other camera has no epipolar line: the camera shows all of it in one pixel, and the distance
is nan. -/
theorem C125_epipole (ci cj : Cam) (kj : cj.kind = .rectilinear) (lj : cj.lens = noDistortion) (qi qj : V2 ℝ) {d : V3 ℝ} (hd : (getRay ci qi.num).2.Is d)
    (hcr : V3.cross d (ci.orient.pos - cj.orient.pos) = ⟨0, 0, 0⟩) (d1 : Deep cj (ci.orient.pos + d)) (d2 : Deep cj (ci.orient.pos + d.mulS 2)) :
    (pointCorrespondenceError ci cj qi.num qj.num).1 = .nan := by
  have ho := getRay_offset ci qi.num false
  set C := camR cj ci.orient.pos with hC
  set D := cj.orient.mat.R.applyR d with hD
  have aff : ∀ t, camR cj (ci.orient.pos + d.mulS t) = D.mulS t + C := by
    intro t
    simp only [hC, hD, camR]
    rw [← M3.applyR_mulS, ← M3.applyR_add]
    congr 1
    ext <;> simp <;> ring
  have hcr' : V3.cross D C = ⟨0, 0, 0⟩ := by
    have hn := M3.normSq_cross_applyR (rigid_mat cj.orient).TR d (ci.orient.pos - cj.orient.pos)
    rw [show cj.orient.mat.R.applyR (ci.orient.pos - cj.orient.pos) = C from rfl, show cj.orient.mat.R.applyR d = D from rfl, hcr] at hn
    exact V3.eq_zero_of_normSq (hn.trans (by simp [V3.normSq]))
  have d1' : Deep cj (ci.orient.pos + d.mulS 1) := by
    have : d.mulS 1 = d := by ext <;> simp
    rw [this]; exact d1
  have nz : ∀ t, Deep cj (ci.orient.pos + d.mulS t) → (D.mulS t + C).z ≠ 0 := by
    intro t h h0
    have := deep_depth cj h
    rw [aff, h0] at this; simp [Projection.minDepth] at this; norm_num at this
  have i1 := image_rect cj kj lj (ho.add (hd.mulS (is_fin 1))) (deep_depth cj d1') false (by simp)
  have i2 := image_rect cj kj lj (ho.add (hd.mulS (is_fin 2))) (deep_depth cj d2) false (by simp)
  have z1 := nz _ d1'
  have z2 := nz _ d2
  rw [aff] at i1 i2
  simp only [V3.add_x, V3.add_y, V3.add_z, V3.mulS_x, V3.mulS_y, V3.mulS_z] at i1 i2 z1 z2
  have cx := congrArg V3.x hcr'
  have cy := congrArg V3.y hcr'
  simp only [V3.cross] at cx cy
  have nx : ∀ t, -(D.x * t + C.x) = -D.x * t + -C.x := fun t => by ring
  have ex := ep_diff' (-D.x) (-C.x) D.z C.z cj.intr.fx cj.intr.cx 1 2 z1 z2
  have ey := ep_diff' D.y C.y D.z C.z cj.intr.fy cj.intr.cy 1 2 z1 z2
  rw [← nx, ← nx, show -D.x * C.z - -C.x * D.z = 0 by linear_combination cy, mul_zero, zero_mul, zero_div] at ex
  rw [show D.y * C.z - C.y * D.z = 0 by linear_combination cx, mul_zero, zero_mul, zero_div] at ey
  have vx := (i2.1.sub i1.1).congr ex
  have vy := (i2.2.sub i1.2).congr ey
  have hn := ((vx.mul vx).add (vy.mul vy)).sqrt (by simp)
  have hn' := hn.congr (by simp : Real.sqrt (0 * 0 + 0 * 0) = 0)
  have nan1 := zero_div_zero vx hn'
  have nan2 := zero_div_zero vy hn'
  show norm2 (sub2 (closestOnLine _ (sub2 _ _) _) _) = .nan
  have : closestOnLine (imageFromSpace cj ((getRay ci qi.num).1 + (getRay ci qi.num).2.mulS (fin 1)) false)
      (sub2 (imageFromSpace cj ((getRay ci qi.num).1 + (getRay ci qi.num).2.mulS (fin 2)) false)
        (imageFromSpace cj ((getRay ci qi.num).1 + (getRay ci qi.num).2.mulS (fin 1)) false)) qj.num = ⟨.nan, .nan⟩ := by
    unfold closestOnLine norm2 sub2
    simp only [nan1, nan2]
    simp
  rw [this]
  simp [norm2, sub2]

/-! ### the hypotheses can be met -/

theorem Stereo.example_dir : dirR exampleCam ⟨50, 25⟩ = ⟨0, 0, -1⟩ := by
  have h := camR_on_ray exampleCam ⟨50, 25⟩ 1
  rw [exampleCam_camR] at h
  have hx := congrArg V3.x h
  have hy := congrArg V3.y h
  have hz := congrArg V3.z h
  simp [exampleCam, Projection.rayR, Orient.pos] at hx hy hz
  ext <;> simp only [exampleCam]
  · exact hx
  · exact hy
  · exact hz

theorem Stereo.example_deep (c : Cam) (hc : ∀ P : V3 ℝ, (camR c P).z = P.z - 10) (t : ℝ) (ht : 1 ≤ |t|) :
    Deep c (exampleCam.orient.pos + (⟨0, 0, -1⟩ : V3 ℝ).mulS t) := by
  refine ⟨_, cameraFromSpace_is c (V3.is_num _), ?_⟩
  rw [hc]
  simp only [V3.add_z, V3.mulS_z, exampleCam, Orient.pos]
  rw [show (10 : ℝ) + -1 * t - 10 = -t by ring, abs_neg]
  refine le_trans ?_ ht
  norm_num [Projection.minDepth]

theorem Stereo.example_cross : V3.cross (⟨0, 0, -1⟩ : V3 ℝ) (exampleCam.orient.pos - exampleCam2.orient.pos) ≠ ⟨0, 0, 0⟩ := by
  intro h
  have := congrArg V3.y h
  norm_num [V3.cross, exampleCam, exampleCam2, Orient.pos] at this

example : General exampleCam exampleCam2 ⟨50, 25⟩ := by
  have h := getRay_real exampleCam exampleCam_proper (n := V2.num ⟨50, 25⟩) (p := ⟨50, 25⟩) (V2.is_num _)
  rw [example_dir] at h
  refine ⟨_, h, example_cross, ?_, example_deep _ (fun P => by rw [exampleCam2_camR]) 2 (by norm_num)⟩
  have := example_deep exampleCam2 (fun P => by rw [exampleCam2_camR]) 1 (by norm_num)
  rwa [show (⟨0, 0, -1⟩ : V3 ℝ).mulS 1 = ⟨0, 0, -1⟩ by ext <;> simp] at this

example : GeneralFar exampleCam exampleCam2 ⟨50, 25⟩ := by
  obtain ⟨s, -, -, e, h⟩ := getRay_dir exampleCam exampleCam_proper.1 exampleCam_proper.2 (n := V2.num ⟨50, 25⟩) (p := ⟨50, 25⟩) (V2.is_num _) true
  have e := e rfl
  rw [example_dir] at h e
  have hs : s = 1 := by rw [e]; simp [V3.norm, V3.normSq]
  subst hs
  rw [show (⟨0, 0, -1⟩ : V3 ℝ).mulS 1 = ⟨0, 0, -1⟩ by ext <;> simp] at h
  refine ⟨_, h, example_cross, ?_⟩
  rintro t (rfl | rfl)
  · exact ⟨example_deep _ (fun P => by rw [exampleCam_camR]) _ (by norm_num), example_deep _ (fun P => by rw [exampleCam2_camR]) _ (by norm_num)⟩
  · exact ⟨example_deep _ (fun P => by rw [exampleCam_camR]) _ (by norm_num), example_deep _ (fun P => by rw [exampleCam2_camR]) _ (by norm_num)⟩

example (q : V2 ℝ) : (pointCorrespondenceError exampleCam exampleCam3 (V2.num ⟨50, 25⟩) q.num).1 = .nan := by
  have h := getRay_real exampleCam exampleCam_proper (n := V2.num ⟨50, 25⟩) (p := ⟨50, 25⟩) (V2.is_num _)
  rw [example_dir] at h
  refine C125_epipole exampleCam exampleCam3 rfl rfl _ q h ?_ ⟨_, cameraFromSpace_is _ (V3.is_num _), ?_⟩
    ⟨_, cameraFromSpace_is _ (V3.is_num _), ?_⟩
  · ext <;> simp [V3.cross, exampleCam, exampleCam3, Orient.pos]
  · rw [exampleCam3_camR]; norm_num [exampleCam, Orient.pos, Projection.minDepth]
  · rw [exampleCam3_camR]; norm_num [exampleCam, Orient.pos, Projection.minDepth]
