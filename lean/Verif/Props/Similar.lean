import Verif.Props.Epipolar
import Verif.Props.Lines
import Verif.Spec.Similar

/-! # What correspondences say about the cameras of a group: C175 -/

open Classical Num Camera Stereo

namespace Similar

theorem Carried.camR {T : V3 ℝ → V3 ℝ} {s : ℝ} {c c' : Cam} (h : Carried T s c c') (P : V3 ℝ) : camR c' (T P) = (Camera.camR c P).mulS s :=
  ((cameraFromSpace_is c' (V3.is_num (T P))).unique (h.2.2.2 P _ (cameraFromSpace_is c (V3.is_num P))))

theorem camR_pos (c : Cam) : Camera.camR c c.orient.pos = ⟨0, 0, 0⟩ := by
  unfold Camera.camR
  ext <;> simp [M3.applyR, V3.dot]

/-- Camera coordinates determine the point. -/
theorem camR_inj (c : Cam) {P Q : V3 ℝ} (h : Camera.camR c P = Camera.camR c Q) : P = Q := by
  have key : ∀ P : V3 ℝ, c.orient.mat.R.T.applyR (Camera.camR c P) + c.orient.pos = P := by
    intro P
    unfold Camera.camR
    rw [M3.applyR_T_applyR (rigid_mat c.orient).TR]
    ext <;> simp
  rw [← key P, ← key Q, h]

/-- The points of a ray in the coordinates of the other camera, before and after the world was changed. -/
theorem ray_carried {T : V3 ℝ → V3 ℝ} {s : ℝ} {ci cj ci' cj' : Cam} (hi : Carried T s ci ci') (hj : Carried T s cj cj') (q : V2 ℝ) (t : ℝ) :
    Camera.camR cj' (ci'.orient.pos + (dirR ci' q).mulS (s * t)) = (Camera.camR cj (ci.orient.pos + (dirR ci q).mulS t)).mulS s := by
  rw [← hj.camR]
  congr 1
  apply camR_inj ci'
  rw [hi.camR]
  have e : ∀ (c : Cam) (t : ℝ), c.orient.pos + (dirR c q).mulS t = (dirR c q).mulS t + c.orient.pos := by
    intro c t; ext <;> simp <;> ring
  rw [e, e, camR_on_ray, camR_on_ray, hi.1, hi.2.1]
  ext <;> simp <;> ring

theorem affine (ci cj : Cam) (d : V3 ℝ) (t : ℝ) :
    Camera.camR cj (ci.orient.pos + d.mulS t) = (cj.orient.mat.R.applyR d).mulS t + Camera.camR cj ci.orient.pos := by
  simp only [Camera.camR]
  rw [← M3.applyR_mulS, ← M3.applyR_add]
  congr 1
  ext <;> simp <;> ring

theorem pix_mulS (c : Cam) (Q : V3 ℝ) {s : ℝ} (hs : s ≠ 0) : pix c (Q.mulS s) = pix c Q := by
  unfold pix
  ext <;> simp only [V3.mulS_x, V3.mulS_y, V3.mulS_z]
  · rw [show -(Q.x * s) * c.intr.fx = (-Q.x * c.intr.fx) * s by ring, mul_div_mul_right _ _ hs]
  · rw [show Q.y * s * c.intr.fy = (Q.y * c.intr.fy) * s by ring, mul_div_mul_right _ _ hs]

theorem dist_unique {A V q : V2 ℝ} {D E : ℝ} (h : Geo.IsDistLine2 A V q D) (h' : Geo.IsDistLine2 A V q E) : D = E := by
  obtain ⟨⟨l, h1⟩, h2⟩ := h
  obtain ⟨⟨l', h1'⟩, h2'⟩ := h'
  exact le_antisymm (h1' ▸ h2 l') (h1 ▸ h2' l)

/-- The distance from the epipolar line is the same before and after. -/
theorem distance_same {T : V3 ℝ → V3 ℝ} {s : ℝ} (hs : s ≠ 0) {ci cj ci' cj' : Cam} (hi : Carried T s ci ci') (hj : Carried T s cj cj')
    (pi : ci.Proper) (pj : cj.Proper) (kj : cj.kind = .rectilinear) (li : ci.lens = noDistortion) (lj : cj.lens = noDistortion)
    (qi qj : V2 ℝ) (hide : Bool) (hcr : V3.cross (dirR ci qi) (ci.orient.pos - cj.orient.pos) ≠ ⟨0, 0, 0⟩)
    (h : ∀ t : ℝ, t = 1 ∨ t = 2 → Deep cj (ci.orient.pos + (dirR ci qi).mulS t) ∧ (hide = true → InFront cj (ci.orient.pos + (dirR ci qi).mulS t)))
    (h' : ∀ t : ℝ, t = 1 ∨ t = 2 → Deep cj' (ci'.orient.pos + (dirR ci' qi).mulS t) ∧ (hide = true → InFront cj' (ci'.orient.pos + (dirR ci' qi).mulS t))) :
    ∃ D, Num.Is (epipolarDistance ci cj qi.num qj.num hide) D ∧ Num.Is (epipolarDistance ci' cj' qi.num qj.num hide) D := by
  have pi' : ci'.Proper := by unfold Cam.Proper; rw [hi.2.1]; exact pi
  have pj' : cj'.Proper := by unfold Cam.Proper; rw [hj.2.1]; exact pj
  have kj' : cj'.kind = .rectilinear := by rw [hj.1, kj]
  have li' : ci'.lens = noDistortion := by rw [hi.2.2.1, li]
  have lj' : cj'.lens = noDistortion := by rw [hj.2.2.1, lj]
  have img : ∀ (a b : Cam) (_ : a.Proper) (_ : a.lens = noDistortion) (_ : b.kind = .rectilinear) (_ : b.lens = noDistortion) (t : ℝ)
      (_ : Deep b (a.orient.pos + (dirR a qi).mulS t) ∧ (hide = true → InFront b (a.orient.pos + (dirR a qi).mulS t))),
      (imageFromSpace b ((getRay a qi.num).1 + (getRay a qi.num).2.mulS (fin t)) hide).Is (pix b (Camera.camR b (a.orient.pos + (dirR a qi).mulS t))) ∧
      (Camera.camR b (a.orient.pos + (dirR a qi).mulS t)).z ≠ 0 := by
    intro a b pa la kb lb t hd
    have hr := getRay_real a pa (n := qi.num) (p := qi) (by rw [la]; exact V2.is_num qi)
    have hz := deep_depth b hd.1
    refine ⟨image_rect b kb lb ((getRay_offset a qi.num false).add (hr.mulS (is_fin t))) hz hide (fun e => ?_), fun h0 => ?_⟩
    · obtain ⟨Q, hQ, hz⟩ := hd.2 e
      rw [camR_of_is b hQ] at hz
      have : (0 : ℝ) < Projection.minDepth := by norm_num [Projection.minDepth]
      linarith
    · rw [h0] at hz; simp [Projection.minDepth] at hz; norm_num at hz
  obtain ⟨a1, z1⟩ := img ci cj pi li kj lj 1 (h 1 (.inl rfl))
  obtain ⟨a2, z2⟩ := img ci cj pi li kj lj 2 (h 2 (.inr rfl))
  obtain ⟨b1, y1⟩ := img ci' cj' pi' li' kj' lj' 1 (h' 1 (.inl rfl))
  obtain ⟨b2, y2⟩ := img ci' cj' pi' li' kj' lj' 2 (h' 2 (.inr rfl))
  set d := dirR ci qi with hd
  have back : ∀ t : ℝ, Camera.camR cj' (ci'.orient.pos + (dirR ci' qi).mulS t) = (Camera.camR cj (ci.orient.pos + d.mulS (t / s))).mulS s := by
    intro t
    rw [hd, ← ray_carried hi hj qi (t / s), mul_div_cancel₀ _ hs]
  have pp : ∀ Q, pix cj' Q = pix cj Q := by intro Q; unfold pix; rw [hj.2.1]
  rw [back, pp, pix_mulS _ _ hs] at b1 b2
  rw [back] at y1 y2
  simp only [V3.mulS_z] at y1 y2
  have y1' := left_ne_zero_of_mul y1
  have y2' := left_ne_zero_of_mul y2
  rw [affine] at a1 a2 b1 b2 z1 z2 y1' y2'
  set C := Camera.camR cj ci.orient.pos with hC
  set D := cj.orient.mat.R.applyR d with hD
  have hcr' : V3.cross D C ≠ ⟨0, 0, 0⟩ := by
    intro h0
    have hn := M3.normSq_cross_applyR (rigid_mat cj.orient).TR d (ci.orient.pos - cj.orient.pos)
    rw [show cj.orient.mat.R.applyR (ci.orient.pos - cj.orient.pos) = C from rfl, show cj.orient.mat.R.applyR d = D from rfl, h0] at hn
    exact hcr (V3.eq_zero_of_normSq (hn.symm.trans (by simp [V3.normSq])))
  obtain ⟨g1, g2⟩ := line_image cj pj hcr' (by norm_num : (1 : ℝ) ≠ 2) z1 z2
  have hts : (1 : ℝ) / s ≠ 2 / s := by
    intro h0
    have := (div_left_inj' hs).1 h0
    norm_num at this
  obtain ⟨g1', -⟩ := line_image cj pj hcr' hts y1' y2'
  obtain ⟨l1, e1⟩ := g2 _ y1'
  obtain ⟨l2, e2⟩ := g2 _ y2'
  obtain ⟨F, -, hF, hFD⟩ := closest_foot a1 (⟨a2.1.sub a1.1, a2.2.sub a1.2⟩ : (sub2 _ _).Is ⟨_, _⟩) g1 (V2.is_num qj)
  obtain ⟨F', -, hF', hFD'⟩ := closest_foot b1 (⟨b2.1.sub b1.1, b2.2.sub b1.2⟩ : (sub2 _ _).Is ⟨_, _⟩) g1' (V2.is_num qj)
  have at1 : ∀ P R : V2 ℝ, Geo.at2 P ⟨R.x - P.x, R.y - P.y⟩ 1 = R := by
    intro P R; ext <;> simp [Geo.at2]
  have := (hF'.other g1' e1 (by rw [at1]; exact e2)).dist
  refine ⟨_, hFD, ?_⟩
  rw [dist_unique hF.dist this]
  exact hFD'

/-- Directions and positions in the coordinates of the other camera. -/
theorem parts_carried {T : V3 ℝ → V3 ℝ} {s : ℝ} (hs : s ≠ 0) {ci cj ci' cj' : Cam} (hi : Carried T s ci ci') (hj : Carried T s cj cj') (q : V2 ℝ) :
    Camera.camR cj' ci'.orient.pos = (Camera.camR cj ci.orient.pos).mulS s ∧
      cj'.orient.mat.R.applyR (dirR ci' q) = cj.orient.mat.R.applyR (dirR ci q) := by
  have h0 := ray_carried hi hj q 0
  have h1 := ray_carried hi hj q 1
  have e0 : ∀ v : V3 ℝ, v.mulS 0 = ⟨0, 0, 0⟩ := by intro v; ext <;> simp
  have a0 : Camera.camR cj' ci'.orient.pos = (Camera.camR cj ci.orient.pos).mulS s := by
    rw [mul_zero, e0, e0] at h0
    have e : ∀ v : V3 ℝ, v + ⟨0, 0, 0⟩ = v := by intro v; ext <;> simp
    rwa [e, e] at h0
  refine ⟨a0, ?_⟩
  rw [affine, affine, a0] at h1
  have hx := congrArg V3.x h1
  have hy := congrArg V3.y h1
  have hz := congrArg V3.z h1
  simp only [V3.add_x, V3.add_y, V3.add_z, V3.mulS_x, V3.mulS_y, V3.mulS_z, mul_one] at hx hy hz
  ext
  · exact mul_right_cancel₀ hs (by linarith)
  · exact mul_right_cancel₀ hs (by linarith)
  · exact mul_right_cancel₀ hs (by linarith)

theorem cross_carried {T : V3 ℝ → V3 ℝ} {s : ℝ} (hs : s ≠ 0) {ci cj ci' cj' : Cam} (hi : Carried T s ci ci') (hj : Carried T s cj cj') {q : V2 ℝ}
    (h : V3.cross (dirR ci q) (ci.orient.pos - cj.orient.pos) ≠ ⟨0, 0, 0⟩) :
    V3.cross (dirR ci' q) (ci'.orient.pos - cj'.orient.pos) ≠ ⟨0, 0, 0⟩ := by
  obtain ⟨a, b⟩ := parts_carried hs hi hj q
  intro h0
  have n' := M3.normSq_cross_applyR (rigid_mat cj'.orient).TR (dirR ci' q) (ci'.orient.pos - cj'.orient.pos)
  have n := M3.normSq_cross_applyR (rigid_mat cj.orient).TR (dirR ci q) (ci.orient.pos - cj.orient.pos)
  rw [show cj'.orient.mat.R.applyR (ci'.orient.pos - cj'.orient.pos) = Camera.camR cj' ci'.orient.pos from rfl, a, b, h0] at n'
  rw [show cj.orient.mat.R.applyR (ci.orient.pos - cj.orient.pos) = Camera.camR cj ci.orient.pos from rfl] at n
  have e : (V3.cross (cj.orient.mat.R.applyR (dirR ci q)) ((Camera.camR cj ci.orient.pos).mulS s)).normSq =
      s ^ 2 * (V3.cross (cj.orient.mat.R.applyR (dirR ci q)) (Camera.camR cj ci.orient.pos)).normSq := by
    simp only [V3.cross, V3.normSq, V3.mulS_x, V3.mulS_y, V3.mulS_z]; ring
  rw [e, n] at n'
  have z : (V3.normSq (⟨0, 0, 0⟩ : V3 ℝ)) = 0 := by simp [V3.normSq]
  rw [z] at n'
  exact h (V3.eq_zero_of_normSq ((mul_eq_zero.1 n').resolve_left (pow_ne_zero 2 hs)))

theorem ray_is {c : Cam} (hc : c.Proper) (hl : c.lens = noDistortion) (q : V2 ℝ) : (getRay c q.num).2.Is (dirR c q) :=
  getRay_real c hc (by rw [hl]; exact V2.is_num q)

theorem mul1 (v : V3 ℝ) : v.mulS 1 = v := by ext <;> simp

theorem deep_iff (c : Cam) (P : V3 ℝ) : Deep c P ↔ Projection.minDepth ≤ |(Camera.camR c P).z| :=
  ⟨deep_depth c, fun h => ⟨_, cameraFromSpace_is c (V3.is_num P), h⟩⟩

theorem front_iff (c : Cam) (P : V3 ℝ) : InFront c P ↔ (Camera.camR c P).z ≤ -Projection.minDepth :=
  ⟨fun ⟨_, h, hz⟩ => by rw [camR_of_is c h] at hz; exact hz, fun h => ⟨_, cameraFromSpace_is c (V3.is_num P), h⟩⟩

theorem general_iff {ci : Cam} (hc : ci.Proper) (hl : ci.lens = noDistortion) (cj : Cam) (q : V2 ℝ) :
    General ci cj q ↔ V3.cross (dirR ci q) (ci.orient.pos - cj.orient.pos) ≠ ⟨0, 0, 0⟩ ∧
      ∀ t : ℝ, t = 1 ∨ t = 2 → Deep cj (ci.orient.pos + (dirR ci q).mulS t) := by
  constructor
  · rintro ⟨d, hd, h1, h2, h3⟩
    have := hd.unique (ray_is hc hl q); subst this
    refine ⟨h1, ?_⟩
    rintro t (rfl | rfl)
    · rw [mul1]; exact h2
    · exact h3
  · rintro ⟨h1, h2⟩
    have := h2 1 (.inl rfl)
    rw [mul1] at this
    exact ⟨_, ray_is hc hl q, h1, this, h2 2 (.inr rfl)⟩

theorem ahead_iff {ci : Cam} (hc : ci.Proper) (hl : ci.lens = noDistortion) (cj : Cam) (q : V2 ℝ) :
    Ahead ci cj q ↔ V3.cross (dirR ci q) (ci.orient.pos - cj.orient.pos) ≠ ⟨0, 0, 0⟩ ∧
      ∀ t : ℝ, t = 1 ∨ t = 2 → InFront cj (ci.orient.pos + (dirR ci q).mulS t) := by
  constructor
  · rintro ⟨d, hd, h1, h2, h3⟩
    have := hd.unique (ray_is hc hl q); subst this
    refine ⟨h1, ?_⟩
    rintro t (rfl | rfl)
    · rw [mul1]; exact h2
    · exact h3
  · rintro ⟨h1, h2⟩
    have := h2 1 (.inl rfl)
    rw [mul1] at this
    exact ⟨_, ray_is hc hl q, h1, this, h2 2 (.inr rfl)⟩

theorem carried_proper {T : V3 ℝ → V3 ℝ} {s : ℝ} {c c' : Cam} (h : Carried T s c c') (hc : c.Proper) : c'.Proper := by
  unfold Cam.Proper; rw [h.2.1]; exact hc

/-- Without scaling, what is in front of a camera stays in front. -/
theorem rigid {T : V3 ℝ → V3 ℝ} {ci cj ci' cj' : Cam} (hi : Carried T 1 ci ci') (hj : Carried T 1 cj cj') (pi : ci.Proper)
    (li : ci.lens = noDistortion) (q : V2 ℝ) : (General ci cj q → General ci' cj' q) ∧ (Ahead ci cj q → Ahead ci' cj' q) := by
  have key : ∀ t, Camera.camR cj' (ci'.orient.pos + (dirR ci' q).mulS t) = Camera.camR cj (ci.orient.pos + (dirR ci q).mulS t) := by
    intro t
    have := ray_carried hi hj q t
    rwa [one_mul, mul1] at this
  rw [general_iff pi li, general_iff (carried_proper hi pi) (hi.2.2.1.trans li), ahead_iff pi li, ahead_iff (carried_proper hi pi) (hi.2.2.1.trans li)]
  refine ⟨fun h => ⟨cross_carried one_ne_zero hi hj h.1, fun t ht => ?_⟩, fun h => ⟨cross_carried one_ne_zero hi hj h.1, fun t ht => ?_⟩⟩
  · rw [deep_iff, key, ← deep_iff]; exact h.2 t ht
  · rw [front_iff, key, ← front_iff]; exact h.2 t ht

theorem npsum_same {α : Type} (l : List α) (f g : α → Num) (h : ∀ x ∈ l, ∃ r, Num.Is (f x) r ∧ Num.Is (g x) r) :
    ∃ r, Num.Is (Stat.npsum (l.map f)) r ∧ Num.Is (Stat.npsum (l.map g)) r := by
  induction l with
  | nil => exact ⟨0, by simp [Stat.npsum], by simp [Stat.npsum]⟩
  | cons x l ih =>
    obtain ⟨a, a1, a2⟩ := h x (by simp)
    obtain ⟨b, b1, b2⟩ := ih fun y hy => h y (by simp [hy])
    exact ⟨_, a1.add b1, a2.add b2⟩

theorem logpdf_is {x : Num} {d : ℝ} (h : Num.Is x d) (m u : ℝ) (hu : 0 < u) :
    Num.Is (normLogpdf m u x) (-((d - m) / u) ^ 2 / 2 - Real.log (Real.sqrt (2 * Real.pi)) - Real.log u) :=
  (((((h.sub (is_fin m)).div (is_fin u) hu.ne').npow 2).neg.div (is_fin 2) two_ne_zero).sub (is_fin (Real.log (Real.sqrt (2 * Real.pi))))).sub (is_fin (Real.log u))

/-! ### moving, turning and scaling -/

theorem carried_moved (c : Cam) (d : V3 ℝ) : Carried (· + d) 1 c (Lines.moved c d) := by
  refine ⟨rfl, rfl, rfl, fun P Q h => ?_⟩
  rw [camR_of_is c h]
  refine (cameraFromSpace_is _ (V3.is_num _)).congr ?_
  obtain ⟨h1, -, h3⟩ := Lines.moved_R c d
  unfold Camera.camR
  rw [h1, h3, mul1]
  congr 1
  ext <;> simp

theorem scaled_R (c : Cam) (k : ℝ) : (scaled c k).orient.mat.R = c.orient.mat.R ∧ (scaled c k).orient.pos = c.orient.pos.mulS k := by
  unfold scaled
  cases h : c.orient <;> refine ⟨rfl, ?_⟩ <;> ext <;> simp [scaledOrient, Orient.pos] <;> ring

theorem carried_scaled (c : Cam) (k : ℝ) : Carried (·.mulS k) k c (scaled c k) := by
  refine ⟨rfl, rfl, rfl, fun P Q h => ?_⟩
  rw [camR_of_is c h]
  refine (cameraFromSpace_is _ (V3.is_num _)).congr ?_
  obtain ⟨h1, h3⟩ := scaled_R c k
  unfold Camera.camR
  rw [h1, h3, ← M3.applyR_mulS]
  congr 1
  ext <;> simp <;> ring

theorem carried_turned (c : Cam) (o : Spatial.Params) (ho : c.orient = .thr o) (delta : ℝ) :
    Carried (Geo.clockwise (delta * Real.pi / 180)) 1 c { c with orient := .thr (rotateSpace o delta) } := by
  refine ⟨rfl, rfl, rfl, fun P Q h => ?_⟩
  rw [camR_of_is c h]
  set c' : Cam := { c with orient := .thr (rotateSpace o delta) } with hc'
  refine (cameraFromSpace_is c' (V3.is_num _)).congr ?_
  rw [mul1]
  have hm : c.orient.mat = Spatial.matrices o := by
    rw [ho]; exact (C12_heading_wrap o).2.2.2.2.1
  have hm' : c'.orient.mat = Spatial.matrices (rotateSpace o delta) :=
    (C12_heading_wrap (rotateSpace o delta)).2.2.2.2.1
  have hhead : Spatial.R_head (Spatial.rad (rotateSpace o delta).heading_deg) =
      Spatial.R_head (Spatial.rad (o.heading_deg + delta)) := by
    obtain ⟨k, hk⟩ := Spatial.wrap360_turns (o.heading_deg + delta)
    simp only [rotateSpace, hk, Spatial.R_head_turns]
  have hrad : delta * Real.pi / 180 = Spatial.rad delta := by unfold Spatial.rad; ring
  have hadd : Spatial.rad (o.heading_deg + delta) = Spatial.rad o.heading_deg + Spatial.rad delta := by
    unfold Spatial.rad; ring
  unfold Camera.camR
  rw [hm, hm']
  simp only [Spatial.matrices, Spatial.rotation]
  rw [hhead, hrad, hadd]
  have hsc := Real.sin_sq_add_cos_sq (Spatial.rad delta)
  have hpos' : c'.orient.pos = Geo.clockwise (Spatial.rad delta) c.orient.pos := by
    rw [ho]; simp [hc', Orient.pos, rotateSpace, Geo.clockwise]
  rw [hpos']
  set p0 := c.orient.pos
  have hR : ∀ v : V3 ℝ, (Spatial.R_head (Spatial.rad o.heading_deg + Spatial.rad delta)).applyR
      (Geo.clockwise (Spatial.rad delta) v) = (Spatial.R_head (Spatial.rad o.heading_deg)).applyR v := by
    intro v
    set d := Spatial.rad delta
    set h := Spatial.rad o.heading_deg
    simp only [Spatial.R_head, Real.cos_add, Real.sin_add, Geo.clockwise, M3.applyR, V3.dot]
    ext
    · simp only; grobner
    · simp only; grobner
    · simp
  have hlin : Geo.clockwise (Spatial.rad delta) P - Geo.clockwise (Spatial.rad delta) p0 =
      Geo.clockwise (Spatial.rad delta) (P - p0) := by
    ext <;> simp [Geo.clockwise] <;> ring
  have hmul : ∀ (A B : M3) (v : V3 ℝ), (M3.mul A B).applyR v = A.applyR (B.applyR v) := by
    intro A B v
    ext <;> simp [M3.mul, M3.rowMul, M3.T, M3.applyR, V3.dot] <;> ring
  rw [hlin, hmul, hmul, hR, hmul, hmul]
  rfl

end Similar

open Similar

/-- **C175** The numbers that `pointCorrespondenceError` gives for two pixels do not change when the whole world is moved, turned or scaled: with
`s = 1` this is a rigid motion, with `s > 0` a similarity, with `s < 0` the cameras change places with respect to what they see. -/
theorem C175_error {T : V3 ℝ → V3 ℝ} {s : ℝ} (hs : s ≠ 0) {c1 c2 c1' c2' : Cam} (t1 : Carried T s c1 c1') (t2 : Carried T s c2 c2')
    (h1 : c1.Proper) (h2 : c2.Proper) (k1 : c1.kind = .rectilinear) (k2 : c2.kind = .rectilinear) (l1 : c1.lens = noDistortion)
    (l2 : c2.lens = noDistortion) (q1 q2 : V2 ℝ) :
    (General c1 c2 q1 → General c1' c2' q1 → ∃ D, Num.Is (pointCorrespondenceError c1 c2 q1.num q2.num).1 D ∧
      Num.Is (pointCorrespondenceError c1' c2' q1.num q2.num).1 D) ∧
    (General c2 c1 q2 → General c2' c1' q2 → ∃ D, Num.Is (pointCorrespondenceError c1 c2 q1.num q2.num).2 D ∧
      Num.Is (pointCorrespondenceError c1' c2' q1.num q2.num).2 D) := by
  constructor
  · intro g g'
    obtain ⟨a, b⟩ := (general_iff h1 l1 c2 q1).1 g
    obtain ⟨-, b'⟩ := (general_iff (carried_proper t1 h1) (t1.2.2.1.trans l1) c2' q1).1 g'
    exact distance_same hs t1 t2 h1 h2 k2 l1 l2 q1 q2 false a (fun t ht => ⟨b t ht, by simp⟩) (fun t ht => ⟨b' t ht, by simp⟩)
  · intro g g'
    obtain ⟨a, b⟩ := (general_iff h2 l2 c1 q2).1 g
    obtain ⟨-, b'⟩ := (general_iff (carried_proper t2 h2) (t2.2.2.1.trans l2) c1' q2).1 g'
    exact distance_same hs t2 t1 h2 h1 k1 l2 l1 q2 q1 false a (fun t ht => ⟨b t ht, by simp⟩) (fun t ht => ⟨b' t ht, by simp⟩)

/-- **C175** (partial: before and after the change, the points of every viewing ray at depth 1 and 2 have to be in front of the other camera, see
`C175_scale_violated`) The term that `addPointCorrespondenceInformation` adds to the log probability does not change. -/
theorem C175_term_partial {T : V3 ℝ → V3 ℝ} {s : ℝ} (hs : s ≠ 0) {c1 c2 c1' c2' : Cam} (t1 : Carried T s c1 c1') (t2 : Carried T s c2 c2')
    (h1 : c1.Proper) (h2 : c2.Proper) (k1 : c1.kind = .rectilinear) (k2 : c2.kind = .rectilinear) (l1 : c1.lens = noDistortion)
    (l2 : c2.lens = noDistortion) (qs : List (V2 ℝ × V2 ℝ)) (u : ℝ) (hu : 0 < u)
    (ha : ∀ q ∈ qs, Ahead c1 c2 q.1 ∧ Ahead c2 c1 q.2) (ha' : ∀ q ∈ qs, Ahead c1' c2' q.1 ∧ Ahead c2' c1' q.2) :
    ∃ L, Num.Is (correspondenceTerm c1 c2 (qs.map fun q => (q.1.num, q.2.num)) u) L ∧
      Num.Is (correspondenceTerm c1' c2' (qs.map fun q => (q.1.num, q.2.num)) u) L := by
  unfold correspondenceTerm
  simp only [List.map_map]
  obtain ⟨x, x1, x2⟩ := npsum_same qs (fun q => normLogpdf 0 u (epipolarDistance c1 c2 q.1.num q.2.num true))
    (fun q => normLogpdf 0 u (epipolarDistance c1' c2' q.1.num q.2.num true)) (fun q hq => by
      obtain ⟨a, b⟩ := (ahead_iff h1 l1 c2 q.1).1 (ha q hq).1
      obtain ⟨-, b'⟩ := (ahead_iff (carried_proper t1 h1) (t1.2.2.1.trans l1) c2' q.1).1 (ha' q hq).1
      obtain ⟨D, d1, d2⟩ := distance_same hs t1 t2 h1 h2 k2 l1 l2 q.1 q.2 true a (fun t ht => ⟨(b t ht).deep.1, fun _ => b t ht⟩)
        (fun t ht => ⟨(b' t ht).deep.1, fun _ => b' t ht⟩)
      exact ⟨_, logpdf_is d1 0 u hu, logpdf_is d2 0 u hu⟩)
  obtain ⟨y, y1, y2⟩ := npsum_same qs (fun q => normLogpdf 0 u (epipolarDistance c2 c1 q.2.num q.1.num true))
    (fun q => normLogpdf 0 u (epipolarDistance c2' c1' q.2.num q.1.num true)) (fun q hq => by
      obtain ⟨a, b⟩ := (ahead_iff h2 l2 c1 q.2).1 (ha q hq).2
      obtain ⟨-, b'⟩ := (ahead_iff (carried_proper t2 h2) (t2.2.2.1.trans l2) c1' q.2).1 (ha' q hq).2
      obtain ⟨D, d1, d2⟩ := distance_same hs t2 t1 h2 h1 k1 l2 l1 q.2 q.1 true a (fun t ht => ⟨(b t ht).deep.1, fun _ => b t ht⟩)
        (fun t ht => ⟨(b' t ht).deep.1, fun _ => b' t ht⟩)
      exact ⟨_, logpdf_is d1 0 u hu, logpdf_is d2 0 u hu⟩)
  exact ⟨_, ((is_fin 0).add x1).add y1, ((is_fin 0).add x2).add y2⟩

/-- **C175** Moving both cameras by the same vector does not change the term: correspondences do not tell where the cameras are. -/
theorem C175_moved {c1 c2 : Cam} (h1 : c1.Proper) (h2 : c2.Proper) (k1 : c1.kind = .rectilinear) (k2 : c2.kind = .rectilinear)
    (l1 : c1.lens = noDistortion) (l2 : c2.lens = noDistortion) (qs : List (V2 ℝ × V2 ℝ)) (u : ℝ) (hu : 0 < u)
    (ha : ∀ q ∈ qs, Ahead c1 c2 q.1 ∧ Ahead c2 c1 q.2) (d : V3 ℝ) :
    ∃ L, Num.Is (correspondenceTerm c1 c2 (qs.map fun q => (q.1.num, q.2.num)) u) L ∧
      Num.Is (correspondenceTerm (Lines.moved c1 d) (Lines.moved c2 d) (qs.map fun q => (q.1.num, q.2.num)) u) L :=
  C175_term_partial one_ne_zero (carried_moved c1 d) (carried_moved c2 d) h1 h2 k1 k2 l1 l2 qs u hu ha fun q hq =>
    ⟨(rigid (carried_moved c1 d) (carried_moved c2 d) h1 l1 q.1).2 (ha q hq).1, (rigid (carried_moved c2 d) (carried_moved c1 d) h2 l2 q.2).2 (ha q hq).2⟩

/-- **C175** `rotateSpace` with the same angle for both cameras does not change the term: correspondences do not tell in which direction the
cameras look. -/
theorem C175_turned {c1 c2 : Cam} (o1 o2 : Spatial.Params) (e1 : c1.orient = .thr o1) (e2 : c2.orient = .thr o2) (h1 : c1.Proper) (h2 : c2.Proper)
    (k1 : c1.kind = .rectilinear) (k2 : c2.kind = .rectilinear) (l1 : c1.lens = noDistortion) (l2 : c2.lens = noDistortion)
    (qs : List (V2 ℝ × V2 ℝ)) (u : ℝ) (hu : 0 < u) (ha : ∀ q ∈ qs, Ahead c1 c2 q.1 ∧ Ahead c2 c1 q.2) (delta : ℝ) :
    ∃ L, Num.Is (correspondenceTerm c1 c2 (qs.map fun q => (q.1.num, q.2.num)) u) L ∧
      Num.Is (correspondenceTerm { c1 with orient := .thr (rotateSpace o1 delta) } { c2 with orient := .thr (rotateSpace o2 delta) }
        (qs.map fun q => (q.1.num, q.2.num)) u) L :=
  C175_term_partial one_ne_zero (carried_turned c1 o1 e1 delta) (carried_turned c2 o2 e2 delta) h1 h2 k1 k2 l1 l2 qs u hu ha fun q hq =>
    ⟨(rigid (carried_turned c1 o1 e1 delta) (carried_turned c2 o2 e2 delta) h1 l1 q.1).2 (ha q hq).1,
     (rigid (carried_turned c2 o2 e2 delta) (carried_turned c1 o1 e1 delta) h2 l2 q.2).2 (ha q hq).2⟩

/-- **C175** is violated for scaling: if the first camera is behind the second one, there is a size of the world beyond which the term is not a
number and the log probability of the group is minus infinity, whatever the pixels and the other terms are. -/
theorem C175_scale_violated {c1 c2 : Cam} (h1 : c1.Proper) (k2 : c2.kind = .rectilinear) (l1 : c1.lens = noDistortion) (l2 : c2.lens = noDistortion)
    (hb : Behind c2 c1.orient.pos) (q : V2 ℝ) : ∃ k0 : ℝ, 0 < k0 ∧ ∀ k, k0 < k → ∀ (p : V2 Num) (qs : List (V2 Num × V2 Num)) (u : ℝ),
      (q.num, p) ∈ qs → correspondenceTerm (scaled c1 k) (scaled c2 k) qs u = .nan ∧
        ∀ own cams, correspondenceTerm (scaled c1 k) (scaled c2 k) qs u ∈ own → Stat.groupLogProbability own cams = .ninf := by
  obtain ⟨Q, hQ, hz⟩ := hb
  rw [camR_of_is c2 hQ] at hz
  have hm : (0 : ℝ) < Projection.minDepth := by norm_num [Projection.minDepth]
  set C := Camera.camR c2 c1.orient.pos with hC
  set D := c2.orient.mat.R.applyR (dirR c1 q) with hD
  have hCz : 0 < C.z := by linarith
  refine ⟨(|D.z| + Projection.minDepth) / C.z, by positivity, fun k hk p qs u hq => ?_⟩
  have hk' : |D.z| + Projection.minDepth < k * C.z := (div_lt_iff₀ hCz).1 hk
  have kpos : 0 < k := lt_trans (by positivity) hk
  obtain ⟨a, b⟩ := parts_carried kpos.ne' (carried_scaled c1 k) (carried_scaled c2 k) q
  have hr := ray_is (carried_proper (carried_scaled c1 k) h1) ((carried_scaled c1 k).2.2.1.trans l1) q
  have hA : Behind (scaled c2 k) ((scaled c1 k).orient.pos + (dirR (scaled c1 k) q).mulS 1) := by
    refine ⟨_, cameraFromSpace_is _ (V3.is_num _), ?_⟩
    rw [affine, a, b]
    simp only [V3.add_z, V3.mulS_z]
    rw [← hC, ← hD]
    have := neg_abs_le D.z
    nlinarith
  have hi := image_hidden (scaled c2 k) k2 l2 ((getRay_offset (scaled c1 k) q.num false).add (hr.mulS (is_fin 1))) hA
  have hd : epipolarDistance (scaled c1 k) (scaled c2 k) q.num p true = .nan := by
    unfold epipolarDistance
    simp only [hi]
    simp [norm2, sub2, closestOnLine, V2.nan]
  have hnan : correspondenceTerm (scaled c1 k) (scaled c2 k) qs u = .nan := by
    have hm : Num.nan ∈ qs.map fun q => normLogpdf 0 u (epipolarDistance (scaled c1 k) (scaled c2 k) q.1 q.2 true) := by
      refine List.mem_map.2 ⟨_, hq, ?_⟩
      simp only [hd]
      simp [normLogpdf, Num.npow]
    unfold correspondenceTerm
    rw [npsum_nan hm]
    simp
  refine ⟨hnan, fun own cams hin => ?_⟩
  unfold Stat.groupLogProbability
  rw [npsum_nan (hnan ▸ hin)]
  simp

/-- **C175** (partial: the cameras must not be above each other, see `C175_baseline_violated`) A known baseline fixes the size: of all sizes of the
world the term of `addBaselineInformation` is largest for exactly the one for which the cameras have this horizontal distance. -/
theorem C175_baseline_partial (c1 c2 : Cam) (target u : ℝ) (ht : 0 < target) (hu : 0 < u)
    (hne : c1.orient.pos.x ≠ c2.orient.pos.x ∨ c1.orient.pos.y ≠ c2.orient.pos.y) :
    ∃ (k0 best : ℝ), 0 < k0 ∧ (∀ k, 0 < k → ∃ l, Num.Is (baselineTerm (scaled c1 k) (scaled c2 k) target u) l ∧ l ≤ best ∧ (l = best ↔ k = k0)) ∧
      Num.Is (getBaseline (scaled c1 k0) (scaled c2 k0)) target := by
  set r := (c1.orient.pos.x - c2.orient.pos.x) ^ 2 + (c1.orient.pos.y - c2.orient.pos.y) ^ 2 with hr
  have hr0 : 0 < r := by
    rcases hne with h | h
    · have := sub_ne_zero.2 h; positivity
    · have := sub_ne_zero.2 h; positivity
  have hb : ∀ k, 0 < k → Num.Is (getBaseline (scaled c1 k) (scaled c2 k)) (k * Real.sqrt r) := by
    intro k hk
    have e1 := (scaled_R c1 k).2
    have e2 := (scaled_R c2 k).2
    refine ((((is_fin (scaled c1 k).orient.pos.x).sub (is_fin (scaled c2 k).orient.pos.x)).npow 2 |>.add
      (((is_fin (scaled c1 k).orient.pos.y).sub (is_fin (scaled c2 k).orient.pos.y)).npow 2)).sqrt (by positivity)).congr ?_
    rw [e1, e2, ← Real.sqrt_sq hk.le, ← Real.sqrt_mul (sq_nonneg k)]
    congr 1
    simp only [V3.mulS_x, V3.mulS_y, hr]
    rw [Real.sqrt_sq hk.le]; ring
  have hs := Real.sqrt_pos.2 hr0
  set b := Real.sqrt r
  refine ⟨target / b, -Real.log (Real.sqrt (2 * Real.pi)) - Real.log u, by positivity, fun k hk => ⟨_, logpdf_is (hb k hk) target u hu, ?_, ?_⟩, ?_⟩
  · have := sq_nonneg ((k * b - target) / u)
    linarith
  · constructor
    · intro h
      have h0 : ((k * b - target) / u) ^ 2 = 0 := by linarith
      have h1 := (div_eq_zero_iff.1 (pow_eq_zero_iff two_ne_zero |>.1 h0)).resolve_right hu.ne'
      rw [eq_div_iff hs.ne']; linarith
    · rintro rfl
      rw [div_mul_cancel₀ _ hs.ne', sub_self, zero_div]
      ring
  · have := hb (target / b) (by positivity)
    rwa [div_mul_cancel₀ _ hs.ne'] at this

/-- **C175** is violated for cameras above each other: the term of `addBaselineInformation` is the same for all sizes. -/
theorem C175_baseline_violated (c1 c2 : Cam) (target u : ℝ) (hu : 0 < u) (hx : c1.orient.pos.x = c2.orient.pos.x) (hy : c1.orient.pos.y = c2.orient.pos.y) :
    ∃ l, ∀ k, Num.Is (baselineTerm (scaled c1 k) (scaled c2 k) target u) l := by
  refine ⟨_, fun k => logpdf_is (d := 0) ?_ target u hu⟩
  refine ((((is_fin (scaled c1 k).orient.pos.x).sub (is_fin (scaled c2 k).orient.pos.x)).npow 2 |>.add
    (((is_fin (scaled c1 k).orient.pos.y).sub (is_fin (scaled c2 k).orient.pos.y)).npow 2)).sqrt (by positivity)).congr ?_
  rw [(scaled_R c1 k).2, (scaled_R c2 k).2]
  simp [hx, hy]

theorem Similar.example_ahead (q : V2 ℝ) (hq : q.y ≠ 25) : Ahead exampleCam exampleCam2 q ∧ Ahead exampleCam2 exampleCam q := by
  have hw : Spatial.wrap360 0 = 0 := by simp [Spatial.wrap360]
  have hr : Spatial.rad 0 = 0 := by simp [Spatial.rad]
  have hd : ∀ c : Cam, c = exampleCam ∨ c = exampleCam2 → dirR c q = ⟨(q.x - 50) / 100, -(q.y - 25) / 100, -1⟩ := by
    rintro c (rfl | rfl) <;>
    ext <;> simp [dirR, Projection.rayR, exampleCam, exampleCam2, Orient.mat, Spatial.initCameraMatrix, Spatial.matrices, hw, hr,
      M3.applyR, V3.dot, Spatial.rotation, M3.mul, M3.rowMul, M3.T, Spatial.R_roll, Spatial.R_tilt, Spatial.R_head] <;> ring
  have hz : ∀ c : Cam, c = exampleCam ∨ c = exampleCam2 → ∀ P : V3 ℝ, (Camera.camR c P).z = P.z - 10 := by
    rintro c (rfl | rfl) P
    · rw [exampleCam_camR]
    · rw [exampleCam2_camR]
  have p1 : exampleCam.orient.pos = ⟨0, 0, 10⟩ := rfl
  have p2 : exampleCam2.orient.pos = ⟨3, 0, 10⟩ := rfl
  have hne : -(q.y - 25) / 100 ≠ 0 := by
    intro h
    apply hq
    linarith
  have pr2 : exampleCam2.Proper := by constructor <;> simp [exampleCam2]
  constructor
  · rw [ahead_iff exampleCam_proper rfl]
    refine ⟨?_, ?_⟩
    · rw [hd _ (.inl rfl), p1, p2]
      intro h
      have := congrArg V3.z h
      simp [V3.cross] at this
      apply hne; linarith
    · rintro t (rfl | rfl) <;> rw [front_iff, hz _ (.inr rfl), hd _ (.inl rfl), p1] <;> norm_num [Projection.minDepth]
  · rw [ahead_iff pr2 rfl]
    refine ⟨?_, ?_⟩
    · rw [hd _ (.inr rfl), p1, p2]
      intro h
      have := congrArg V3.z h
      simp [V3.cross] at this
      apply hne; linarith
    · rintro t (rfl | rfl) <;> rw [front_iff, hz _ (.inl rfl), hd _ (.inr rfl), p2] <;> norm_num [Projection.minDepth]

theorem Similar.example_scaled (q : V2 ℝ) (hq : q.y ≠ 25) (k : ℝ) (hk : k ≠ 0) : Ahead (scaled exampleCam k) (scaled exampleCam2 k) q ∧
    Ahead (scaled exampleCam2 k) (scaled exampleCam k) q := by
  obtain ⟨a, b⟩ := example_ahead q hq
  have pr2 : exampleCam2.Proper := by constructor <;> simp [exampleCam2]
  have key : ∀ ci cj : Cam, ci.Proper → ci.lens = noDistortion → (Camera.camR cj ci.orient.pos).z = 0 → Ahead ci cj q →
      Ahead (scaled ci k) (scaled cj k) q := by
    intro ci cj pi li h0 h
    rw [ahead_iff (carried_proper (carried_scaled ci k) pi) ((carried_scaled ci k).2.2.1.trans li)]
    rw [ahead_iff pi li] at h
    refine ⟨cross_carried hk (carried_scaled ci k) (carried_scaled cj k) h.1, fun t ht => ?_⟩
    have := h.2 t ht
    obtain ⟨x, y⟩ := parts_carried hk (carried_scaled ci k) (carried_scaled cj k) q
    rw [front_iff, affine] at this ⊢
    rw [x, y]
    simp only [V3.add_z, V3.mulS_z, h0] at this ⊢
    linarith
  refine ⟨key _ _ exampleCam_proper rfl ?_ a, key _ _ pr2 rfl ?_ b⟩
  · rw [exampleCam2_camR]; simp [exampleCam, Orient.pos]
  · rw [exampleCam_camR]; simp [exampleCam2, Orient.pos]

/-- Cameras beside each other: any size, also negative, that is with the cameras exchanged. -/
example (k : ℝ) (hk : k ≠ 0) : ∃ L, Num.Is (correspondenceTerm exampleCam exampleCam2 [(V2.num ⟨60, 30⟩, V2.num ⟨40, 30⟩)] 1) L ∧
    Num.Is (correspondenceTerm (scaled exampleCam k) (scaled exampleCam2 k) [(V2.num ⟨60, 30⟩, V2.num ⟨40, 30⟩)] 1) L :=
  C175_term_partial hk (carried_scaled _ k) (carried_scaled _ k) exampleCam_proper (by constructor <;> simp [exampleCam2]) rfl rfl rfl rfl
    [(⟨60, 30⟩, ⟨40, 30⟩)] 1 one_pos
    (by simpa using ⟨(example_ahead ⟨60, 30⟩ (by norm_num)).1, (example_ahead ⟨40, 30⟩ (by norm_num)).2⟩)
    (by simpa using ⟨(example_scaled ⟨60, 30⟩ (by norm_num) k hk).1, (example_scaled ⟨40, 30⟩ (by norm_num) k hk).2⟩)

theorem Similar.Ahead.general {c1 c2 : Cam} {q : V2 ℝ} (h : Ahead c1 c2 q) : General c1 c2 q := by
  obtain ⟨d, h1, h2, h3, h4⟩ := h
  exact ⟨d, h1, h2, h3.deep.1, h4.deep.1⟩

example (k : ℝ) (hk : k ≠ 0) : ∃ D, Num.Is (pointCorrespondenceError exampleCam exampleCam2 (V2.num ⟨60, 30⟩) (V2.num ⟨40, 30⟩)).1 D ∧
    Num.Is (pointCorrespondenceError (scaled exampleCam k) (scaled exampleCam2 k) (V2.num ⟨60, 30⟩) (V2.num ⟨40, 30⟩)).1 D :=
  (C175_error hk (carried_scaled _ k) (carried_scaled _ k) exampleCam_proper (by constructor <;> simp [exampleCam2]) rfl rfl rfl rfl ⟨60, 30⟩ ⟨40, 30⟩).1
    (example_ahead _ (by norm_num)).1.general (example_scaled _ (by norm_num) k hk).1.general

example (d : V3 ℝ) : ∃ L, Num.Is (correspondenceTerm exampleCam exampleCam2 [(V2.num ⟨60, 30⟩, V2.num ⟨40, 30⟩)] 1) L ∧
    Num.Is (correspondenceTerm (Lines.moved exampleCam d) (Lines.moved exampleCam2 d) [(V2.num ⟨60, 30⟩, V2.num ⟨40, 30⟩)] 1) L :=
  C175_moved exampleCam_proper (by constructor <;> simp [exampleCam2]) rfl rfl rfl rfl [(⟨60, 30⟩, ⟨40, 30⟩)] 1 one_pos
    (by simpa using ⟨(example_ahead ⟨60, 30⟩ (by norm_num)).1, (example_ahead ⟨40, 30⟩ (by norm_num)).2⟩) d

example (delta : ℝ) : ∃ L, Num.Is (correspondenceTerm exampleCam exampleCam2 [(V2.num ⟨60, 30⟩, V2.num ⟨40, 30⟩)] 1) L ∧
    Num.Is (correspondenceTerm { exampleCam with orient := .thr (rotateSpace ⟨10, 0, 0, 0, 0, 0⟩ delta) }
      { exampleCam2 with orient := .thr (rotateSpace ⟨10, 0, 0, 0, 3, 0⟩ delta) } [(V2.num ⟨60, 30⟩, V2.num ⟨40, 30⟩)] 1) L :=
  C175_turned _ _ rfl rfl exampleCam_proper (by constructor <;> simp [exampleCam2]) rfl rfl rfl rfl [(⟨60, 30⟩, ⟨40, 30⟩)] 1 one_pos
    (by simpa using ⟨(example_ahead ⟨60, 30⟩ (by norm_num)).1, (example_ahead ⟨40, 30⟩ (by norm_num)).2⟩) delta

/-- Two cameras above each other, looking down. -/
example : Behind exampleCam3 exampleCam.orient.pos := by
  refine ⟨_, cameraFromSpace_is exampleCam3 (V3.is_num _), ?_⟩
  rw [exampleCam3_camR]
  norm_num [exampleCam, Orient.pos, Projection.minDepth]

example : ∃ (k0 best : ℝ), 0 < k0 ∧ (∀ k, 0 < k → ∃ l, Num.Is (baselineTerm (scaled exampleCam k) (scaled exampleCam2 k) 6 1) l ∧ l ≤ best ∧
    (l = best ↔ k = k0)) ∧ Num.Is (getBaseline (scaled exampleCam k0) (scaled exampleCam2 k0)) 6 :=
  C175_baseline_partial exampleCam exampleCam2 6 1 (by norm_num) one_pos (.inl (by simp [exampleCam, exampleCam2, Orient.pos]))

example (target u : ℝ) (hu : 0 < u) : ∃ l, ∀ k, Num.Is (baselineTerm (scaled exampleCam k) (scaled exampleCam3 k) target u) l :=
  C175_baseline_violated exampleCam exampleCam3 target u hu rfl rfl
