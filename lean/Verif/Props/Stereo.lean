import Verif.Model.Stereo
import Verif.Spec.Stereo
import Verif.Props.Camera
import Verif.Props.Ray
import Verif.Props.Statistic
import Mathlib.Analysis.SpecialFunctions.Trigonometric.Angle

/-! # Properties of stereo cameras: C34, C35, C84, C93, C94, C95 -/

open Classical Num Camera Stereo

/-! ### C34 -/

theorem Stereo.cross_mulS (a b : V3 ℝ) (s t : ℝ) : V3.cross (a.mulS s) (b.mulS t) = (V3.cross a b).mulS (s * t) := by
  ext <;> simp [V3.cross] <;> ring

/-- The rays of the images of a point: they have the positions of the cameras as origins and meet in the point. -/
theorem Stereo.rays_meet (c1 c2 : Cam) (h1 : c1.Proper) (h2 : c2.Proper) (P : V3 ℝ) (v1 : Visible c1 P) (v2 : Visible c2 P)
    (hl1 : ∀ p : V2 ℝ, (Projection.imageFromCamera c1.kind c1.intr (Spatial.cameraFromSpace c1.orient.mat P.num)).Is p → c1.lens.ExactAt p)
    (hl2 : ∀ p : V2 ℝ, (Projection.imageFromCamera c2.kind c2.intr (Spatial.cameraFromSpace c2.orient.mat P.num)).Is p → c2.lens.ExactAt p) :
    ∃ d1 d2 u1 u2, 0 < u1 ∧ 0 < u2 ∧ (getRay c1 (imageFromSpace c1 P.num)).2.Is d1 ∧ (getRay c2 (imageFromSpace c2 P.num)).2.Is d2 ∧
      P = d1.mulS u1 + c1.orient.pos ∧ P = d2.mulS u2 + c2.orient.pos := by
  obtain ⟨p1, e1, f1⟩ := space_of_image c1 h1 (V3.is_num P) v1 true
  obtain ⟨p2, e2, f2⟩ := space_of_image c2 h2 (V3.is_num P) v2 true
  obtain ⟨u1, hu1, g1, i1⟩ := f1 (hl1 p1 e1)
  obtain ⟨u2, hu2, g2, i2⟩ := f2 (hl2 p2 e2)
  exact ⟨_, _, u1, u2, hu1, hu2, i1, i2, g1, g2⟩

theorem Stereo.intersect (c1 c2 : Cam) {P d1 d2 : V3 ℝ} {u1 u2 : ℝ} {n1 n2 : V3 Num} (hu1 : 0 < u1) (hu2 : 0 < u2) (i1 : n1.Is d1) (i2 : n2.Is d2)
    (g1 : P = d1.mulS u1 + c1.orient.pos) (g2 : P = d2.mulS u2 + c2.orient.pos) (hoff : OffBaseline c1 c2 P) {o1 o2 : V3 Num} (ho1 : o1.Is c1.orient.pos)
    (ho2 : o2.Is c2.orient.pos) : (Ray.intersectionSingle o1 n1 o2 n2).Is P := by
  have hne : d1.cross d2 ≠ ⟨0, 0, 0⟩ := by
    intro h0
    apply hoff
    have a1 : P - c1.orient.pos = d1.mulS u1 := by rw [g1]; ext <;> simp
    have a2 : P - c2.orient.pos = d2.mulS u2 := by
      calc P - c2.orient.pos = (d2.mulS u2 + c2.orient.pos) - c2.orient.pos := by rw [← g2]
        _ = d2.mulS u2 := by ext <;> simp
    rw [a1, a2, cross_mulS, h0]; ext <;> simp
  obtain ⟨s, t, -, j2, j3⟩ := Ray.intersection_spec ho1 i1 ho2 i2 hne
  have k1 : Geo.at' c1.orient.pos d1 u1 = P := by rw [g1]; ext <;> simp [Geo.at'] <;> ring
  have k2 : Geo.at' c2.orient.pos d2 u2 = P := by
    refine Eq.trans ?_ g2.symm
    ext <;> simp [Geo.at'] <;> ring
  obtain ⟨rfl, rfl⟩ := j3 u1 u2 (k1.trans k2.symm)
  rw [k1, k2] at j2
  exact j2.congr (by ext <;> simp)

/-- **C34** Triangulation of the two images of a point gives the point: for all pairs of cameras with any of the projections
and lenses that are exact at the images (in particular without distortion), and every point seen by both that is not on
the line through the cameras.  (The two rays are parallel only for points on that line, since both go through the point.) -/
theorem C34_triangulation (c1 c2 : Cam) (h1 : c1.Proper) (h2 : c2.Proper) (P : V3 ℝ) (v1 : Visible c1 P) (v2 : Visible c2 P)
    (hl1 : ∀ p : V2 ℝ, (Projection.imageFromCamera c1.kind c1.intr (Spatial.cameraFromSpace c1.orient.mat P.num)).Is p → c1.lens.ExactAt p)
    (hl2 : ∀ p : V2 ℝ, (Projection.imageFromCamera c2.kind c2.intr (Spatial.cameraFromSpace c2.orient.mat P.num)).Is p → c2.lens.ExactAt p)
    (hoff : OffBaseline c1 c2 P) :
    ∃ q1 q2, imagesFromSpace [c1, c2] P.num = [q1, q2] ∧ (spaceFromImages c1 c2 q1 q2).Is P := by
  refine ⟨_, _, rfl, ?_⟩
  obtain ⟨d1, d2, u1, u2, hu1, hu2, i1, i2, g1, g2⟩ := rays_meet c1 c2 h1 h2 P v1 v2 hl1 hl2
  exact intersect c1 c2 hu1 hu2 i1 i2 g1 g2 hoff (getRay_offset _ _ _) (getRay_offset _ _ _)

/-- **C34** for many points at once. -/
theorem C34_triangulation_batch (c1 c2 : Cam) (h1 : c1.Proper) (h2 : c2.Proper) (hl1 : c1.lens = noDistortion) (hl2 : c2.lens = noDistortion)
    (Ps : List (V3 ℝ)) (v1 : ∀ P ∈ Ps, Visible c1 P) (v2 : ∀ P ∈ Ps, Visible c2 P) (hoff : ∀ P ∈ Ps, OffBaseline c1 c2 P) :
    List.Forall₂ V3.Is (spaceFromImagesBatch c1 c2 (Ps.map fun P => (imageFromSpace c1 P.num, imageFromSpace c2 P.num))) Ps := by
  unfold spaceFromImagesBatch
  rw [C32_batch_equals_single, List.map_map, List.map_map]
  induction Ps with
  | nil => exact .nil
  | cons P Ps ih =>
    refine .cons ?_ (ih (fun Q h => v1 Q (by simp [h])) (fun Q h => v2 Q (by simp [h])) (fun Q h => hoff Q (by simp [h])))
    obtain ⟨d1, d2, u1, u2, hu1, hu2, i1, i2, g1, g2⟩ := rays_meet c1 c2 h1 h2 P (v1 P (by simp)) (v2 P (by simp))
      (fun p _ => by rw [hl1]; exact fun _ h => h) (fun p _ => by rw [hl2]; exact fun _ h => h)
    exact intersect c1 c2 hu1 hu2 i1 i2 g1 g2 (hoff P (by simp)) (getRay_offset c1 ⟨.nan, .nan⟩ false) (getRay_offset c2 ⟨.nan, .nan⟩ false)

/-- A second camera beside `exampleCam`. -/
noncomputable def Stereo.exampleCam2 : Cam :=
  ⟨.rectilinear, ⟨100, 100, 50, 25, 100, 50⟩, .thr ⟨10, 0, 0, 0, 3, 0⟩, noDistortion⟩

theorem Stereo.exampleCam2_camR (P : V3 ℝ) : camR exampleCam2 P = ⟨P.x - 3, P.y, P.z - 10⟩ := by
  have hw : Spatial.wrap360 0 = 0 := by simp [Spatial.wrap360]
  have hr : Spatial.rad 0 = 0 := by simp [Spatial.rad]
  ext <;> simp [camR, exampleCam2, Orient.mat, Orient.pos, Spatial.initCameraMatrix, Spatial.matrices, hw, hr,
    M3.applyR, V3.dot, Spatial.rotation, M3.mul, M3.rowMul, M3.T, Spatial.R_roll, Spatial.R_tilt, Spatial.R_head]

theorem Stereo.exampleCam2_visible (P : V3 ℝ) (h : P.z ≤ 9) : Visible exampleCam2 P := by
  have h0 := cameraFromSpace_is exampleCam2 (V3.is_num P)
  rw [exampleCam2_camR] at h0
  refine ⟨_, h0, ?_, fun _ => ?_⟩
  · rw [abs_of_neg (by show P.z - 10 < 0; linarith)]
    simp only [Projection.minDepth]; norm_num; linarith
  · show P.z - 10 < 0; linarith

theorem Stereo.example_off : OffBaseline exampleCam exampleCam2 ⟨1, 2, 3⟩ := by
  intro h
  have := congrArg V3.z h
  norm_num [V3.cross, exampleCam, exampleCam2, Orient.pos] at this

example : (spaceFromImages exampleCam exampleCam2 (imageFromSpace exampleCam (V3.num ⟨1, 2, 3⟩)) (imageFromSpace exampleCam2 (V3.num ⟨1, 2, 3⟩))).Is ⟨1, 2, 3⟩ := by
  obtain ⟨q1, q2, h, h'⟩ := C34_triangulation exampleCam exampleCam2 exampleCam_proper (by constructor <;> simp [exampleCam2]) ⟨1, 2, 3⟩
    (exampleCam_visible _ (by norm_num)) (exampleCam2_visible _ (by norm_num)) (fun _ _ _ h => h) (fun _ _ _ h => h) example_off
  cases h; exact h'

/-! ### C35 -/

theorem Stereo.closest_on {o v p : V2 Num} {O V : V2 ℝ} {l : ℝ} (ho : o.Is O) (hv : v.Is V) (hV : V.x ^ 2 + V.y ^ 2 ≠ 0)
    (hp : p.Is ⟨O.x + l * V.x, O.y + l * V.y⟩) : (closestOnLine o v p).Is ⟨O.x + l * V.x, O.y + l * V.y⟩ := by
  have hpos : 0 < V.x * V.x + V.y * V.y := by
    have : V.x * V.x + V.y * V.y ≠ 0 := by intro h; apply hV; linarith
    exact lt_of_le_of_ne (add_nonneg (mul_self_nonneg _) (mul_self_nonneg _)) (Ne.symm this)
  have hn : Num.Is (norm2 v) (Real.sqrt (V.x * V.x + V.y * V.y)) := ((hv.1.mul hv.1).add (hv.2.mul hv.2)).sqrt hpos.le
  have hs : 0 < Real.sqrt (V.x * V.x + V.y * V.y) := Real.sqrt_pos.2 hpos
  have hsq := Real.mul_self_sqrt hpos.le
  set r := Real.sqrt (V.x * V.x + V.y * V.y)
  have hx := hv.1.div hn hs.ne'
  have hy := hv.2.div hn hs.ne'
  have hf := (hx.mul (hp.1.sub ho.1)).add (hy.mul (hp.2.sub ho.2))
  have e : V.x / r * (O.x + l * V.x - O.x) + V.y / r * (O.y + l * V.y - O.y) = l * r := by
    field_simp
    linear_combination (-l) * hsq
  have hf' := hf.congr e
  refine ⟨(ho.1.add (hf'.mul hx)).congr ?_, (ho.2.add (hf'.mul hy)).congr ?_⟩ <;> simp only <;> field_simp

theorem Stereo.dist_zero {a b : V2 Num} {q : V2 ℝ} (ha : a.Is q) (hb : b.Is q) : Num.Is (norm2 (sub2 a b)) 0 := by
  have h := (((ha.1.sub hb.1).mul (ha.1.sub hb.1)).add ((ha.2.sub hb.2).mul (ha.2.sub hb.2))).sqrt (by simp)
  exact h.congr (by simp)

theorem Camera.OffBaseline.symm {c1 c2 : Cam} {P : V3 ℝ} (h : OffBaseline c1 c2 P) : OffBaseline c2 c1 P := by
  intro h0
  apply h
  have hx := congrArg V3.x h0
  have hy := congrArg V3.y h0
  have hz := congrArg V3.z h0
  simp only [V3.cross, V3.sub_x, V3.sub_y, V3.sub_z] at hx hy hz
  ext <;> simp [V3.cross] <;> linarith

theorem V3.eq_zero_of_normSq {a : V3 ℝ} (h : a.normSq = 0) : a = ⟨0, 0, 0⟩ := by
  unfold V3.normSq at h
  ext <;> simp only <;> nlinarith [sq_nonneg a.x, sq_nonneg a.y, sq_nonneg a.z]

theorem V3.normSq_cross (a b : V3 ℝ) : (V3.cross a b).normSq = a.normSq * b.normSq - ((a + b).normSq - a.normSq - b.normSq) ^ 2 / 4 := by
  simp [V3.cross, V3.normSq]; ring

theorem M3.normSq_cross_applyR {A : M3} (hA : M3.mul A.T A = M3.one) (a b : V3 ℝ) :
    (V3.cross (A.applyR a) (A.applyR b)).normSq = (V3.cross a b).normSq := by
  rw [V3.normSq_cross, V3.normSq_cross, ← M3.applyR_add, M3.normSq_applyR hA, M3.normSq_applyR hA, M3.normSq_applyR hA]

theorem Stereo.image_rect (c : Cam) (hk : c.kind = .rectilinear) (hl : c.lens = noDistortion) {n : V3 Num} {P : V3 ℝ} (hn : n.Is P)
    (hd : Projection.minDepth ≤ |(camR c P).z|) (hide : Bool) (hh : hide = true → (camR c P).z < 0) :
    (imageFromSpace c n hide).Is ⟨-(camR c P).x * c.intr.fx / (camR c P).z + c.intr.cx, (camR c P).y * c.intr.fy / (camR c P).z + c.intr.cy⟩ := by
  have h := cameraFromSpace_is c hn
  unfold imageFromSpace
  rw [hl, hk]
  show (Projection.imageFromCameraRect c.intr _ hide).Is _
  unfold Projection.imageFromCameraRect
  rw [Projection.snap_far h hd]
  refine Projection.projRect_is h ?_ hide hh
  intro h0; rw [h0] at hd; simp [Projection.minDepth] at hd; norm_num at hd

theorem Stereo.deep_depth (c : Cam) {P : V3 ℝ} (h : Deep c P) : Projection.minDepth ≤ |(camR c P).z| := by
  obtain ⟨Q, hQ, hz⟩ := h
  rw [camR_of_is c hQ] at hz; exact hz

theorem Stereo.ep_diff (a b c d f k : ℝ) (h1 : c + d ≠ 0) (h2 : c * 2 + d ≠ 0) :
    (a * 2 + b) * f / (c * 2 + d) + k - ((a + b) * f / (c + d) + k) = f * (a * d - b * c) / ((c * 2 + d) * (c + d)) := by
  rw [eq_div_iff (mul_ne_zero h2 h1)]
  have e2 := div_mul_cancel₀ ((a * 2 + b) * f) h2
  have e1 := div_mul_cancel₀ ((a + b) * f) h1
  linear_combination (c + d) * e2 - (c * 2 + d) * e1

theorem Stereo.ep_lam (a b c d f k u : ℝ) (h1 : c + d ≠ 0) (h2 : c * 2 + d ≠ 0) (hu : c * u + d ≠ 0) :
    (a * u + b) * f / (c * u + d) + k = (a + b) * f / (c + d) + k + (u - 1) * (c * 2 + d) / (c * u + d) *
      ((a * 2 + b) * f / (c * 2 + d) + k - ((a + b) * f / (c + d) + k)) := by
  rw [ep_diff a b c d f k h1 h2]
  have e : (u - 1) * (c * 2 + d) / (c * u + d) * (f * (a * d - b * c) / ((c * 2 + d) * (c + d))) =
      (u - 1) * (f * (a * d - b * c)) / ((c * u + d) * (c + d)) := by
    rw [div_mul_div_comm, div_eq_div_iff (by positivity) (by positivity)]; ring
  rw [e]
  apply mul_right_cancel₀ (mul_ne_zero hu h1)
  have e3 := div_mul_cancel₀ ((u - 1) * (f * (a * d - b * c))) (mul_ne_zero hu h1)
  have e2 := div_mul_cancel₀ ((a * u + b) * f) hu
  have e1 := div_mul_cancel₀ ((a + b) * f) h1
  linear_combination (c + d) * e2 - (c * u + d) * e1 - e3

/-- The image of a point of the ray of `qi` in the camera `cj` lies on the epipolar line computed from the points at depth 1
and 2. -/
theorem Stereo.epipolar_zero (ci cj : Cam) (hi : ci.Proper) (hj : cj.Proper) (ki : ci.kind = .rectilinear) (kj : cj.kind = .rectilinear)
    (li : ci.lens = noDistortion) (lj : cj.lens = noDistortion) (P : V3 ℝ) (vi : Visible ci P) (vj : Visible cj P) (hoff : OffBaseline ci cj P)
    (hide : Bool) (hdeep : ∀ A t, t = 1 ∨ t = 2 → Geo.OnLine ci.orient.pos (P - ci.orient.pos) A → AtDepth ci A t →
      Deep cj A ∧ (hide = true → ∃ Q : V3 ℝ, (Spatial.cameraFromSpace cj.orient.mat A.num).Is Q ∧ Q.z < 0)) :
    Num.Is (epipolarDistance ci cj (imageFromSpace ci P.num) (imageFromSpace cj P.num) hide) 0 := by
  obtain ⟨p, e1, f1⟩ := space_of_image ci hi (V3.is_num P) vi true
  obtain ⟨u, hu, g, hr⟩ := f1 (by rw [li]; exact fun _ h => h)
  have ho := getRay_offset ci (imageFromSpace ci P.num) false
  set A : ℝ → V3 ℝ := fun t => (dirR ci p).mulS t + ci.orient.pos with hA
  have hAP : A u = P := g.symm
  have hd : ∀ t, t = 1 ∨ t = 2 → Projection.minDepth ≤ |(camR cj (A t)).z| ∧ (hide = true → (camR cj (A t)).z < 0) := by
    intro t ht
    have := hdeep (A t) t ht ⟨t / u, ?_⟩ ?_
    · refine ⟨deep_depth cj this.1, fun h => ?_⟩
      obtain ⟨Q, hQ, hz⟩ := this.2 h
      rw [camR_of_is cj hQ] at hz; exact hz
    · refine ⟨?_, ?_, ?_⟩ <;> (simp only [hA, g]; simp; field_simp; try ring)
    · refine ⟨_, cameraFromSpace_is ci (V3.is_num _), ?_⟩
      rw [hA, camR_on_ray, ki]
      simp [Projection.rayR]
  -- camera coordinates in the second camera are affine along the ray
  set C := camR cj ci.orient.pos with hC
  set D := cj.orient.mat.R.applyR (dirR ci p) with hD
  have aff : ∀ t, camR cj (A t) = D.mulS t + C := by
    intro t
    simp only [hC, hD, camR, hA]
    rw [← M3.applyR_mulS, ← M3.applyR_add]
    congr 1
    ext <;> simp <;> ring
  obtain ⟨d1, n1⟩ := hd 1 (Or.inl rfl)
  obtain ⟨d2, n2⟩ := hd 2 (Or.inr rfl)
  obtain ⟨QP, hQP, dP, nP⟩ := vj
  rw [camR_of_is cj hQP] at dP nP
  have nz : ∀ x : ℝ, Projection.minDepth ≤ |x| → x ≠ 0 := by
    rintro x h rfl; simp [Projection.minDepth] at h; norm_num at h
  have hu1 := nz _ dP
  rw [← hAP, aff] at hu1
  have hz1 := nz _ d1
  rw [aff] at hz1
  have hz2 := nz _ d2
  rw [aff] at hz2
  simp only [V3.add_z, V3.mulS_z, mul_one] at hu1 hz1 hz2
  have i1 := image_rect cj kj lj (P := A 1) ((ho.add (hr.mulS (is_fin 1))).congr (by simp only [hA]; ext <;> simp <;> ring)) d1 hide n1
  have i2 := image_rect cj kj lj (P := A 2) ((ho.add (hr.mulS (is_fin 2))).congr (by simp only [hA]; ext <;> simp <;> ring)) d2 hide n2
  have iu := image_rect cj kj lj (P := P) (V3.is_num P) dP true (fun _ => nP kj)
  rw [show camR cj P = D.mulS u + C from hAP ▸ aff u] at iu
  simp only [aff, V3.add_x, V3.add_y, V3.add_z, V3.mulS_x, V3.mulS_y, V3.mulS_z, mul_one] at i1 i2 iu
  have hcr : V3.cross D C ≠ ⟨0, 0, 0⟩ := by
    intro h0
    apply hoff
    have hn := M3.normSq_cross_applyR (rigid_mat cj.orient).TR (dirR ci p) (ci.orient.pos - cj.orient.pos)
    rw [show cj.orient.mat.R.applyR (ci.orient.pos - cj.orient.pos) = C from rfl, show cj.orient.mat.R.applyR (dirR ci p) = D from rfl, h0] at hn
    have hz := V3.eq_zero_of_normSq (hn.symm.trans (by simp [V3.normSq]))
    have hx := congrArg V3.x hz
    have hy := congrArg V3.y hz
    have hz := congrArg V3.z hz
    simp only [V3.cross, V3.sub_x, V3.sub_y, V3.sub_z] at hx hy hz
    rw [g]
    ext <;> simp [V3.cross]
    · linear_combination u * hx
    · linear_combination u * hy
    · linear_combination u * hz
  have hV : (D.x * C.z - C.x * D.z) ^ 2 + (D.y * C.z - C.y * D.z) ^ 2 ≠ 0 := by
    intro h0
    have hx : D.x * C.z - C.x * D.z = 0 := by nlinarith [sq_nonneg (D.x * C.z - C.x * D.z), sq_nonneg (D.y * C.z - C.y * D.z)]
    have hy : D.y * C.z - C.y * D.z = 0 := by nlinarith [sq_nonneg (D.x * C.z - C.x * D.z), sq_nonneg (D.y * C.z - C.y * D.z)]
    apply hcr
    have h1 : (D.x * C.y - D.y * C.x) * (D.z + C.z) = 0 := by linear_combination (C.y + D.y) * hx - (C.x + D.x) * hy
    have hz := (mul_eq_zero.1 h1).resolve_right hz1
    ext <;> simp only [V3.cross]
    · linear_combination hy
    · linear_combination -hx
    · exact hz
  set l := (u - 1) * (D.z * 2 + C.z) / (D.z * u + C.z) with hl
  have hq : (⟨-(D.x * u + C.x) * cj.intr.fx / (D.z * u + C.z) + cj.intr.cx, (D.y * u + C.y) * cj.intr.fy / (D.z * u + C.z) + cj.intr.cy⟩ : V2 ℝ) =
      ⟨-(D.x + C.x) * cj.intr.fx / (D.z + C.z) + cj.intr.cx + l * (-(D.x * 2 + C.x) * cj.intr.fx / (D.z * 2 + C.z) + cj.intr.cx -
          (-(D.x + C.x) * cj.intr.fx / (D.z + C.z) + cj.intr.cx)),
        (D.y + C.y) * cj.intr.fy / (D.z + C.z) + cj.intr.cy + l * ((D.y * 2 + C.y) * cj.intr.fy / (D.z * 2 + C.z) + cj.intr.cy -
          ((D.y + C.y) * cj.intr.fy / (D.z + C.z) + cj.intr.cy))⟩ := by
    ext
    · have := ep_lam (-D.x) (-C.x) D.z C.z cj.intr.fx cj.intr.cx u hz1 hz2 hu1
      simp only [hl]
      rw [show -(D.x * u + C.x) = -D.x * u + -C.x by ring, show -(D.x * 2 + C.x) = -D.x * 2 + -C.x by ring,
        show -(D.x + C.x) = -D.x + -C.x by ring]
      exact this
    · exact ep_lam D.y C.y D.z C.z cj.intr.fy cj.intr.cy u hz1 hz2 hu1
  unfold epipolarDistance
  refine dist_zero (closest_on (l := l) i1 (V := ⟨_, _⟩) ⟨i2.1.sub i1.1, i2.2.sub i1.2⟩ ?_ (iu.congr ?_)) (iu.congr ?_)
  · have e1 : -(D.x * 2 + C.x) * cj.intr.fx / (D.z * 2 + C.z) + cj.intr.cx - (-(D.x + C.x) * cj.intr.fx / (D.z + C.z) + cj.intr.cx) =
        -cj.intr.fx * (D.x * C.z - C.x * D.z) / ((D.z * 2 + C.z) * (D.z + C.z)) := by
      have := ep_diff (-D.x) (-C.x) D.z C.z cj.intr.fx cj.intr.cx hz1 hz2
      rw [show -(D.x * 2 + C.x) = -D.x * 2 + -C.x by ring, show -(D.x + C.x) = -D.x + -C.x by ring, this]; ring
    have e2 : (D.y * 2 + C.y) * cj.intr.fy / (D.z * 2 + C.z) + cj.intr.cy - ((D.y + C.y) * cj.intr.fy / (D.z + C.z) + cj.intr.cy) =
        cj.intr.fy * (D.y * C.z - C.y * D.z) / ((D.z * 2 + C.z) * (D.z + C.z)) :=
      ep_diff D.y C.y D.z C.z cj.intr.fy cj.intr.cy hz1 hz2
    simp only [e1, e2]
    intro h0
    have a1 : -cj.intr.fx * (D.x * C.z - C.x * D.z) / ((D.z * 2 + C.z) * (D.z + C.z)) = 0 := by
      apply pow_eq_zero_iff (two_ne_zero) |>.1
      exact le_antisymm (by rw [← h0]; exact le_add_of_nonneg_right (sq_nonneg _)) (sq_nonneg _)
    have a2 : cj.intr.fy * (D.y * C.z - C.y * D.z) / ((D.z * 2 + C.z) * (D.z + C.z)) = 0 := by
      apply pow_eq_zero_iff (two_ne_zero) |>.1
      exact le_antisymm (by rw [← h0]; exact le_add_of_nonneg_left (sq_nonneg _)) (sq_nonneg _)
    have hm := mul_ne_zero hz2 hz1
    have b1 := ((div_eq_zero_iff.1 a1).resolve_right hm)
    have b2 := ((div_eq_zero_iff.1 a2).resolve_right hm)
    have c1 := (mul_eq_zero.1 b1).resolve_left (neg_ne_zero.2 hj.1)
    have c2 := (mul_eq_zero.1 b2).resolve_left hj.2
    apply hV; rw [c1, c2]; ring
  · exact hq
  · exact hq

/-- **C35** The epipolar error of exact correspondences is 0 in both directions: for all pairs of rectilinear cameras and all
points seen by both in general position.  General position means: the point is not on the line through the cameras (there is
no epipolar line then), and the points of the two viewing rays at depth 1 and 2, from which the epipolar lines are
computed, are not in the plane of the other camera. -/
theorem C35_epipolar_error (c1 c2 : Cam) (h1 : c1.Proper) (h2 : c2.Proper) (k1 : c1.kind = .rectilinear) (k2 : c2.kind = .rectilinear)
    (l1 : c1.lens = noDistortion) (l2 : c2.lens = noDistortion) (P : V3 ℝ) (v1 : Visible c1 P) (v2 : Visible c2 P) (hoff : OffBaseline c1 c2 P)
    (hd1 : ∀ A t, t = 1 ∨ t = 2 → Geo.OnLine c1.orient.pos (P - c1.orient.pos) A → AtDepth c1 A t → Deep c2 A)
    (hd2 : ∀ A t, t = 1 ∨ t = 2 → Geo.OnLine c2.orient.pos (P - c2.orient.pos) A → AtDepth c2 A t → Deep c1 A) :
    ∃ q1 q2, imagesFromSpace [c1, c2] P.num = [q1, q2] ∧ Num.Is (pointCorrespondenceError c1 c2 q1 q2).1 0 ∧
      Num.Is (pointCorrespondenceError c1 c2 q1 q2).2 0 := by
  refine ⟨_, _, rfl, ?_, ?_⟩
  · exact epipolar_zero c1 c2 h1 h2 k1 k2 l1 l2 P v1 v2 hoff false fun A t ht hl ha => ⟨hd1 A t ht hl ha, fun h => by cases h⟩
  · exact epipolar_zero c2 c1 h2 h1 k2 k1 l2 l1 P v2 v1 (OffBaseline.symm hoff) false fun A t ht hl ha => ⟨hd2 A t ht hl ha, fun h => by cases h⟩

example : Num.Is (pointCorrespondenceError exampleCam exampleCam2 (imageFromSpace exampleCam (V3.num ⟨1, 2, 3⟩))
    (imageFromSpace exampleCam2 (V3.num ⟨1, 2, 3⟩))).1 0 := by
  have deep : ∀ c : Cam, c = exampleCam ∨ c = exampleCam2 → ∀ P : V3 ℝ, (camR c P).z = P.z - 10 := by
    rintro c (rfl | rfl) P
    · rw [exampleCam_camR]
    · rw [exampleCam2_camR]
  have gen : ∀ c c' : Cam, c = exampleCam ∨ c = exampleCam2 → c' = exampleCam ∨ c' = exampleCam2 → ∀ A t, t = 1 ∨ t = 2 → AtDepth c A t → Deep c' A := by
    intro c c' hc hc' A t ht h
    obtain ⟨Q, hQ, hz⟩ := h
    rw [camR_of_is c hQ, deep c hc] at hz
    refine ⟨_, cameraFromSpace_is c' (V3.is_num A), ?_⟩
    rw [deep c' hc', hz, abs_neg]
    rcases ht with rfl | rfl <;> norm_num [Projection.minDepth]
  obtain ⟨q1, q2, h, h', -⟩ := C35_epipolar_error exampleCam exampleCam2 exampleCam_proper (by constructor <;> simp [exampleCam2]) rfl rfl rfl rfl ⟨1, 2, 3⟩
    (exampleCam_visible _ (by norm_num)) (exampleCam2_visible _ (by norm_num)) example_off
    (fun A t ht _ h => gen _ _ (.inl rfl) (.inr rfl) A t ht h) (fun A t ht _ h => gen _ _ (.inr rfl) (.inl rfl) A t ht h)
  cases h; exact h'

/-! ### C93: the baseline -/

/-- **C93** (partial: cameras of the same elevation, see `C93_violated`) `getBaseline` is the distance of the cameras. -/
theorem C93_baseline_partial (c1 c2 : Cam) (h : c1.orient.pos.z = c2.orient.pos.z) :
    Num.Is (getBaseline c1 c2) (V3.dist c1.orient.pos c2.orient.pos) := by
  have := (((is_fin c1.orient.pos.x).sub (is_fin c2.orient.pos.x)).npow 2 |>.add (((is_fin c1.orient.pos.y).sub (is_fin c2.orient.pos.y)).npow 2)).sqrt (by positivity)
  refine this.congr ?_
  simp [V3.dist, V3.norm, V3.normSq, h]

example : Num.Is (getBaseline exampleCam exampleCam2) (V3.dist exampleCam.orient.pos exampleCam2.orient.pos) := C93_baseline_partial _ _ rfl

/-- **C93** is violated for every pair of cameras with different elevations: the result is too small. -/
theorem C93_violated (c1 c2 : Cam) (h : c1.orient.pos.z ≠ c2.orient.pos.z) :
    ∃ b : ℝ, Num.Is (getBaseline c1 c2) b ∧ b < V3.dist c1.orient.pos c2.orient.pos := by
  have := (((is_fin c1.orient.pos.x).sub (is_fin c2.orient.pos.x)).npow 2 |>.add (((is_fin c1.orient.pos.y).sub (is_fin c2.orient.pos.y)).npow 2)).sqrt (by positivity)
  refine ⟨_, this, ?_⟩
  unfold V3.dist V3.norm
  apply Real.sqrt_lt_sqrt (by positivity)
  simp only [V3.normSq, V3.sub_x, V3.sub_y, V3.sub_z]
  have : 0 < (c1.orient.pos.z - c2.orient.pos.z) ^ 2 := by
    have := sub_ne_zero.2 h
    positivity
  linarith

example : ∃ c1 c2 : Cam, c1.orient.pos.z ≠ c2.orient.pos.z :=
  ⟨exampleCam, { exampleCam with orient := .thr ⟨11, 0, 0, 0, 0, 0⟩ }, by simp [exampleCam, Orient.pos]⟩

/-! ### C84: Euler angles -/

theorem Stereo.sameAngle_of {θ a : ℝ} (hc : Real.cos θ = Real.cos a) (hs : Real.sin θ = Real.sin a) : ∃ k : ℤ, θ = a + 2 * Real.pi * k := by
  have h : (θ : Real.Angle) = (a : Real.Angle) := Real.Angle.cos_sin_inj hc hs
  obtain ⟨k, hk⟩ := Real.Angle.angle_eq_iff_two_pi_dvd_sub.1 h
  exact ⟨k, by linarith⟩

theorem Stereo.euler (roll tilt heading : ℝ) (h0 : 0 < tilt) (h1 : tilt < 180) :
    ∃ r h : ℝ, (rotationToEuler (Spatial.rotation (Spatial.rad roll) (Spatial.rad tilt) (Spatial.rad heading))).Is ⟨r, tilt, h⟩ ∧
      SameAngle r (-roll) ∧ SameAngle h heading := by
  have hpi := Real.pi_pos
  have ht0 : 0 < Spatial.rad tilt := by unfold Spatial.rad; positivity
  have ht1 : Spatial.rad tilt < Real.pi := by unfold Spatial.rad; nlinarith
  have hst := Real.sin_pos_of_pos_of_lt_pi ht0 ht1
  set a := Spatial.rad roll with ha
  set b := Spatial.rad tilt with hb
  set g := Spatial.rad heading with hg
  set R := Spatial.rotation a b g with hR
  have e02 : R.r0.z = Real.sin a * Real.sin b := by simp [hR, Spatial.rotation, M3.mul, M3.rowMul, M3.T, V3.dot, Spatial.R_roll, Spatial.R_tilt, Spatial.R_head]
  have e12 : R.r1.z = Real.cos a * Real.sin b := by simp [hR, Spatial.rotation, M3.mul, M3.rowMul, M3.T, V3.dot, Spatial.R_roll, Spatial.R_tilt, Spatial.R_head]
  have e22 : R.r2.z = Real.cos b := by simp [hR, Spatial.rotation, M3.mul, M3.rowMul, M3.T, V3.dot, Spatial.R_roll, Spatial.R_tilt, Spatial.R_head]
  have e20 : R.r2.x = -(Real.sin b * Real.sin g) := by simp [hR, Spatial.rotation, M3.mul, M3.rowMul, M3.T, V3.dot, Spatial.R_roll, Spatial.R_tilt, Spatial.R_head]
  have e21 : R.r2.y = -(Real.sin b * Real.cos g) := by simp [hR, Spatial.rotation, M3.mul, M3.rowMul, M3.T, V3.dot, Spatial.R_roll, Spatial.R_tilt, Spatial.R_head]
  have n1 : (-(Real.cos a * Real.sin b)) ^ 2 + (Real.sin a * Real.sin b) ^ 2 = Real.sin b ^ 2 := by
    linear_combination Real.sin b ^ 2 * Real.sin_sq_add_cos_sq a
  have n2 : (-(Real.sin b * Real.cos g)) ^ 2 + (-(Real.sin b * Real.sin g)) ^ 2 = Real.sin b ^ 2 := by
    linear_combination Real.sin b ^ 2 * Real.sin_sq_add_cos_sq g
  obtain ⟨θ, i1, -, c1, s1⟩ := Projection.arctan2_spec (is_fin (Real.sin a * Real.sin b)) (is_fin (Real.cos a * Real.sin b)).neg (by rw [n1]; positivity)
  obtain ⟨φ, i2, -, c2, s2⟩ := Projection.arctan2_spec (is_fin (-(Real.sin b * Real.sin g))) (is_fin (-(Real.sin b * Real.cos g))) (by rw [n2]; positivity)
  rw [n1, Real.sqrt_sq hst.le] at c1 s1
  rw [n2, Real.sqrt_sq hst.le] at c2 s2
  obtain ⟨k, hk⟩ := sameAngle_of (θ := θ) (a := Real.pi - a) (by rw [Real.cos_pi_sub]; apply mul_left_cancel₀ hst.ne'; linarith)
    (by rw [Real.sin_pi_sub]; apply mul_left_cancel₀ hst.ne'; linarith)
  obtain ⟨m, hm⟩ := sameAngle_of (θ := φ) (a := g + Real.pi) (by rw [Real.cos_add_pi]; apply mul_left_cancel₀ hst.ne'; linarith)
    (by rw [Real.sin_add_pi]; apply mul_left_cancel₀ hst.ne'; linarith)
  refine ⟨180 + θ * (180 / Real.pi), 180 + φ * (180 / Real.pi), ⟨?_, ?_, ?_⟩, ⟨k + 1, ?_⟩, ⟨m + 1, ?_⟩⟩
  · show Num.Is (.fin 180 + Num.rad2deg (Num.arctan2 (.fin R.r0.z) (-.fin R.r1.z))) _
    rw [e02, e12]; exact (is_fin 180).add i1.rad2deg
  · show Num.Is (Num.rad2deg (Num.arccos (.fin R.r2.z))) _
    rw [e22]
    refine ((is_fin (Real.cos b)).arccos (Real.neg_one_le_cos b) (Real.cos_le_one b)).rad2deg.congr ?_
    rw [Real.arccos_cos ht0.le ht1.le, hb, Spatial.rad]; field_simp
  · show Num.Is (.fin 180 + Num.rad2deg (Num.arctan2 (.fin R.r2.x) (.fin R.r2.y))) _
    rw [e20, e21]; exact (is_fin 180).add i2.rad2deg
  · rw [hk, ha, Spatial.rad]; push_cast; field_simp; ring
  · rw [hm, hg, Spatial.rad]; push_cast; field_simp; ring

/-- **C84** (partial: the roll angle is wrong, see `C84_violated`) `rotationToEuler` returns the tilt and the heading (up to
full turns) of the rotation matrix that `SpatialOrientation` builds, for all angles with 0 < tilt < 180. -/
theorem C84_euler_partial (p : Spatial.Params) (h0 : 0 < p.tilt_deg) (h1 : p.tilt_deg < 180) :
    ∃ r h : ℝ, (rotationToEuler (Spatial.matrices p).R).Is ⟨r, p.tilt_deg, h⟩ ∧ SameAngle h p.heading_deg := by
  obtain ⟨r, h, e1, -, e2⟩ := euler p.roll_deg p.tilt_deg p.heading_deg h0 h1
  exact ⟨r, h, e1, e2⟩

/-- **C84** is violated: the returned roll is the negative of the roll, so it is right only for rolls that are multiples of
180 degrees. -/
theorem C84_violated (p : Spatial.Params) (h0 : 0 < p.tilt_deg) (h1 : p.tilt_deg < 180) :
    ∃ r : ℝ, Num.Is (rotationToEuler (Spatial.matrices p).R).x r ∧ SameAngle r (-p.roll_deg) ∧
      (SameAngle r p.roll_deg ↔ ∃ k : ℤ, p.roll_deg = 180 * k) := by
  obtain ⟨r, h, e1, ⟨k, hk⟩, -⟩ := euler p.roll_deg p.tilt_deg p.heading_deg h0 h1
  refine ⟨r, e1.1, ⟨k, hk⟩, ?_, ?_⟩
  · rintro ⟨m, hm⟩
    refine ⟨k - m, ?_⟩
    push_cast; linarith
  · rintro ⟨m, hm⟩
    refine ⟨k - m, ?_⟩
    push_cast; linarith

example : ∃ r : ℝ, Num.Is (rotationToEuler (Spatial.matrices ⟨0, 45, 10, 0, 0, 0⟩).R).x r ∧ ¬ SameAngle r 10 := by
  obtain ⟨r, h, -, h'⟩ := C84_violated ⟨0, 45, 10, 0, 0, 0⟩ (by norm_num) (by norm_num)
  refine ⟨r, h, fun h2 => ?_⟩
  obtain ⟨k, hk⟩ := h'.1 h2
  have hk' : (10 : ℝ) = 180 * k := hk
  have : (10 : ℤ) = 180 * k := by exact_mod_cast hk'
  omega

/-! ### C94: the probability of exact correspondences -/

theorem Stereo.normLogpdf_zero {x : Num} (h : Num.Is x 0) (u : ℝ) (hu : 0 < u) :
    Num.Is (normLogpdf 0 u x) (-Real.log (Real.sqrt (2 * Real.pi)) - Real.log u) := by
  have := (((((h.sub (is_fin 0)).div (is_fin u) hu.ne').npow 2).neg.div (is_fin 2) two_ne_zero).sub (is_fin (Real.log (Real.sqrt (2 * Real.pi))))).sub (is_fin (Real.log u))
  exact this.congr (by simp)

theorem Stereo.normLogpdf_le {x : Num} {d : ℝ} (h : Num.Is x d) (u : ℝ) (hu : 0 < u) :
    ∃ l : ℝ, Num.Is (normLogpdf 0 u x) l ∧ l ≤ -Real.log (Real.sqrt (2 * Real.pi)) - Real.log u ∧
      (l = -Real.log (Real.sqrt (2 * Real.pi)) - Real.log u → d = 0) := by
  have := (((((h.sub (is_fin 0)).div (is_fin u) hu.ne').npow 2).neg.div (is_fin 2) two_ne_zero).sub (is_fin (Real.log (Real.sqrt (2 * Real.pi))))).sub (is_fin (Real.log u))
  refine ⟨_, this, ?_, fun he => ?_⟩
  · have : 0 ≤ ((d - 0) / u) ^ 2 := sq_nonneg _
    linarith
  · have h0 : ((d - 0) / u) ^ 2 = 0 := by linarith
    have h1 := pow_eq_zero_iff two_ne_zero |>.1 h0
    simpa [hu.ne'] using h1

theorem Camera.InFront.deep {c : Cam} {P : V3 ℝ} (h : InFront c P) :
    Deep c P ∧ ∃ Q : V3 ℝ, (Spatial.cameraFromSpace c.orient.mat P.num).Is Q ∧ Q.z < 0 := by
  obtain ⟨Q, h1, h2⟩ := h
  have h0 : 0 < Projection.minDepth := by unfold Projection.minDepth; positivity
  have hn : Q.z < 0 := by linarith
  exact ⟨⟨Q, h1, by rw [abs_of_neg hn]; linarith⟩, Q, h1, hn⟩

theorem Stereo.npsum_const {α : Type} (l : List α) (f : α → Num) (b : ℝ) (h : ∀ x ∈ l, Num.Is (f x) b) : Num.Is (Stat.npsum (l.map f)) (l.length * b) := by
  induction l with
  | nil => simp [Stat.npsum]
  | cons x l ih =>
    have := (h x (by simp)).add (ih fun y hy => h y (by simp [hy]))
    refine this.congr ?_
    push_cast [List.length_cons]; ring

theorem Stereo.npsum_le {α : Type} (l : List α) (f : α → Num) (b : ℝ) (Z : α → Prop)
    (h : ∀ x ∈ l, ∃ r, Num.Is (f x) r ∧ r ≤ b ∧ (r = b → Z x)) :
    ∃ r, Num.Is (Stat.npsum (l.map f)) r ∧ r ≤ l.length * b ∧ (r = l.length * b → ∀ x ∈ l, Z x) := by
  induction l with
  | nil => exact ⟨0, by simp [Stat.npsum], by simp, by simp⟩
  | cons x l ih =>
    obtain ⟨r, h1, h2, h3⟩ := h x (by simp)
    obtain ⟨r', h1', h2', h3'⟩ := ih fun y hy => h y (by simp [hy])
    refine ⟨_, h1.add h1', ?_, fun he => ?_⟩
    · push_cast [List.length_cons]; linarith
    · push_cast [List.length_cons] at he
      intro y hy
      rcases List.mem_cons.1 hy with rfl | hy
      · exact h3 (by linarith)
      · exact h3' (by linarith) y hy

/-- **C94** (partial: the points of each ray at depth 1 and 2 have to be in front of the other camera, see `C94_violated`)
Exact correspondences have the largest value a correspondence term can have: it is finite, and equally many other pairs of
pixels with finite distances do not give more; they give the same only if all their distances are 0. -/
theorem C94_correspondence_term_partial (c1 c2 : Cam) (h1 : c1.Proper) (h2 : c2.Proper) (k1 : c1.kind = .rectilinear) (k2 : c2.kind = .rectilinear)
    (l1 : c1.lens = noDistortion) (l2 : c2.lens = noDistortion) (Ps : List (V3 ℝ)) (v1 : ∀ P ∈ Ps, Visible c1 P) (v2 : ∀ P ∈ Ps, Visible c2 P)
    (hoff : ∀ P ∈ Ps, OffBaseline c1 c2 P)
    (hd1 : ∀ P ∈ Ps, ∀ A t, t = 1 ∨ t = 2 → Geo.OnLine c1.orient.pos (P - c1.orient.pos) A → AtDepth c1 A t → InFront c2 A)
    (hd2 : ∀ P ∈ Ps, ∀ A t, t = 1 ∨ t = 2 → Geo.OnLine c2.orient.pos (P - c2.orient.pos) A → AtDepth c2 A t → InFront c1 A)
    (u : ℝ) (hu : 0 < u) :
    ∃ best : ℝ, Num.Is (correspondenceTerm c1 c2 (Ps.map fun P => (imageFromSpace c1 P.num, imageFromSpace c2 P.num)) u) best ∧
      ∀ qs : List (V2 Num × V2 Num), qs.length = Ps.length →
        (∀ q ∈ qs, (epipolarDistance c1 c2 q.1 q.2 true).Finite ∧ (epipolarDistance c2 c1 q.2 q.1 true).Finite) →
        ∃ l, Num.Is (correspondenceTerm c1 c2 qs u) l ∧ l ≤ best ∧
          (l = best → ∀ q ∈ qs, Num.Is (epipolarDistance c1 c2 q.1 q.2 true) 0 ∧ Num.Is (epipolarDistance c2 c1 q.2 q.1 true) 0) := by
  have a1 : ∀ P ∈ Ps, _ := fun P hP => epipolar_zero c1 c2 h1 h2 k1 k2 l1 l2 P (v1 P hP) (v2 P hP) (hoff P hP) true
    fun A t ht hl ha => ⟨(hd1 P hP A t ht hl ha).deep.1, fun _ => (hd1 P hP A t ht hl ha).deep.2⟩
  have a2 : ∀ P ∈ Ps, _ := fun P hP => epipolar_zero c2 c1 h2 h1 k2 k1 l2 l1 P (v2 P hP) (v1 P hP) (OffBaseline.symm (hoff P hP)) true
    fun A t ht hl ha => ⟨(hd2 P hP A t ht hl ha).deep.1, fun _ => (hd2 P hP A t ht hl ha).deep.2⟩
  have b1 := npsum_const Ps (fun P => normLogpdf 0 u (epipolarDistance c1 c2 (imageFromSpace c1 P.num) (imageFromSpace c2 P.num) true)) _
    fun P hP => normLogpdf_zero (a1 P hP) u hu
  have b2 := npsum_const Ps (fun P => normLogpdf 0 u (epipolarDistance c2 c1 (imageFromSpace c2 P.num) (imageFromSpace c1 P.num) true)) _
    fun P hP => normLogpdf_zero (a2 P hP) u hu
  refine ⟨0 + Ps.length * (-Real.log (Real.sqrt (2 * Real.pi)) - Real.log u) + Ps.length * (-Real.log (Real.sqrt (2 * Real.pi)) - Real.log u), ?_, fun qs hl hf => ?_⟩
  · unfold correspondenceTerm
    rw [List.map_map, List.map_map]
    exact ((is_fin 0).add b1).add b2
  · obtain ⟨r1, i1, j1, m1⟩ := npsum_le qs (fun q => normLogpdf 0 u (epipolarDistance c1 c2 q.1 q.2 true)) _
      (fun q => Num.Is (epipolarDistance c1 c2 q.1 q.2 true) 0) (fun q hq => by
        obtain ⟨d, hd⟩ := (hf q hq).1
        obtain ⟨r, x1, x2, x3⟩ := normLogpdf_le hd u hu
        exact ⟨r, x1, x2, fun h => x3 h ▸ hd⟩)
    obtain ⟨r2, i2, j2, m2⟩ := npsum_le qs (fun q => normLogpdf 0 u (epipolarDistance c2 c1 q.2 q.1 true)) _
      (fun q => Num.Is (epipolarDistance c2 c1 q.2 q.1 true) 0) (fun q hq => by
        obtain ⟨d, hd⟩ := (hf q hq).2
        obtain ⟨r, x1, x2, x3⟩ := normLogpdf_le hd u hu
        exact ⟨r, x1, x2, fun h => x3 h ▸ hd⟩)
    rw [hl] at j1 j2 m1 m2
    exact ⟨_, ((is_fin 0).add i1).add i2, by linarith, fun h q hq => ⟨m1 (by linarith) q hq, m2 (by linarith) q hq⟩⟩

theorem Stereo.example_depth (c c' : Cam) (hc : c = exampleCam ∨ c = exampleCam2) (hc' : c' = exampleCam ∨ c' = exampleCam2) (A : V3 ℝ) (t : ℝ)
    (ht : t = 1 ∨ t = 2) (h : AtDepth c A t) : InFront c' A := by
  have deep : ∀ c : Cam, c = exampleCam ∨ c = exampleCam2 → ∀ P : V3 ℝ, (camR c P).z = P.z - 10 := by
    rintro c (rfl | rfl) P
    · rw [exampleCam_camR]
    · rw [exampleCam2_camR]
  obtain ⟨Q, hQ, hz⟩ := h
  rw [camR_of_is c hQ, deep c hc] at hz
  refine ⟨_, cameraFromSpace_is c' (V3.is_num A), ?_⟩
  rw [deep c' hc', hz]
  rcases ht with rfl | rfl <;> norm_num [Projection.minDepth]

example : ∃ best : ℝ, Num.Is (correspondenceTerm exampleCam exampleCam2 [(imageFromSpace exampleCam (V3.num ⟨1, 2, 3⟩),
    imageFromSpace exampleCam2 (V3.num ⟨1, 2, 3⟩))] 1) best := by
  obtain ⟨b, h, -⟩ := C94_correspondence_term_partial exampleCam exampleCam2 exampleCam_proper (by constructor <;> simp [exampleCam2]) rfl rfl rfl rfl [⟨1, 2, 3⟩]
    (by simpa using exampleCam_visible _ (by norm_num)) (by simpa using exampleCam2_visible _ (by norm_num)) (by simpa using example_off)
    (fun _ _ A t ht _ h => example_depth _ _ (.inl rfl) (.inr rfl) A t ht h) (fun _ _ A t ht _ h => example_depth _ _ (.inr rfl) (.inl rfl) A t ht h) 1 one_pos
  exact ⟨b, h⟩

theorem Stereo.image_hidden (c : Cam) (hk : c.kind = .rectilinear) (hl : c.lens = noDistortion) {n : V3 Num} {P : V3 ℝ} (hn : n.Is P)
    (h : Behind c P) : imageFromSpace c n = V2.nan := by
  obtain ⟨Q, h1, h2⟩ := h
  rw [camR_of_is c h1] at h2
  have h0 : 0 < Projection.minDepth := by unfold Projection.minDepth; positivity
  have hc := cameraFromSpace_is c hn
  unfold imageFromSpace
  rw [hl, hk]
  show Projection.imageFromCameraRect c.intr _ true = _
  unfold Projection.imageFromCameraRect
  rw [Projection.snap_far hc (h2.trans (le_abs_self _))]
  unfold Projection.projRect
  rw [if_pos ⟨rfl, ((is_fin 0).lt_iff hc.2.2).2 (by linarith)⟩]

theorem Stereo.npsum_nan {l : List Num} (h : Num.nan ∈ l) : Stat.npsum l = .nan := by
  induction l with
  | nil => cases h
  | cons x l ih =>
    rcases List.mem_cons.1 h with rfl | h
    · simp [Stat.npsum]
    · simp [Stat.npsum, ih h]

/-- **C94** is violated whenever, for one of the correspondences, the point at depth 1 of the ray of the first camera is behind
the second one: the term is then not a number, and the log probability of the group is minus infinity, whatever
the other correspondences and the other terms are. -/
theorem C94_violated (c1 c2 : Cam) (h1 : c1.Proper) (k1 : c1.kind = .rectilinear) (k2 : c2.kind = .rectilinear) (l1 : c1.lens = noDistortion)
    (l2 : c2.lens = noDistortion) (P : V3 ℝ) (v1 : Visible c1 P)
    (hb : ∀ A, Geo.OnLine c1.orient.pos (P - c1.orient.pos) A → AtDepth c1 A 1 → Behind c2 A) (qs : List (V2 Num × V2 Num))
    (hq : (imageFromSpace c1 P.num, imageFromSpace c2 P.num) ∈ qs) (u : ℝ) (own : List Num) (cams : List (List Num))
    (hin : correspondenceTerm c1 c2 qs u ∈ own) :
    correspondenceTerm c1 c2 qs u = .nan ∧ Stat.groupLogProbability own cams = .ninf := by
  have hnan : correspondenceTerm c1 c2 qs u = .nan := by
    obtain ⟨p, e1, f1⟩ := space_of_image c1 h1 (V3.is_num P) v1 true
    obtain ⟨t, ht, g, hr⟩ := f1 (by rw [l1]; exact fun _ h => h)
    have ho := getRay_offset c1 (imageFromSpace c1 P.num) false
    have hA : Behind c2 ((dirR c1 p).mulS 1 + c1.orient.pos) := by
      refine hb _ ⟨1 / t, ?_, ?_, ?_⟩ ⟨_, cameraFromSpace_is c1 (V3.is_num _), ?_⟩
      · simp only [g]; simp; field_simp; ring
      · simp only [g]; simp; field_simp; ring
      · simp only [g]; simp; field_simp; ring
      · rw [camR_on_ray, k1]; simp [Projection.rayR]
    have hi := image_hidden c2 k2 l2 ((ho.add (hr.mulS (is_fin 1))).congr (q := _) (by ext <;> simp <;> ring)) hA
    have hd : epipolarDistance c1 c2 (imageFromSpace c1 P.num) (imageFromSpace c2 P.num) true = .nan := by
      unfold epipolarDistance
      simp only [hi]
      simp [norm2, sub2, closestOnLine, V2.nan]
    have hm : Num.nan ∈ qs.map fun q => normLogpdf 0 u (epipolarDistance c1 c2 q.1 q.2 true) := by
      refine List.mem_map.2 ⟨_, hq, ?_⟩
      simp only [hd]
      simp [normLogpdf, Num.npow]
    unfold correspondenceTerm
    rw [npsum_nan hm]
    simp
  refine ⟨hnan, ?_⟩
  unfold Stat.groupLogProbability
  rw [npsum_nan (hnan ▸ hin)]
  simp

/-- A camera 5 below `exampleCam`. -/
noncomputable def Stereo.exampleCam3 : Cam :=
  ⟨.rectilinear, ⟨100, 100, 50, 25, 100, 50⟩, .thr ⟨5, 0, 0, 0, 0, 0⟩, noDistortion⟩

theorem Stereo.exampleCam3_camR (P : V3 ℝ) : camR exampleCam3 P = ⟨P.x, P.y, P.z - 5⟩ := by
  have hw : Spatial.wrap360 0 = 0 := by simp [Spatial.wrap360]
  have hr : Spatial.rad 0 = 0 := by simp [Spatial.rad]
  ext <;> simp [camR, exampleCam3, Orient.mat, Orient.pos, Spatial.initCameraMatrix, Spatial.matrices, hw, hr,
    M3.applyR, V3.dot, Spatial.rotation, M3.mul, M3.rowMul, M3.T, Spatial.R_roll, Spatial.R_tilt, Spatial.R_head]

/-- Two cameras above each other looking down at a point both see: the log probability is minus infinity. -/
example : Stat.groupLogProbability [correspondenceTerm exampleCam exampleCam3 [(imageFromSpace exampleCam (V3.num ⟨1, 2, 3⟩),
    imageFromSpace exampleCam3 (V3.num ⟨1, 2, 3⟩))] 1] [] = .ninf ∧ Visible exampleCam3 ⟨1, 2, 3⟩ := by
  constructor
  · refine (C94_violated exampleCam exampleCam3 exampleCam_proper rfl rfl rfl rfl ⟨1, 2, 3⟩ (exampleCam_visible _ (by norm_num)) ?_ _
      (List.mem_singleton.2 rfl) 1 _ _ (List.mem_singleton.2 rfl)).2
    intro A _ h
    obtain ⟨Q, hQ, hz⟩ := h
    rw [camR_of_is _ hQ, exampleCam_camR] at hz
    refine ⟨_, cameraFromSpace_is exampleCam3 (V3.is_num A), ?_⟩
    rw [exampleCam3_camR]
    simp only [Projection.minDepth] at *
    norm_num; linarith
  · have h0 := cameraFromSpace_is exampleCam3 (V3.is_num ⟨1, 2, 3⟩)
    rw [exampleCam3_camR] at h0
    exact ⟨_, h0, by norm_num [Projection.minDepth], fun _ => by norm_num⟩

/-! ### C95: the distance of the two rays -/

theorem V3.norm_mulS (a : V3 ℝ) (t : ℝ) (ht : 0 ≤ t) : (a.mulS t).norm = a.norm * t := by
  unfold V3.norm
  rw [show (a.mulS t).normSq = a.normSq * t ^ 2 by simp [V3.normSq]; ring, Real.sqrt_mul' _ (sq_nonneg t), Real.sqrt_sq ht]

/-- The directions of the normed rays of the images of a point are the unit vectors from the cameras to the point. -/
theorem Stereo.normed_ray (c : Cam) (h : c.Proper) (P : V3 ℝ) (v : Visible c P)
    (hl : ∀ p : V2 ℝ, (Projection.imageFromCamera c.kind c.intr (Spatial.cameraFromSpace c.orient.mat P.num)).Is p → c.lens.ExactAt p) :
    0 < (P - c.orient.pos).norm ∧ (getRay c (imageFromSpace c P.num) true).2.Is ((P - c.orient.pos).mulS (1 / (P - c.orient.pos).norm)) := by
  obtain ⟨p, e, f⟩ := space_of_image c h (V3.is_num P) v true
  obtain ⟨u, hu, g, -⟩ := f (hl p e)
  obtain ⟨s, -, -, h3, h4⟩ := getRay_dir c h.1 h.2 (hl p e _ e) true
  have hd : P - c.orient.pos = (dirR c p).mulS u := by rw [g]; ext <;> simp
  have hn := dirR_norm_pos c p
  rw [hd, V3.norm_mulS _ _ hu.le]
  refine ⟨by positivity, h4.congr ?_⟩
  rw [h3 rfl]
  ext <;> simp <;> field_simp

theorem Stereo.norm_cross_units (c1 c2 : Cam) (P : V3 ℝ) (s : ℝ) (h1 : 0 < (P - c1.orient.pos).norm) (h2 : 0 < (P - c2.orient.pos).norm)
    (hs : SinAngle c1 c2 P s) :
    (V3.cross ((P - c1.orient.pos).mulS (1 / (P - c1.orient.pos).norm)) ((P - c2.orient.pos).mulS (1 / (P - c2.orient.pos).norm))).norm = s := by
  rw [cross_mulS, V3.norm_mulS _ _ (by positivity), hs]
  field_simp

/-- **C95** (partial: the angle at the point must not be tiny, see `C95_violated`) The distance of the two viewing rays of the
images of a point is 0: for every point seen by both cameras at which the sine of the angle between the directions
to the cameras is larger than 1e-8, or which is on the line through the cameras. -/
theorem C95_ray_distance_partial (c1 c2 : Cam) (h1 : c1.Proper) (h2 : c2.Proper) (P : V3 ℝ) (v1 : Visible c1 P) (v2 : Visible c2 P)
    (hl1 : ∀ p : V2 ℝ, (Projection.imageFromCamera c1.kind c1.intr (Spatial.cameraFromSpace c1.orient.mat P.num)).Is p → c1.lens.ExactAt p)
    (hl2 : ∀ p : V2 ℝ, (Projection.imageFromCamera c2.kind c2.intr (Spatial.cameraFromSpace c2.orient.mat P.num)).Is p → c2.lens.ExactAt p)
    (s : ℝ) (hs : SinAngle c1 c2 P s) (hbig : 1 / 10 ^ 8 < s ∨ s = 0) :
    Num.Is (discanteBetweenRays c1 c2 (imageFromSpace c1 P.num) (imageFromSpace c2 P.num)) 0 := by
  obtain ⟨n1, i1⟩ := normed_ray c1 h1 P v1 hl1
  obtain ⟨n2, i2⟩ := normed_ray c2 h2 P v2 hl2
  have hn := norm_cross_units c1 c2 P s n1 n2 hs
  have ho1 := getRay_offset c1 (imageFromSpace c1 P.num) true
  have ho2 := getRay_offset c2 (imageFromSpace c2 P.num) true
  have hncr := (i1.cross i2).normN
  rw [hn] at hncr
  have hd := ho2.sub ho1
  have hn1 := i1.normN
  have e1 : ((P - c1.orient.pos).mulS (1 / (P - c1.orient.pos).norm)).norm = 1 := by
    rw [V3.norm_mulS _ _ (by positivity)]; field_simp
  rw [e1] at hn1
  unfold discanteBetweenRays Ray.distanceOfTwoLines
  simp only
  rcases hbig with hbig | rfl
  · rw [if_neg (by rw [Ray.isClose0_iff hncr]; exact not_le.2 (hbig.trans_le (le_abs_self _)))]
    refine ((hd.dot (i1.cross i2)).abs.div hncr (by intro h0; rw [h0] at hbig; norm_num at hbig)).congr ?_
    rw [cross_mulS]
    have : V3.dot (c2.orient.pos - c1.orient.pos) ((V3.cross (P - c1.orient.pos) (P - c2.orient.pos)).mulS
        (1 / (P - c1.orient.pos).norm * (1 / (P - c2.orient.pos).norm))) = 0 := by
      simp only [V3.dot, V3.cross, V3.mulS, V3.sub_x, V3.sub_y, V3.sub_z]; ring
    rw [this]; simp
  · rw [if_pos (by rw [Ray.isClose0_iff hncr]; norm_num), if_neg (by rw [Ray.isClose0_iff hn1]; norm_num)]
    refine ((hd.cross i1).normN.div hn1 one_ne_zero).congr ?_
    have hz : V3.cross (P - c1.orient.pos) (P - c2.orient.pos) = ⟨0, 0, 0⟩ := by
      rw [← V3.norm_eq_zero, hs]; ring
    have hx := congrArg V3.x hz
    have hy := congrArg V3.y hz
    have hz := congrArg V3.z hz
    simp only [V3.cross, V3.sub_x, V3.sub_y, V3.sub_z] at hx hy hz
    rw [div_one, V3.norm_eq_zero]
    ext <;> simp only [V3.cross, V3.mulS, V3.sub_x, V3.sub_y, V3.sub_z]
    · linear_combination (1 / (P - c1.orient.pos).norm) * hx
    · linear_combination (1 / (P - c1.orient.pos).norm) * hy
    · linear_combination (1 / (P - c1.orient.pos).norm) * hz

/-- **C95** for many points at once: each row is the distance of the rays of its own two pixels. -/
theorem C95_batch_partial (c1 c2 : Cam) (h1 : c1.Proper) (h2 : c2.Proper) (hl1 : c1.lens = noDistortion) (hl2 : c2.lens = noDistortion)
    (Ps : List (V3 ℝ)) (v1 : ∀ P ∈ Ps, Visible c1 P) (v2 : ∀ P ∈ Ps, Visible c2 P)
    (hs : ∀ P ∈ Ps, ∃ s, SinAngle c1 c2 P s ∧ (1 / 10 ^ 8 < s ∨ s = 0)) :
    List.Forall₂ (fun n _ => Num.Is n 0) (discanteBetweenRaysBatch c1 c2 (Ps.map fun P => (imageFromSpace c1 P.num, imageFromSpace c2 P.num))) Ps := by
  unfold discanteBetweenRaysBatch Ray.distanceOfTwoLinesBatch
  rw [List.map_map, List.map_map]
  induction Ps with
  | nil => exact .nil
  | cons P Ps ih =>
    refine .cons ?_ (ih (fun Q h => v1 Q (by simp [h])) (fun Q h => v2 Q (by simp [h])) (fun Q h => hs Q (by simp [h])))
    obtain ⟨s, h, h'⟩ := hs P (by simp)
    exact C95_ray_distance_partial c1 c2 h1 h2 P (v1 P (by simp)) (v2 P (by simp)) (fun p _ => by rw [hl1]; exact fun _ h => h)
      (fun p _ => by rw [hl2]; exact fun _ h => h) s h h'

/-- Two cameras at the same place: every point is seen under the angle 0. -/
example : ∃ P : V3 ℝ, Visible exampleCam P ∧ ∃ s, SinAngle exampleCam exampleCam P s ∧ (1 / 10 ^ 8 < s ∨ s = 0) := by
  refine ⟨⟨1, 2, 3⟩, exampleCam_visible _ (by norm_num), 0, ?_, Or.inr rfl⟩
  unfold SinAngle
  simp [V3.cross, V3.norm, V3.normSq, mul_comm]

/-- **C95** is violated for all points at which the sine of the angle is positive but at most 1e-8, for example points far
away: the rays meet, but the returned distance is positive.  It is the distance of the second camera from the first ray, so
for far away points it is almost the whole baseline. -/
theorem C95_violated (c1 c2 : Cam) (h1 : c1.Proper) (h2 : c2.Proper) (P : V3 ℝ) (v1 : Visible c1 P) (v2 : Visible c2 P)
    (hl1 : ∀ p : V2 ℝ, (Projection.imageFromCamera c1.kind c1.intr (Spatial.cameraFromSpace c1.orient.mat P.num)).Is p → c1.lens.ExactAt p)
    (hl2 : ∀ p : V2 ℝ, (Projection.imageFromCamera c2.kind c2.intr (Spatial.cameraFromSpace c2.orient.mat P.num)).Is p → c2.lens.ExactAt p)
    (s : ℝ) (hs : SinAngle c1 c2 P s) (h0 : 0 < s) (hsmall : s ≤ 1 / 10 ^ 8) :
    ∃ d : ℝ, Num.Is (discanteBetweenRays c1 c2 (imageFromSpace c1 P.num) (imageFromSpace c2 P.num)) d ∧
      d = s * V3.dist P c2.orient.pos ∧ 0 < d := by
  obtain ⟨n1, i1⟩ := normed_ray c1 h1 P v1 hl1
  obtain ⟨n2, i2⟩ := normed_ray c2 h2 P v2 hl2
  have hn := norm_cross_units c1 c2 P s n1 n2 hs
  have ho1 := getRay_offset c1 (imageFromSpace c1 P.num) true
  have ho2 := getRay_offset c2 (imageFromSpace c2 P.num) true
  have hncr := (i1.cross i2).normN
  rw [hn] at hncr
  have hd := ho2.sub ho1
  have hn1 := i1.normN
  have e1 : ((P - c1.orient.pos).mulS (1 / (P - c1.orient.pos).norm)).norm = 1 := by
    rw [V3.norm_mulS _ _ (by positivity)]; field_simp
  rw [e1] at hn1
  refine ⟨s * (P - c2.orient.pos).norm, ?_, rfl, by positivity⟩
  unfold discanteBetweenRays Ray.distanceOfTwoLines
  simp only
  rw [if_pos (by rw [Ray.isClose0_iff hncr, abs_of_pos h0]; exact hsmall), if_neg (by rw [Ray.isClose0_iff hn1]; norm_num)]
  refine ((hd.cross i1).normN.div hn1 one_ne_zero).congr ?_
  have : V3.cross (c2.orient.pos - c1.orient.pos) ((P - c1.orient.pos).mulS (1 / (P - c1.orient.pos).norm)) =
      (V3.cross (P - c1.orient.pos) (P - c2.orient.pos)).mulS (1 / (P - c1.orient.pos).norm) := by
    ext <;> simp only [V3.cross, V3.mulS, V3.sub_x, V3.sub_y, V3.sub_z] <;> ring
  rw [div_one, this, V3.norm_mulS _ _ (by positivity), hs]
  field_simp

/-- A point 10^9 below the two cameras, which are 3 apart: the distance of the rays should be 0. -/
example : ∃ (d s : ℝ), 0 < s ∧ s ≤ 1 / 10 ^ 8 ∧ SinAngle exampleCam exampleCam2 ⟨0, 0, 10 - 10 ^ 9⟩ s ∧ 0 < d ∧
    Num.Is (discanteBetweenRays exampleCam exampleCam2 (imageFromSpace exampleCam (V3.num ⟨0, 0, 10 - 10 ^ 9⟩))
      (imageFromSpace exampleCam2 (V3.num ⟨0, 0, 10 - 10 ^ 9⟩))) d := by
  have en1 : ((⟨0, 0, 10 - 10 ^ 9⟩ : V3 ℝ) - exampleCam.orient.pos).norm = 10 ^ 9 := by
    unfold V3.norm
    rw [Real.sqrt_eq_iff_mul_self_eq (V3.normSq_nonneg _) (by positivity)]
    norm_num [V3.normSq, exampleCam, Orient.pos]
  have ec : (V3.cross ((⟨0, 0, 10 - 10 ^ 9⟩ : V3 ℝ) - exampleCam.orient.pos) (⟨0, 0, 10 - 10 ^ 9⟩ - exampleCam2.orient.pos)).norm = 3 * 10 ^ 9 := by
    unfold V3.norm
    rw [Real.sqrt_eq_iff_mul_self_eq (V3.normSq_nonneg _) (by positivity)]
    norm_num [V3.normSq, V3.cross, exampleCam, exampleCam2, Orient.pos]
  have hn2 : (10 : ℝ) ^ 9 ≤ ((⟨0, 0, 10 - 10 ^ 9⟩ : V3 ℝ) - exampleCam2.orient.pos).norm := by
    unfold V3.norm
    apply Real.le_sqrt_of_sq_le
    norm_num [V3.normSq, exampleCam2, Orient.pos]
  set n2 := ((⟨0, 0, 10 - 10 ^ 9⟩ : V3 ℝ) - exampleCam2.orient.pos).norm with hn2d
  have hp : 0 < n2 := lt_of_lt_of_le (by positivity) hn2
  have hs : SinAngle exampleCam exampleCam2 ⟨0, 0, 10 - 10 ^ 9⟩ (3 / n2) := by
    unfold SinAngle
    rw [ec, en1, ← hn2d]; field_simp
  have h0 : 0 < 3 / n2 := by positivity
  have h1 : 3 / n2 ≤ 1 / 10 ^ 8 := by
    rw [div_le_div_iff₀ hp (by positivity)]
    nlinarith
  obtain ⟨d, hd, -, hpos⟩ := C95_violated exampleCam exampleCam2 exampleCam_proper (by constructor <;> simp [exampleCam2]) ⟨0, 0, 10 - 10 ^ 9⟩
    (exampleCam_visible _ (by norm_num)) (exampleCam2_visible _ (by norm_num)) (fun _ _ _ h => h) (fun _ _ _ h => h) _ hs h0 h1
  exact ⟨d, _, h0, h1, hs, hpos, hd⟩
