import Verif.Spec.Lines
import Verif.Props.Camera
import Verif.Props.Projection
import Verif.Props.Spatial
import Mathlib.Topology.Algebra.Order.Field
import Mathlib.Topology.Order.OrderClosed
import Mathlib.Analysis.SpecificLimits.Basic

/-! # Straight lines (C147), the order of the rows (C148) and moving the camera with the world (C149) -/

open Classical Camera Projection Filter Topology

open Lines

theorem Lines.camR_along (c : Cam) (P Q : V3 ℝ) (t : ℝ) : camR c (along P Q t) = along (camR c P) (camR c Q) t := by
  ext <;> simp [camR, along, M3.applyR, V3.dot] <;> ring

/-- The image of a point of space for a rectilinear camera without lens distortion. -/
theorem Lines.image_of (c : Cam) (hk : c.kind = .rectilinear) (hl : c.lens = noDistortion) (P : V3 ℝ) (hide : Bool)
    (hz : minDepth ≤ |(camR c P).z|) (hf : hide = true → (camR c P).z < 0) :
    (imageFromSpace c P.num hide).Is ⟨-(camR c P).x * c.intr.fx / (camR c P).z + c.intr.cx,
      (camR c P).y * c.intr.fy / (camR c P).z + c.intr.cy⟩ := by
  have h := cameraFromSpace_is c (V3.is_num P)
  have hs := snap_far h hz
  have hz0 : (camR c P).z ≠ 0 := by
    intro e; rw [e] at hz; norm_num [minDepth] at hz
  simp only [imageFromSpace, hl, noDistortion, id, hk, imageFromCamera, imageFromCameraRect, hs]
  exact projRect_is h hz0 hide hf

/-- A finite image is the one of `image_of`. -/
theorem Lines.image_inv (c : Cam) (hk : c.kind = .rectilinear) (hl : c.lens = noDistortion) (P : V3 ℝ) (hide : Bool) {p : V2 ℝ}
    (hp : (imageFromSpace c P.num hide).Is p) :
    minDepth ≤ |(camR c P).z| ∧ (hide = true → (camR c P).z < 0) ∧ (camR c P).z ≠ 0 ∧
      p = ⟨-(camR c P).x * c.intr.fx / (camR c P).z + c.intr.cx, (camR c P).y * c.intr.fy / (camR c P).z + c.intr.cy⟩ := by
  have h := cameraFromSpace_is c (V3.is_num P)
  have hd : minDepth ≤ |(camR c P).z| := by
    by_contra hd
    have hs := snap_near h.2.2 (not_le.1 hd)
    simp only [imageFromSpace, hl, noDistortion, id, hk, imageFromCamera, imageFromCameraRect, hs, projRect] at hp
    have h1 : Num.Is (-(Num.fin 0) * Num.fin c.intr.fx) 0 := ((Num.is_fin 0).neg.mul (Num.is_fin _)).congr (by ring)
    simp only [Num.zero_div_zero h1 (Num.is_fin 0), Num.nan_add] at hp
    split_ifs at hp
    · exact hp.1
    · exact hp.1
  have hz0 : (camR c P).z ≠ 0 := by
    intro e; rw [e] at hd; norm_num [minDepth] at hd
  have hf : hide = true → (camR c P).z < 0 := by
    intro hh
    by_contra hn
    have hpos : 0 < (camR c P).z := lt_of_le_of_ne (not_lt.1 hn) (Ne.symm hz0)
    simp only [imageFromSpace, hl, noDistortion, id, hk, imageFromCamera, imageFromCameraRect, snap_far h hd, projRect] at hp
    rw [if_pos ⟨hh, ((Num.is_fin 0).lt_iff h.2.2).2 hpos⟩] at hp
    exact hp.1
  refine ⟨hd, hf, hz0, ?_⟩
  have := image_of c hk hl P hide hd hf
  ext
  · exact hp.1.unique this.1
  · exact hp.2.unique this.2

/-- **C147** A rectilinear camera without lens distortion shows points of a straight line on a straight line (with and without the points
behind the camera). -/
theorem C147_lines (c : Cam) (hk : c.kind = .rectilinear) (hl : c.lens = noDistortion) (P Q : V3 ℝ) (t : ℝ) (hide : Bool) (p q r : V2 ℝ)
    (hp : (imageFromSpace c P.num hide).Is p) (hq : (imageFromSpace c Q.num hide).Is q)
    (hr : (imageFromSpace c (along P Q t).num hide).Is r) : Straight p q r := by
  obtain ⟨-, -, a1, a2⟩ := image_inv c hk hl P hide hp
  obtain ⟨-, -, b1, b2⟩ := image_inv c hk hl Q hide hq
  obtain ⟨-, -, c1, c2⟩ := image_inv c hk hl _ hide hr
  rw [camR_along] at c1 c2
  rw [a2, b2, c2]
  generalize camR c P = A at *
  generalize camR c Q = B at *
  simp only [along, Straight] at c1 ⊢
  field_simp
  ring

/-- **C147** Everything between two visible points is visible, and is shown between their images. -/
theorem C147_segment (c : Cam) (hk : c.kind = .rectilinear) (hl : c.lens = noDistortion) (P Q : V3 ℝ) (t : ℝ) (h0 : 0 ≤ t) (h1 : t ≤ 1)
    (p q : V2 ℝ) (hp : (imageFromSpace c P.num).Is p) (hq : (imageFromSpace c Q.num).Is q) :
    ∃ s : ℝ, 0 ≤ s ∧ s ≤ 1 ∧ (0 < t → 0 < s) ∧ (t < 1 → s < 1) ∧
      (imageFromSpace c (along P Q t).num).Is ⟨p.x + s * (q.x - p.x), p.y + s * (q.y - p.y)⟩ := by
  obtain ⟨ad, af, a1, a2⟩ := image_inv c hk hl P true hp
  obtain ⟨bd, bf, b1, b2⟩ := image_inv c hk hl Q true hq
  have az := af rfl
  have bz := bf rfl
  rw [abs_of_neg az] at ad
  rw [abs_of_neg bz] at bd
  have cz : (camR c (along P Q t)).z ≤ -minDepth := by
    rw [camR_along]; simp only [along]; nlinarith
  have hm : 0 < minDepth := by norm_num [minDepth]
  have cz' : (camR c (along P Q t)).z < 0 := by linarith
  have hi := image_of c hk hl (along P Q t) true (by rw [abs_of_neg cz']; linarith) (fun _ => cz')
  rw [camR_along] at hi cz'
  rw [a2, b2]
  generalize camR c P = A at *
  generalize camR c Q = B at *
  simp only [along] at hi cz'
  have e : A.z + t * (B.z - A.z) = (1 - t) * A.z + t * B.z := by ring
  rw [e] at hi cz'
  refine ⟨t * B.z / ((1 - t) * A.z + t * B.z), ?_, ?_, ?_, ?_, ?_⟩
  · exact div_nonneg_of_nonpos (by nlinarith) cz'.le
  · rw [div_le_one_of_neg cz']; nlinarith
  · intro ht; exact div_pos_of_neg_of_neg (by nlinarith) cz'
  · intro ht; rw [div_lt_one_of_neg cz']; nlinarith
  · have n := cz'.ne
    have h2 : t * B.z / ((1 - t) * A.z + t * B.z) = 1 - (1 - t) * A.z / ((1 - t) * A.z + t * B.z) := by
      field_simp; ring
    refine ⟨hi.1.congr ?_, hi.2.congr ?_⟩
    · simp only
      field_simp
      ring
    · simp only
      field_simp
      ring

theorem Lines.tends (a b z : ℝ) : Tendsto (fun s : ℝ => (a + s * b) / (z - s)) atTop (𝓝 (-b)) := by
  have h1 : Tendsto (fun s : ℝ => (a + z * b) / (z - s) - b) atTop (𝓝 (0 - b)) := by
    refine Tendsto.sub ?_ tendsto_const_nhds
    refine Tendsto.div_atBot (a := a + z * b) tendsto_const_nhds ?_
    exact tendsto_const_nhds.add_atBot tendsto_neg_atTop_atBot
  rw [zero_sub] at h1
  refine h1.congr' ?_
  filter_upwards [eventually_gt_atTop z] with s hs
  have : z - s ≠ 0 := by linarith
  field_simp; ring

/-- **C147** Parallel lines have a common vanishing point: what moves away along the ray direction of a pixel `v` comes arbitrarily close
to `v`, wherever it starts. -/
theorem C147_vanishing (c : Cam) (hk : c.kind = .rectilinear) (hl : c.lens = noDistortion) (hc : c.Proper) (v : V2 ℝ) (D : V3 ℝ)
    (hD : (getRay c v.num).2.Is D) (P : V3 ℝ) :
    ∃ f : ℝ → V2 ℝ, (∀ᶠ s in atTop, (imageFromSpace c (V3.num ⟨P.x + s * D.x, P.y + s * D.y, P.z + s * D.z⟩)).Is (f s)) ∧
      Tendsto (fun s => (f s).x) atTop (𝓝 v.x) ∧ Tendsto (fun s => (f s).y) atTop (𝓝 v.y) := by
  obtain ⟨hfx, hfy⟩ := hc
  have hv : (c.lens.imageFromDistorted v.num).Is v := by rw [hl]; exact ⟨rfl, rfl⟩
  obtain ⟨s, -, h2, -, h4⟩ := getRay_dir c hfx hfy hv false
  have hs : s = 1 := h2 rfl
  have hD' : D = dirR c v := by
    have := hD.unique h4
    rw [this, hs]; ext <;> simp
  have hR : c.orient.mat.R.applyR D = rayR .rectilinear c.intr v := by
    rw [hD', dirR, hk, M3.applyR_applyR_T (rigid_mat c.orient).RT]
  have hcam : ∀ s : ℝ, camR c ⟨P.x + s * D.x, P.y + s * D.y, P.z + s * D.z⟩ =
      ⟨(camR c P).x + s * ((v.x - c.intr.cx) / c.intr.fx), (camR c P).y - s * ((v.y - c.intr.cy) / c.intr.fy), (camR c P).z - s⟩ := by
    intro s
    have e : camR c ⟨P.x + s * D.x, P.y + s * D.y, P.z + s * D.z⟩ = camR c P + (c.orient.mat.R.applyR D).mulS s := by
      ext <;> simp [camR, M3.applyR, V3.dot] <;> ring
    rw [e, hR]
    ext <;> simp [rayR] <;> ring
  refine ⟨fun s => ⟨-((camR c P).x + s * ((v.x - c.intr.cx) / c.intr.fx)) * c.intr.fx / ((camR c P).z - s) + c.intr.cx,
    ((camR c P).y - s * ((v.y - c.intr.cy) / c.intr.fy)) * c.intr.fy / ((camR c P).z - s) + c.intr.cy⟩, ?_, ?_, ?_⟩
  · filter_upwards [eventually_ge_atTop ((camR c P).z + minDepth)] with s hs
    have hm : 0 < minDepth := by norm_num [minDepth]
    have hz : (camR c ⟨P.x + s * D.x, P.y + s * D.y, P.z + s * D.z⟩).z < 0 := by rw [hcam]; simp only; linarith
    have := image_of c hk hl ⟨P.x + s * D.x, P.y + s * D.y, P.z + s * D.z⟩ true
      (by rw [abs_of_neg hz, hcam]; simp only; linarith) (fun _ => hz)
    rw [hcam] at this
    exact this
  · have h := (Lines.tends (-(camR c P).x * c.intr.fx) (-(v.x - c.intr.cx)) (camR c P).z).add_const c.intr.cx
    have e : -(-(v.x - c.intr.cx)) + c.intr.cx = v.x := by ring
    rw [e] at h
    refine h.congr fun s => ?_
    congr 2
    field_simp; ring
  · have h := (Lines.tends ((camR c P).y * c.intr.fy) (-(v.y - c.intr.cy)) (camR c P).z).add_const c.intr.cy
    have e : -(-(v.y - c.intr.cy)) + c.intr.cy = v.y := by ring
    rw [e] at h
    refine h.congr fun s => ?_
    congr 2
    field_simp; ring

theorem Lines.camR_level (c : Cam) (o : Spatial.Params) (ho : c.orient = .thr o) (hr : o.roll_deg = 0) (P : V3 ℝ) :
    camR c P = ⟨aside o P, Real.cos (o.tilt_deg * Real.pi / 180) * ahead o P + Real.sin (o.tilt_deg * Real.pi / 180) * (P.z - o.elevation_m),
      -Real.sin (o.tilt_deg * Real.pi / 180) * ahead o P + Real.cos (o.tilt_deg * Real.pi / 180) * (P.z - o.elevation_m)⟩ := by
  have h := (C12_heading_wrap o).2.2.2.2.1
  have e1 : ∀ x : ℝ, Spatial.rad x = x * Real.pi / 180 := fun x => by unfold Spatial.rad; ring
  unfold camR
  rw [ho]
  simp only [Orient.mat, Orient.pos, h, Spatial.matrices, hr, e1]
  ext <;> simp [M3.applyR, V3.dot, Spatial.rotation, M3.mul, M3.rowMul, M3.T, Spatial.R_roll, Spatial.R_tilt, Spatial.R_head, aside, ahead] <;> ring

/-- **C148** A camera without roll above the ground: of two points of the ground (or of any horizontal plane below the camera) the one further
ahead is shown further up, and points equally far ahead are shown in the same row. -/
theorem C148_rows (c : Cam) (hk : c.kind = .rectilinear) (hl : c.lens = noDistortion) (o : Spatial.Params) (ho : c.orient = .thr o)
    (hroll : o.roll_deg = 0) (hfy : 0 < c.intr.fy) (P Q : V3 ℝ) (hz : P.z = Q.z) (hP : P.z < o.elevation_m) (p q : V2 ℝ)
    (hp : (imageFromSpace c P.num).Is p) (hq : (imageFromSpace c Q.num).Is q) :
    (q.y < p.y ↔ ahead o P < ahead o Q) ∧ (q.y = p.y ↔ ahead o P = ahead o Q) := by
  obtain ⟨-, af, -, a2⟩ := image_inv c hk hl P true hp
  obtain ⟨-, bf, -, b2⟩ := image_inv c hk hl Q true hq
  have az := af rfl
  have bz := bf rfl
  rw [camR_level c o ho hroll] at a2 az
  rw [camR_level c o ho hroll] at b2 bz
  rw [a2, b2]
  simp only at az bz ⊢
  rw [← hz] at *
  have hsc := Real.sin_sq_add_cos_sq (o.tilt_deg * Real.pi / 180)
  generalize Real.sin (o.tilt_deg * Real.pi / 180) = s at *
  generalize Real.cos (o.tilt_deg * Real.pi / 180) = k at *
  generalize ahead o P = u at *
  generalize ahead o Q = v at *
  have hg : P.z - o.elevation_m < 0 := by linarith
  generalize P.z - o.elevation_m = g at *
  have key : (k * u + s * g) * c.intr.fy / (-s * u + k * g) + c.intr.cy - ((k * v + s * g) * c.intr.fy / (-s * v + k * g) + c.intr.cy) =
      (v - u) * (-g * c.intr.fy / ((-s * u + k * g) * (-s * v + k * g))) := by
    have h1 := az.ne
    have h2 := bz.ne
    obtain ⟨d, hd⟩ : ∃ d, d = -s * u + k * g := ⟨_, rfl⟩
    obtain ⟨e, he⟩ : ∃ e, e = -s * v + k * g := ⟨_, rfl⟩
    rw [← hd] at h1 ⊢
    rw [← he] at h2 ⊢
    field_simp
    rw [hd, he]
    linear_combination c.intr.fy * (u - v) * g * hsc
  have hpos : 0 < -g * c.intr.fy / ((-s * u + k * g) * (-s * v + k * g)) :=
    div_pos (mul_pos (neg_pos.2 hg) hfy) (mul_pos_of_neg_of_neg az bz)
  constructor
  · rw [← sub_pos, key, mul_pos_iff_of_pos_right hpos, sub_pos]
  · rw [eq_comm, ← sub_eq_zero, key, mul_eq_zero, or_iff_left hpos.ne', sub_eq_zero, eq_comm]

/-- **C148** In a row, points further to the right are shown further to the right. -/
theorem C148_columns (c : Cam) (hk : c.kind = .rectilinear) (hl : c.lens = noDistortion) (o : Spatial.Params) (ho : c.orient = .thr o)
    (hroll : o.roll_deg = 0) (hfx : 0 < c.intr.fx) (P Q : V3 ℝ) (hz : P.z = Q.z) (ha : ahead o P = ahead o Q) (p q : V2 ℝ)
    (hp : (imageFromSpace c P.num).Is p) (hq : (imageFromSpace c Q.num).Is q) :
    (p.x < q.x ↔ aside o P < aside o Q) ∧ (p.x = q.x ↔ aside o P = aside o Q) := by
  obtain ⟨-, af, -, a2⟩ := image_inv c hk hl P true hp
  obtain ⟨-, bf, -, b2⟩ := image_inv c hk hl Q true hq
  have az := af rfl
  rw [camR_level c o ho hroll] at a2 az
  rw [camR_level c o ho hroll] at b2
  rw [a2, b2]
  rw [← hz, ← ha]
  simp only at az ⊢
  generalize -Real.sin (o.tilt_deg * Real.pi / 180) * ahead o P + Real.cos (o.tilt_deg * Real.pi / 180) * (P.z - o.elevation_m) = d at *
  have key : (-aside o Q * c.intr.fx / d + c.intr.cx) - (-aside o P * c.intr.fx / d + c.intr.cx) = (aside o Q - aside o P) * (c.intr.fx / -d) := by
    field_simp; ring
  have hpos : 0 < c.intr.fx / -d := div_pos hfx (neg_pos.2 az)
  constructor
  · rw [← sub_pos, key, mul_pos_iff_of_pos_right hpos, sub_pos]
  · rw [eq_comm, ← sub_eq_zero, key, mul_eq_zero, or_iff_left hpos.ne', sub_eq_zero, eq_comm]

/-- **C148** The row of the horizon, `center_y - f_y / tan(tilt)`, separates what is lower than the camera from what is higher: a point is shown
below that row (with a larger y) exactly if it is lower than the camera, and in that row exactly if it is at the height of the camera. -/
theorem C148_horizon (c : Cam) (hk : c.kind = .rectilinear) (hl : c.lens = noDistortion) (o : Spatial.Params) (ho : c.orient = .thr o)
    (hroll : o.roll_deg = 0) (hfy : 0 < c.intr.fy) (ht0 : 0 < o.tilt_deg) (ht1 : o.tilt_deg < 180) (P : V3 ℝ) (p : V2 ℝ)
    (hp : (imageFromSpace c P.num).Is p) :
    (c.intr.cy - c.intr.fy * (Real.cos (o.tilt_deg * Real.pi / 180) / Real.sin (o.tilt_deg * Real.pi / 180)) < p.y ↔ P.z < o.elevation_m) ∧
    (c.intr.cy - c.intr.fy * (Real.cos (o.tilt_deg * Real.pi / 180) / Real.sin (o.tilt_deg * Real.pi / 180)) = p.y ↔ P.z = o.elevation_m) := by
  obtain ⟨-, af, -, a2⟩ := image_inv c hk hl P true hp
  have az := af rfl
  rw [camR_level c o ho hroll] at a2 az
  rw [a2]
  simp only at az ⊢
  have hpi := Real.pi_pos
  have hs : 0 < Real.sin (o.tilt_deg * Real.pi / 180) := Real.sin_pos_of_pos_of_lt_pi (by positivity) (by nlinarith)
  have hsc := Real.sin_sq_add_cos_sq (o.tilt_deg * Real.pi / 180)
  generalize Real.sin (o.tilt_deg * Real.pi / 180) = s at *
  generalize Real.cos (o.tilt_deg * Real.pi / 180) = k at *
  generalize ahead o P = u at *
  have key : (k * u + s * (P.z - o.elevation_m)) * c.intr.fy / (-s * u + k * (P.z - o.elevation_m)) + c.intr.cy - (c.intr.cy - c.intr.fy * (k / s)) =
      (o.elevation_m - P.z) * (c.intr.fy / (s * -(-s * u + k * (P.z - o.elevation_m)))) := by
    have h1 := az.ne
    have h2 := hs.ne'
    obtain ⟨d, hd⟩ : ∃ d, d = -s * u + k * (P.z - o.elevation_m) := ⟨_, rfl⟩
    rw [← hd] at h1 ⊢
    field_simp
    rw [hd]
    linear_combination c.intr.fy * (P.z - o.elevation_m) * hsc
  have hpos : 0 < c.intr.fy / (s * -(-s * u + k * (P.z - o.elevation_m))) := div_pos hfy (mul_pos hs (neg_pos.2 az))
  constructor
  · rw [← sub_pos, key, mul_pos_iff_of_pos_right hpos, sub_pos]
  · rw [eq_comm, ← sub_eq_zero, key, mul_eq_zero, or_iff_left hpos.ne', sub_eq_zero, eq_comm]

theorem Lines.moved_R (c : Cam) (d : V3 ℝ) : (moved c d).orient.mat.R = c.orient.mat.R ∧ (moved c d).orient.mat.Rinv = c.orient.mat.Rinv ∧
    (moved c d).orient.pos = c.orient.pos + d := by
  unfold moved
  cases c.orient <;> exact ⟨rfl, rfl, rfl⟩

theorem Lines.fin_sub (a b : ℝ) : Num.fin a - Num.fin b = Num.fin (a - b) := by
  show Num.add (Num.fin a) (Num.neg (Num.fin b)) = _
  by_cases hb : b = 0
  · subst hb; simp [Num.neg, Num.add, Num.rv]
  · simp [Num.neg, hb, Num.add, Num.rv, sub_eq_add_neg]

/-- **C149** The image of a point does not change if the camera and the point are moved by the same vector, whatever the projection, the
orientation and the lens. -/
theorem C149_image (c : Cam) (d P : V3 ℝ) (hide : Bool) :
    imageFromSpace (moved c d) (P + d).num hide = imageFromSpace c P.num hide := by
  have e : Spatial.cameraFromSpace (moved c d).orient.mat (P + d).num = Spatial.cameraFromSpace c.orient.mat P.num := by
    unfold Spatial.cameraFromSpace
    obtain ⟨h1, -, h3⟩ := moved_R c d
    rw [h1, mat_t, h3, mat_t]
    congr 1
    ext <;> simp [V3.num, fin_sub]
  unfold imageFromSpace
  rw [e]
  rfl

/-- **C149** The rays of a moved camera have the same directions and start at the moved position. -/
theorem C149_ray (c : Cam) (d : V3 ℝ) (p : V2 Num) (normed : Bool) :
    (getRay (moved c d) p normed).2 = (getRay c p normed).2 ∧
    ∃ A, (getRay c p normed).1.Is A ∧ (getRay (moved c d) p normed).1.Is (A + d) := by
  obtain ⟨-, h2, h3⟩ := moved_R c d
  refine ⟨?_, c.orient.pos, getRay_offset c p normed, h3 ▸ getRay_offset (moved c d) p normed⟩
  simp only [Camera.getRay, Spatial.spaceFromCamera, h2]
  rfl

theorem Lines.zero_add_fin {x : Num} (h : Num.Is x 0) (b : ℝ) : x + Num.fin b = Num.fin b := by
  cases x with
  | fin a => have : a = 0 := h; subst this; show Num.fin (0 + b) = _; rw [zero_add]
  | nzero => show Num.fin (0 + b) = _; rw [zero_add]
  | pinf => exact h.elim
  | ninf => exact h.elim
  | nan => exact h.elim

/-- The start of a ray is exactly the position of the camera. -/
theorem Lines.ray_start (c : Cam) (p : V2 Num) (normed : Bool) : (Camera.getRay c p normed).1 = c.orient.pos.num := by
  have h : (V3.num ⟨0, 0, 0⟩).Is ⟨0, 0, 0⟩ := V3.is_num _
  have h1 := M3.apply_is (A := c.orient.mat.Rinv) h
  have e : (Camera.getRay c p normed).1 = (c.orient.mat.Rinv.apply (V3.num ⟨0, 0, 0⟩) + c.orient.mat.t.num) := rfl
  rw [e, mat_t]
  have h2 : c.orient.mat.Rinv.applyR ⟨0, 0, 0⟩ = ⟨0, 0, 0⟩ := by ext <;> simp [M3.applyR, V3.dot]
  rw [h2] at h1
  ext
  · exact zero_add_fin h1.1 _
  · exact zero_add_fin h1.2.1 _
  · exact zero_add_fin h1.2.2 _

theorem Lines.sub_eq_nan_iff {x : Num} (b : ℝ) : x + Num.fin b = .nan ↔ x = .nan := by
  cases x <;> simp [HAdd.hAdd, Add.add, Num.add]

theorem Lines.is_of_add {x : Num} {b r : ℝ} (h : Num.Is (x + Num.fin b) r) : Num.Is x (r - b) := by
  cases x with
  | fin a => have : a + b = r := h; exact (by linarith : a = r - b)
  | nzero => have : 0 + b = r := h; exact (by linarith : (r - b) = 0)
  | pinf => exact h.elim
  | ninf => exact h.elim
  | nan => exact h.elim

/-- `pointAt` with a moved start. -/
theorem Lines.pointAt_moved (A d : V3 ℝ) (D : V3 Num) (f : Num) :
    (∀ R : V3 ℝ, (pointAt A.num D f).Is R → (pointAt (A + d).num D f).Is (R + d)) ∧
    (pointAt (A + d).num D f = V3.nan ↔ pointAt A.num D f = V3.nan) := by
  unfold pointAt
  split_ifs with h
  · exact ⟨fun R hR => hR.1.elim, Iff.rfl⟩
  · constructor
    · rintro R ⟨h1, h2, h3⟩
      exact ⟨((is_of_add h1).add (Num.is_fin _)).congr (by simp only [V3.add_x]; ring), ((is_of_add h2).add (Num.is_fin _)).congr (by simp only [V3.add_y]; ring),
        ((is_of_add h3).add (Num.is_fin _)).congr (by simp only [V3.add_z]; ring)⟩
    · simp only [V3.ext_iff, V3.nan, V3.num, V3.add_x, V3.add_y, V3.add_z, sub_eq_nan_iff]

/-- **C149** The point of space of a pixel moves with the camera: with the plane `X`, `Y` or `Z` moved along, or with a fixed distance `D`. -/
theorem C149_space (c : Cam) (d : V3 ℝ) (p : V2 Num) :
    (∀ (i : Fin 3) (v : ℝ), ∃ X X', spaceFromImage c p (coord i (.fin v)) = .ok X ∧
      spaceFromImage (moved c d) p (coord i (.fin (v + d.get i))) = .ok X' ∧
      (∀ R : V3 ℝ, X.Is R → X'.Is (R + d)) ∧ (X' = V3.nan ↔ X = V3.nan)) ∧
    (∀ D : Num, ∃ X X', spaceFromImage c p { D := some D } = .ok X ∧ spaceFromImage (moved c d) p { D := some D } = .ok X' ∧
      (∀ R : V3 ℝ, X.Is R → X'.Is (R + d)) ∧ (X' = V3.nan ↔ X = V3.nan)) := by
  obtain ⟨-, -, h3⟩ := moved_R c d
  constructor
  · intro i v
    refine ⟨_, _, Camera.spaceFromImage_coord c p i _, Camera.spaceFromImage_coord _ p i _, ?_⟩
    rw [ray_start, ray_start, (C149_ray c d p false).1, h3]
    have e : (Num.fin (v + d.get i) - (c.orient.pos + d).num.get i) = (Num.fin v - c.orient.pos.num.get i) := by
      fin_cases i <;> simp [V3.num, V3.get, fin_sub]
    rw [e]
    exact pointAt_moved _ _ _ _
  · intro D
    refine ⟨_, _, rfl, rfl, ?_⟩
    rw [ray_start, ray_start, (C149_ray c d p true).1, h3]
    exact pointAt_moved _ _ _ _

/-! ### Examples -/

/-- A camera 10 m above the ground that looks horizontally along y. -/
noncomputable def Lines.exCam : Cam := ⟨.rectilinear, ⟨100, 100, 50, 25, 100, 50⟩, .thr ⟨10, 90, 0, 0, 0, 0⟩, noDistortion⟩

theorem Lines.exCam_camR (P : V3 ℝ) : camR exCam P = ⟨P.x, P.z - 10, -P.y⟩ := by
  rw [camR_level exCam ⟨10, 90, 0, 0, 0, 0⟩ rfl rfl]
  have e : (90 : ℝ) * Real.pi / 180 = Real.pi / 2 := by ring
  ext <;> simp [ahead, aside, e]

/-- It sees everything that is at least 1 m ahead. -/
theorem Lines.exCam_sees (P : V3 ℝ) (h : 1 ≤ P.y) : ∃ p, (imageFromSpace exCam P.num).Is p := by
  refine ⟨_, image_of exCam rfl rfl P true ?_ fun _ => ?_⟩
  · rw [exCam_camR]; simp only [abs_neg]; rw [abs_of_pos (by linarith)]
    have : minDepth ≤ 1 := by norm_num [minDepth]
    linarith
  · rw [exCam_camR]; simp only; linarith

example : ∃ p q r : V2 ℝ, (imageFromSpace exCam (V3.num ⟨0, 1, 0⟩)).Is p ∧ (imageFromSpace exCam (V3.num ⟨1, 2, 1⟩)).Is q ∧
    (imageFromSpace exCam (along ⟨0, 1, 0⟩ ⟨1, 2, 1⟩ 3).num).Is r ∧ Straight p q r := by
  obtain ⟨p, hp⟩ := exCam_sees ⟨0, 1, 0⟩ (by norm_num)
  obtain ⟨q, hq⟩ := exCam_sees ⟨1, 2, 1⟩ (by norm_num)
  obtain ⟨r, hr⟩ := exCam_sees (along ⟨0, 1, 0⟩ ⟨1, 2, 1⟩ 3) (by norm_num [along])
  exact ⟨p, q, r, hp, hq, hr, C147_lines exCam rfl rfl _ _ 3 true p q r hp hq hr⟩

example : ∃ p q : V2 ℝ, (imageFromSpace exCam (V3.num ⟨0, 1, 0⟩)).Is p ∧ (imageFromSpace exCam (V3.num ⟨1, 2, 1⟩)).Is q ∧
    ∃ s : ℝ, 0 < s ∧ s < 1 ∧
      (imageFromSpace exCam (along ⟨0, 1, 0⟩ ⟨1, 2, 1⟩ (1 / 2)).num).Is ⟨p.x + s * (q.x - p.x), p.y + s * (q.y - p.y)⟩ := by
  obtain ⟨p, hp⟩ := exCam_sees ⟨0, 1, 0⟩ (by norm_num)
  obtain ⟨q, hq⟩ := exCam_sees ⟨1, 2, 1⟩ (by norm_num)
  obtain ⟨s, -, -, h3, h4, h5⟩ := C147_segment exCam rfl rfl _ _ (1 / 2) (by norm_num) (by norm_num) p q hp hq
  exact ⟨p, q, hp, hq, s, h3 (by norm_num), h4 (by norm_num), h5⟩

example (P : V3 ℝ) : ∃ (D : V3 ℝ) (f : ℝ → V2 ℝ), (Camera.getRay exCam (V2.num ⟨3, 4⟩)).2.Is D ∧
    Tendsto (fun s => (f s).x) atTop (𝓝 3) ∧
    ∀ᶠ s in atTop, (imageFromSpace exCam (V3.num ⟨P.x + s * D.x, P.y + s * D.y, P.z + s * D.z⟩)).Is (f s) := by
  have hc : exCam.Proper := by simp [Cam.Proper, exCam]
  obtain ⟨s, -, -, -, h⟩ := getRay_dir exCam hc.1 hc.2 (n := V2.num ⟨3, 4⟩) (p := ⟨3, 4⟩) ⟨rfl, rfl⟩ false
  obtain ⟨f, h1, h2, -⟩ := C147_vanishing exCam rfl rfl hc ⟨3, 4⟩ _ h P
  exact ⟨_, f, h, h2, h1⟩

example : ∃ p q : V2 ℝ, (imageFromSpace exCam (V3.num ⟨0, 20, 0⟩)).Is p ∧ (imageFromSpace exCam (V3.num ⟨5, 30, 0⟩)).Is q ∧ q.y < p.y := by
  obtain ⟨p, hp⟩ := exCam_sees ⟨0, 20, 0⟩ (by norm_num)
  obtain ⟨q, hq⟩ := exCam_sees ⟨5, 30, 0⟩ (by norm_num)
  refine ⟨p, q, hp, hq, (C148_rows exCam rfl rfl _ rfl rfl (by norm_num [exCam]) ⟨0, 20, 0⟩ ⟨5, 30, 0⟩ rfl (by norm_num) p q hp hq).1.2 (by norm_num [ahead])⟩

example : ∃ p q : V2 ℝ, (imageFromSpace exCam (V3.num ⟨0, 20, 0⟩)).Is p ∧ (imageFromSpace exCam (V3.num ⟨5, 20, 0⟩)).Is q ∧ p.x < q.x := by
  obtain ⟨p, hp⟩ := exCam_sees ⟨0, 20, 0⟩ (by norm_num)
  obtain ⟨q, hq⟩ := exCam_sees ⟨5, 20, 0⟩ (by norm_num)
  refine ⟨p, q, hp, hq, (C148_columns exCam rfl rfl _ rfl rfl (by norm_num [exCam]) ⟨0, 20, 0⟩ ⟨5, 20, 0⟩ rfl (by norm_num [ahead]) p q hp hq).1.2
    (by norm_num [aside])⟩

example : ∃ p : V2 ℝ, (imageFromSpace exCam (V3.num ⟨0, 20, 0⟩)).Is p ∧
    25 - 100 * (Real.cos (90 * Real.pi / 180) / Real.sin (90 * Real.pi / 180)) < p.y := by
  obtain ⟨p, hp⟩ := exCam_sees ⟨0, 20, 0⟩ (by norm_num)
  exact ⟨p, hp, (C148_horizon exCam rfl rfl ⟨10, 90, 0, 0, 0, 0⟩ rfl rfl (by norm_num [exCam]) (by norm_num) (by norm_num) _ p hp).1.2 (by norm_num)⟩

example : imageFromSpace (moved exCam ⟨1, 2, 3⟩) (V3.num ⟨1, 22, 3⟩) = imageFromSpace exCam (V3.num ⟨0, 20, 0⟩) := by
  have := C149_image exCam ⟨1, 2, 3⟩ ⟨0, 20, 0⟩ true
  rw [← this]
  congr 1
  ext <;> norm_num [V3.num]
