import Verif.Spec.Warp
import Verif.Props.Unique

/-! # Pictures of a plane and from the same place are related by projective maps (C170) -/

open Classical Camera Projection Lines

namespace Warp

theorem det_mul (A B : M3) : (M3.mul A B).det = A.det * B.det := by
  simp only [M3.mul, M3.rowMul, M3.T, M3.det, V3.dot, V3.cross]
  ring

theorem apply_mul (A B : M3) (v : V3 ℝ) : (M3.mul A B).applyR v = A.applyR (B.applyR v) := by
  ext <;> simp only [M3.mul, M3.rowMul, M3.T, M3.applyR, V3.dot] <;> ring

theorem apply_scale (A : M3) (v : V3 ℝ) (s : ℝ) : A.applyR (v.mulS s) = (A.applyR v).mulS s := by
  ext <;> simp only [M3.applyR, V3.dot, V3.mulS_x, V3.mulS_y, V3.mulS_z] <;> ring

/-- From pixels to rays of the camera. -/
noncomputable def back (I : Intr) : M3 := ⟨⟨1 / I.fx, 0, -I.cx / I.fx⟩, ⟨0, -1 / I.fy, I.cy / I.fy⟩, ⟨0, 0, -1⟩⟩

/-- From rays of the camera to pixels. -/
def forth (I : Intr) : M3 := ⟨⟨-I.fx, 0, I.cx⟩, ⟨0, I.fy, I.cy⟩, ⟨0, 0, 1⟩⟩

/-- The points of a plane seen from another place. -/
noncomputable def shift (d n : V3 ℝ) (e : ℝ) : M3 :=
  ⟨⟨1 + d.x * n.x / e, d.x * n.y / e, d.x * n.z / e⟩, ⟨d.y * n.x / e, 1 + d.y * n.y / e, d.y * n.z / e⟩, ⟨d.z * n.x / e, d.z * n.y / e, 1 + d.z * n.z / e⟩⟩

theorem det_shift (d n : V3 ℝ) (e : ℝ) (he : e ≠ 0) : (shift d n e).det = (e + d.dot n) / e := by
  simp only [shift, M3.det, V3.dot, V3.cross]
  field_simp
  ring

theorem shift_apply (d n v : V3 ℝ) (e : ℝ) (he : e ≠ 0) (hv : v.dot n = e) : (shift d n e).applyR v = v + d := by
  simp only [V3.dot] at hv
  ext <;> simp only [shift, M3.applyR, V3.dot, V3.add_x, V3.add_y, V3.add_z] <;> field_simp
  · linear_combination d.x * hv
  · linear_combination d.y * hv
  · linear_combination d.z * hv

theorem back_apply (c : Cam) (hk : c.kind = .rectilinear) (hl : c.lens = noDistortion) (hfx : c.intr.fx ≠ 0) (hfy : c.intr.fy ≠ 0) (P : V3 ℝ) (hide : Bool) (p : V2 ℝ)
    (hp : (imageFromSpace c P.num hide).Is p) : ∃ s : ℝ, s ≠ 0 ∧ (back c.intr).applyR ⟨p.x, p.y, 1⟩ = (camR c P).mulS s := by
  obtain ⟨-, -, a1, a2⟩ := image_inv c hk hl P hide hp
  refine ⟨-1 / (camR c P).z, div_ne_zero (by norm_num) a1, ?_⟩
  rw [a2]
  ext <;> simp only [back, M3.applyR, V3.dot, V3.mulS_x, V3.mulS_y, V3.mulS_z] <;> field_simp <;> ring

theorem forth_apply (c : Cam) (hk : c.kind = .rectilinear) (hl : c.lens = noDistortion) (P : V3 ℝ) (hide : Bool) (p : V2 ℝ)
    (hp : (imageFromSpace c P.num hide).Is p) {s : ℝ} (hs : s ≠ 0) {v : V3 ℝ} (hv : v = ((forth c.intr).applyR (camR c P)).mulS s) :
    v.z ≠ 0 ∧ p.x * v.z = v.x ∧ p.y * v.z = v.y := by
  obtain ⟨-, -, a1, a2⟩ := image_inv c hk hl P hide hp
  rw [hv, a2]
  simp only [forth, M3.applyR, V3.dot, V3.mulS_x, V3.mulS_y, V3.mulS_z]
  refine ⟨by simpa using ⟨a1, hs⟩, ?_, ?_⟩ <;> field_simp <;> ring

theorem uncam (c : Cam) (P : V3 ℝ) : c.orient.mat.R.T.applyR (camR c P) = P - c.orient.pos := by
  have h := (rigid_mat c.orient).TR
  unfold camR
  rw [← apply_mul, h]
  ext <;> simp [M3.one, M3.applyR, V3.dot]

theorem det_T (A : M3) : A.T.det = A.det := by
  simp only [M3.T, M3.det, V3.dot, V3.cross]
  ring

theorem det_back (I : Intr) (hx : I.fx ≠ 0) (hy : I.fy ≠ 0) : (back I).det ≠ 0 := by
  have : (back I).det = 1 / (I.fx * I.fy) := by
    simp only [back, M3.det, V3.dot, V3.cross]
    field_simp
    ring
  rw [this]
  exact one_div_ne_zero (mul_ne_zero hx hy)

theorem det_forth (I : Intr) (hx : I.fx ≠ 0) (hy : I.fy ≠ 0) : (forth I).det ≠ 0 := by
  have : (forth I).det = -(I.fx * I.fy) := by
    simp only [forth, M3.det, V3.dot, V3.cross]
    ring
  rw [this]
  exact neg_ne_zero.2 (mul_ne_zero hx hy)

/-- The map between the pictures. -/
noncomputable def between (a b : Cam) (M : M3) : M3 :=
  M3.mul (forth b.intr) (M3.mul b.orient.mat.R (M3.mul M (M3.mul a.orient.mat.R.T (back a.intr))))

theorem det_between (a b : Cam) (ha : a.intr.fx ≠ 0 ∧ a.intr.fy ≠ 0) (hb : b.intr.fx ≠ 0 ∧ b.intr.fy ≠ 0) (M : M3) (hM : M.det ≠ 0) : (between a b M).det ≠ 0 := by
  unfold between
  simp only [det_mul, det_T, (rigid_mat a.orient).det, (rigid_mat b.orient).det, one_mul]
  exact mul_ne_zero (det_forth _ hb.1 hb.2) (mul_ne_zero hM (det_back _ ha.1 ha.2))

theorem between_to (a b : Cam) (hka : a.kind = .rectilinear) (hla : a.lens = noDistortion) (hkb : b.kind = .rectilinear) (hlb : b.lens = noDistortion)
    (ha : a.intr.fx ≠ 0 ∧ a.intr.fy ≠ 0) (M : M3) (P : V3 ℝ) (hM : M.applyR (P - a.orient.pos) = P - b.orient.pos) {h1 h2 : Bool} {p q : V2 ℝ}
    (hp : (imageFromSpace a P.num h1).Is p) (hq : (imageFromSpace b P.num h2).Is q) : To (between a b M) p q := by
  obtain ⟨s, hs, e⟩ := back_apply a hka hla ha.1 ha.2 P h1 p hp
  refine forth_apply b hkb hlb P h2 q hq hs ?_
  unfold between
  simp only [apply_mul, e, apply_scale, uncam, hM]
  rfl

theorem cross_of (α β γ δ κ : ℝ) (t : Fin 4 → ℝ) (h0 : γ + t 0 * δ ≠ 0) (h1 : γ + t 1 * δ ≠ 0) (h2 : γ + t 2 * δ ≠ 0) (h3 : γ + t 3 * δ ≠ 0)
    {u : Fin 4 → ℝ} (hu : ∀ i, u i = (α + t i * β) / (γ + t i * δ) + κ) :
    (u 0 - u 2) * (u 1 - u 3) * ((t 0 - t 3) * (t 1 - t 2)) = (u 0 - u 3) * (u 1 - u 2) * ((t 0 - t 2) * (t 1 - t 3)) := by
  have d : ∀ i j, γ + t i * δ ≠ 0 → γ + t j * δ ≠ 0 → u i - u j = (t i - t j) * (β * γ - α * δ) / ((γ + t i * δ) * (γ + t j * δ)) := by
    intro i j hi hj
    rw [hu i, hu j, add_sub_add_right_eq_sub, div_sub_div _ _ hi hj]
    congr 1
    ring
  rw [d 0 2 h0 h2, d 1 3 h1 h3, d 0 3 h0 h3, d 1 2 h1 h2]
  field_simp

end Warp

open Warp

/-- **C170** The cross ratio of four points of a straight line is that of their pixels, in both coordinates. -/
theorem C170_cross (c : Cam) (hk : c.kind = .rectilinear) (hl : c.lens = noDistortion) (P Q : V3 ℝ) (t : Fin 4 → ℝ) (hide : Bool) (p : Fin 4 → V2 ℝ)
    (hp : ∀ i, (imageFromSpace c (along P Q (t i)).num hide).Is (p i)) : SameCross (fun i => (p i).x) t ∧ SameCross (fun i => (p i).y) t := by
  have h := fun i => image_inv c hk hl _ hide (hp i)
  simp only [camR_along] at h
  generalize camR c P = A at *
  generalize camR c Q = B at *
  simp only [along] at h
  constructor
  · exact cross_of (u := fun i => (p i).x) (-A.x * c.intr.fx) (-(B.x - A.x) * c.intr.fx) A.z (B.z - A.z) c.intr.cx t (h 0).2.2.1 (h 1).2.2.1 (h 2).2.2.1 (h 3).2.2.1
      (fun i => by simp only [(h i).2.2.2]; ring)
  · exact cross_of (u := fun i => (p i).y) (A.y * c.intr.fy) ((B.y - A.y) * c.intr.fy) A.z (B.z - A.z) c.intr.cy t (h 0).2.2.1 (h 1).2.2.1 (h 2).2.2.1 (h 3).2.2.1
      (fun i => by simp only [(h i).2.2.2]; ring)

/-- **C170** The pictures of a plane that two cameras take are related by one projective map, which can be inverted. -/
theorem C170_plane (a b : Cam) (hka : a.kind = .rectilinear) (hla : a.lens = noDistortion) (hkb : b.kind = .rectilinear) (hlb : b.lens = noDistortion)
    (ha : a.intr.fx ≠ 0 ∧ a.intr.fy ≠ 0) (hb : b.intr.fx ≠ 0 ∧ b.intr.fy ≠ 0) (n : V3 ℝ) (e : ℝ) (hna : a.orient.pos.dot n ≠ e) (hnb : b.orient.pos.dot n ≠ e) :
    ∃ H : M3, H.det ≠ 0 ∧ ∀ (P : V3 ℝ) (h1 h2 : Bool) (p q : V2 ℝ), P.dot n = e → (imageFromSpace a P.num h1).Is p → (imageFromSpace b P.num h2).Is q → To H p q := by
  have he : e - a.orient.pos.dot n ≠ 0 := sub_ne_zero.2 (Ne.symm hna)
  refine ⟨between a b (shift (a.orient.pos - b.orient.pos) n (e - a.orient.pos.dot n)), ?_, ?_⟩
  · refine det_between a b ha hb _ ?_
    rw [det_shift _ _ _ he]
    refine div_ne_zero ?_ he
    have : e - a.orient.pos.dot n + (a.orient.pos - b.orient.pos).dot n = e - b.orient.pos.dot n := by
      simp only [V3.dot, V3.sub_x, V3.sub_y, V3.sub_z]
      ring
    rw [this]
    exact sub_ne_zero.2 (Ne.symm hnb)
  · intro P h1 h2 p q hP hp hq
    refine between_to a b hka hla hkb hlb ha _ P ?_ hp hq
    rw [shift_apply _ _ _ _ he]
    · ext <;> simp
    · rw [← hP]
      simp only [V3.dot, V3.sub_x, V3.sub_y, V3.sub_z]
      ring

/-- **C170** The pictures of everything that two cameras at the same place take are related by one projective map: turning and zooming do not
reveal distances. -/
theorem C170_turned (a b : Cam) (hka : a.kind = .rectilinear) (hla : a.lens = noDistortion) (hkb : b.kind = .rectilinear) (hlb : b.lens = noDistortion)
    (ha : a.intr.fx ≠ 0 ∧ a.intr.fy ≠ 0) (hb : b.intr.fx ≠ 0 ∧ b.intr.fy ≠ 0) (h : a.orient.pos = b.orient.pos) :
    ∃ H : M3, H.det ≠ 0 ∧ ∀ (P : V3 ℝ) (h1 h2 : Bool) (p q : V2 ℝ), (imageFromSpace a P.num h1).Is p → (imageFromSpace b P.num h2).Is q → To H p q := by
  refine ⟨between a b M3.one, det_between a b ha hb _ ?_, fun P h1 h2 p q hp hq => between_to a b hka hla hkb hlb ha _ P ?_ hp hq⟩
  · simp [M3.one, M3.det, V3.dot, V3.cross]
  · rw [h]
    ext <;> simp [M3.one, M3.applyR, V3.dot]

namespace Warp

theorem camR_down (c : Cam) (h : Down c.orient) (P : V3 ℝ) :
    camR c P = ⟨Real.cos (turn c.orient * Real.pi / 180) * (P - c.orient.pos).x - Real.sin (turn c.orient * Real.pi / 180) * (P - c.orient.pos).y,
      Real.sin (turn c.orient * Real.pi / 180) * (P - c.orient.pos).x + Real.cos (turn c.orient * Real.pi / 180) * (P - c.orient.pos).y, (P - c.orient.pos).z⟩ := by
  obtain ⟨k, I, o, L⟩ := c
  cases o with
  | thr p =>
    obtain ⟨e, t, r, h', x, y⟩ := p
    simp only [Down] at h
    subst h
    have w := (C12_heading_wrap ⟨e, 0, r, h', x, y⟩).2.2.2.2.1
    have hs : Real.sin ((h' - r) * Real.pi / 180) = Real.sin (h' * (Real.pi / 180)) * Real.cos (r * (Real.pi / 180)) - Real.cos (h' * (Real.pi / 180)) * Real.sin (r * (Real.pi / 180)) := by
      rw [← Real.sin_sub]; ring_nf
    have hc : Real.cos ((h' - r) * Real.pi / 180) = Real.cos (h' * (Real.pi / 180)) * Real.cos (r * (Real.pi / 180)) + Real.sin (h' * (Real.pi / 180)) * Real.sin (r * (Real.pi / 180)) := by
      rw [← Real.cos_sub]; ring_nf
    ext <;> simp [camR, turn, Orient.mat, Orient.pos, w, Spatial.matrices, Spatial.rad, M3.applyR, V3.dot, hs, hc,
      Spatial.rotation, M3.mul, M3.rowMul, M3.T, Spatial.R_roll, Spatial.R_tilt, Spatial.R_head] <;> ring
  | ypr p =>
    obtain ⟨e, yw, pt, r, x, y⟩ := p
    simp only [Down] at h
    subst h
    have b : Spatial.wrap360 (-90) = -90 := by unfold Spatial.wrap360; rw [if_neg (by norm_num)]
    have b2 : Real.pi / 2 + -90 * (Real.pi / 180) = 0 := by ring
    have hs : Real.sin ((yw + r) * Real.pi / 180) = Real.sin (yw * (Real.pi / 180)) * Real.cos (r * (Real.pi / 180)) + Real.cos (yw * (Real.pi / 180)) * Real.sin (r * (Real.pi / 180)) := by
      rw [← Real.sin_add]; ring_nf
    have hc : Real.cos ((yw + r) * Real.pi / 180) = Real.cos (yw * (Real.pi / 180)) * Real.cos (r * (Real.pi / 180)) - Real.sin (yw * (Real.pi / 180)) * Real.sin (r * (Real.pi / 180)) := by
      rw [← Real.cos_add]; ring_nf
    have hm : (Orient.ypr ⟨e, yw, -90, r, x, y⟩).mat.R = Spatial.rotation (-(r * (Real.pi / 180))) 0 (yw * (Real.pi / 180)) := by
      simp only [Orient.mat, Spatial.initCameraMatrixYPR, Spatial.matricesYPR, Spatial.rad, b, b2]
    simp only [camR, hm]
    ext <;> simp [turn, Orient.pos, M3.applyR, V3.dot, hs, hc,
      Spatial.rotation, M3.mul, M3.rowMul, M3.T, Spatial.R_roll, Spatial.R_tilt, Spatial.R_head] <;> ring

end Warp

/-- **C170** A camera looking straight down takes a map of every plane `Z = v`: turned and scaled by the focal length over the height. -/
theorem C170_map (c : Cam) (hk : c.kind = .rectilinear) (hl : c.lens = noDistortion) (h : Down c.orient) (P : V3 ℝ) (hide : Bool) (p : V2 ℝ)
    (hp : (imageFromSpace c P.num hide).Is p) :
    (p.x - c.intr.cx) * (c.orient.pos.z - P.z) = c.intr.fx * (Real.cos (turn c.orient * Real.pi / 180) * (P.x - c.orient.pos.x) - Real.sin (turn c.orient * Real.pi / 180) * (P.y - c.orient.pos.y)) ∧
    (p.y - c.intr.cy) * (c.orient.pos.z - P.z) = -(c.intr.fy * (Real.sin (turn c.orient * Real.pi / 180) * (P.x - c.orient.pos.x) + Real.cos (turn c.orient * Real.pi / 180) * (P.y - c.orient.pos.y))) := by
  obtain ⟨-, -, a1, a2⟩ := image_inv c hk hl P hide hp
  rw [camR_down c h] at a1 a2
  rw [a2]
  simp only [V3.sub_x, V3.sub_y, V3.sub_z] at a1 ⊢
  constructor <;> field_simp <;> ring

/-- **C170** ... so distances in it are those on the plane times the focal length over the height. -/
theorem C170_scale (c : Cam) (hk : c.kind = .rectilinear) (hl : c.lens = noDistortion) (hf : c.intr.fx = c.intr.fy) (h : Down c.orient) (P Q : V3 ℝ) (hide : Bool)
    (p q : V2 ℝ) (hp : (imageFromSpace c P.num hide).Is p) (hq : (imageFromSpace c Q.num hide).Is q) (hv : P.z = Q.z) :
    Real.sqrt ((p.x - q.x) ^ 2 + (p.y - q.y) ^ 2) * |c.orient.pos.z - P.z| = |c.intr.fx| * V3.dist P Q := by
  obtain ⟨p1, p2⟩ := C170_map c hk hl h P hide p hp
  obtain ⟨q1, q2⟩ := C170_map c hk hl h Q hide q hq
  rw [← hv] at q1 q2
  rw [← hf] at p2 q2
  have hd : V3.dist P Q = Real.sqrt ((P.x - Q.x) ^ 2 + (P.y - Q.y) ^ 2) := by
    unfold V3.dist V3.norm
    congr 1
    simp [V3.normSq, hv]
  rw [hd, ← Real.sqrt_sq_eq_abs, ← Real.sqrt_sq_eq_abs, ← Real.sqrt_mul (by positivity), ← Real.sqrt_mul (by positivity)]
  congr 1
  have hsc := Real.sin_sq_add_cos_sq (turn c.orient * Real.pi / 180)
  generalize Real.sin (turn c.orient * Real.pi / 180) = S at *
  generalize Real.cos (turn c.orient * Real.pi / 180) = C at *
  have e1 : (p.x - q.x) * (c.orient.pos.z - P.z) = c.intr.fx * (C * (P.x - Q.x) - S * (P.y - Q.y)) := by linear_combination p1 - q1
  have e2 : (p.y - q.y) * (c.orient.pos.z - P.z) = -(c.intr.fx * (S * (P.x - Q.x) + C * (P.y - Q.y))) := by linear_combination p2 - q2
  calc ((p.x - q.x) ^ 2 + (p.y - q.y) ^ 2) * (c.orient.pos.z - P.z) ^ 2
      = ((p.x - q.x) * (c.orient.pos.z - P.z)) ^ 2 + ((p.y - q.y) * (c.orient.pos.z - P.z)) ^ 2 := by ring
    _ = c.intr.fx ^ 2 * ((P.x - Q.x) ^ 2 + (P.y - Q.y) ^ 2) := by
      rw [e1, e2]
      linear_combination c.intr.fx ^ 2 * ((P.x - Q.x) ^ 2 + (P.y - Q.y) ^ 2) * hsc

/-- Four points of a line in front of a camera. -/
example : ∃ (c : Cam) (P Q : V3 ℝ) (t : Fin 4 → ℝ) (p : Fin 4 → V2 ℝ), c.kind = .rectilinear ∧ c.lens = noDistortion ∧ Function.Injective t ∧
    ∀ i, (imageFromSpace c (along P Q (t i)).num).Is (p i) := by
  have h : ∀ i : Fin 4, ∃ p, (imageFromSpace exCam (along ⟨0, 1, 0⟩ ⟨1, 2, 1⟩ (i : ℕ)).num).Is p := fun i =>
    exCam_sees _ (by simp [along])
  choose p hp using h
  refine ⟨exCam, ⟨0, 1, 0⟩, ⟨1, 2, 1⟩, fun i => (i : ℕ), p, rfl, rfl, fun i j h => ?_, hp⟩
  have h' : ((i : ℕ) : ℝ) = (j : ℕ) := h
  exact Fin.ext (by exact_mod_cast h')

/-- Two cameras at the same place that look at the ground. -/
example : ∃ (a b : Cam) (n : V3 ℝ) (e : ℝ), a.kind = .rectilinear ∧ a.lens = noDistortion ∧ b.kind = .rectilinear ∧ b.lens = noDistortion ∧
    (a.intr.fx ≠ 0 ∧ a.intr.fy ≠ 0) ∧ (b.intr.fx ≠ 0 ∧ b.intr.fy ≠ 0) ∧ a.orient.pos = b.orient.pos ∧ a.orient.pos.dot n ≠ e ∧ b.orient.pos.dot n ≠ e ∧
    ∃ (P : V3 ℝ) (p q : V2 ℝ), P.dot n = e ∧ (imageFromSpace a P.num).Is p ∧ (imageFromSpace b P.num).Is q := by
  obtain ⟨p, hp⟩ := exCam_sees ⟨0, 1, 0⟩ (le_refl _)
  exact ⟨exCam, exCam, ⟨0, 0, 1⟩, 0, rfl, rfl, rfl, rfl, by simp [exCam], by simp [exCam], rfl, by simp [exCam, Orient.pos, V3.dot], by simp [exCam, Orient.pos, V3.dot],
    ⟨0, 1, 0⟩, p, p, by simp [V3.dot], hp, hp⟩

/-- A camera that looks down on the ground. -/
example : ∃ (c : Cam) (P Q : V3 ℝ) (p q : V2 ℝ), c.kind = .rectilinear ∧ c.lens = noDistortion ∧ c.intr.fx = c.intr.fy ∧ Down c.orient ∧ P.z = Q.z ∧ P ≠ Q ∧
    (imageFromSpace c P.num).Is p ∧ (imageFromSpace c Q.num).Is q := by
  have hD : Down (.thr ⟨10, 0, 0, 0, 0, 0⟩) := rfl
  have h : ∀ P : V3 ℝ, P.z = 0 → ∃ p, (imageFromSpace ⟨.rectilinear, ⟨100, 100, 50, 25, 100, 50⟩, .thr ⟨10, 0, 0, 0, 0, 0⟩, noDistortion⟩ P.num).Is p := by
    intro P hP
    have e : (camR ⟨.rectilinear, ⟨100, 100, 50, 25, 100, 50⟩, .thr ⟨10, 0, 0, 0, 0, 0⟩, noDistortion⟩ P).z = -10 := by
      rw [camR_down _ hD]
      simp [Orient.pos, hP]
    refine ⟨_, image_of _ rfl rfl P true ?_ fun _ => ?_⟩
    · rw [e]; norm_num [minDepth]
    · rw [e]; norm_num
  obtain ⟨p, hp⟩ := h ⟨0, 0, 0⟩ rfl
  obtain ⟨q, hq⟩ := h ⟨1, 0, 0⟩ rfl
  exact ⟨_, ⟨0, 0, 0⟩, ⟨1, 0, 0⟩, p, q, rfl, rfl, rfl, hD, rfl, by simp, hp, hq⟩
