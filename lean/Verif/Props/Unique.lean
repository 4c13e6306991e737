import Verif.Spec.Unique
import Verif.Proofs.Same
import Verif.Props.Spatial
import Verif.Props.Pose
import Verif.Props.Moving
import Verif.Props.Lines
import Verif.Props.RoundPan

/-! # Different cameras take different pictures (C165) -/

open Classical Camera Projection Filter Topology

namespace Unique

theorem dot_line (x d l : V3 ℝ) (ε : ℝ) : (x + d.mulS ε).dot l = x.dot l + ε * d.dot l := by
  simp only [V3.dot, V3.add_x, V3.add_y, V3.add_z, V3.mulS_x, V3.mulS_y, V3.mulS_z]; ring

/-- Off finitely many planes through the origin. -/
def Off (L : List (V3 ℝ)) (x : V3 ℝ) : Prop := ∀ l ∈ L, x.dot l ≠ 0

theorem eventually_off {L : List (V3 ℝ)} {d : V3 ℝ} (hd : Off L d) (x : V3 ℝ) : ∀ᶠ ε in 𝓝[≠] (0 : ℝ), Off L (x + d.mulS ε) := by
  induction L with
  | nil => exact Eventually.of_forall fun _ l hl => by simp at hl
  | cons a L ih =>
    have h1 := ih fun l hl => hd l (List.mem_cons_of_mem _ hl)
    have ha : d.dot a ≠ 0 := hd a List.mem_cons_self
    have h2 : ∀ᶠ ε in 𝓝[≠] (0 : ℝ), (x + d.mulS ε).dot a ≠ 0 := by
      simp only [dot_line]
      by_cases h0 : x.dot a = 0
      · filter_upwards [self_mem_nhdsWithin] with ε hε
        rw [h0, zero_add]
        exact mul_ne_zero hε ha
      · have hc : ContinuousAt (fun ε : ℝ => x.dot a + ε * d.dot a) 0 := by fun_prop
        exact (hc.eventually_ne (by simpa using h0)).filter_mono nhdsWithin_le_nhds
    filter_upwards [h1, h2] with ε e1 e2 l hl
    rcases List.mem_cons.1 hl with rfl | hl
    · exact e2
    · exact e1 l hl

theorem exists_off {L : List (V3 ℝ)} (h : ∀ l ∈ L, l.normSq ≠ 0) : ∃ d, Off L d := by
  induction L with
  | nil => exact ⟨⟨0, 0, 0⟩, fun l hl => by simp at hl⟩
  | cons a L ih =>
    obtain ⟨d, hd⟩ := ih fun l hl => h l (List.mem_cons_of_mem _ hl)
    by_cases ha : d.dot a = 0
    · have haa : a.dot a ≠ 0 := by
        have := h a List.mem_cons_self
        rwa [show a.dot a = a.normSq by simp only [V3.dot, V3.normSq]; ring]
      have hc : ∀ᶠ ε in 𝓝[≠] (0 : ℝ), Off L (d + a.mulS ε) := by
        clear ih h
        induction L with
        | nil => exact Eventually.of_forall fun _ l hl => by simp at hl
        | cons b L ih =>
          have h1 := ih fun l hl => hd l (List.mem_cons_of_mem _ hl)
          have h2 : ∀ᶠ ε in 𝓝[≠] (0 : ℝ), (d + a.mulS ε).dot b ≠ 0 := by
            simp only [dot_line]
            have hc : ContinuousAt (fun ε : ℝ => d.dot b + ε * a.dot b) 0 := by fun_prop
            exact (hc.eventually_ne (by simpa using hd b List.mem_cons_self)).filter_mono nhdsWithin_le_nhds
          filter_upwards [h1, h2] with ε e1 e2 l hl
          rcases List.mem_cons.1 hl with rfl | hl
          · exact e2
          · exact e1 l hl
      obtain ⟨ε, e1, e2⟩ := (hc.and self_mem_nhdsWithin).exists
      refine ⟨d + a.mulS ε, fun l hl => ?_⟩
      rcases List.mem_cons.1 hl with rfl | hl
      · rw [dot_line, ha, zero_add]
        exact mul_ne_zero e2 haa
      · exact e1 l hl
    · refine ⟨d, fun l hl => ?_⟩
      rcases List.mem_cons.1 hl with rfl | hl
      · exact ha
      · exact hd l hl

/-- A continuous function that vanishes off the planes vanishes everywhere. -/
theorem zero_of_off {L : List (V3 ℝ)} (hL : ∀ l ∈ L, l.normSq ≠ 0) {f : V3 ℝ → ℝ} (hf : ∀ x d : V3 ℝ, Continuous fun ε : ℝ => f (x + d.mulS ε))
    (h : ∀ x, Off L x → f x = 0) (x : V3 ℝ) : f x = 0 := by
  obtain ⟨d, hd⟩ := exists_off hL
  have e := (eventually_off hd x).mono fun ε hε => h _ hε
  have hc : Tendsto (fun ε : ℝ => f (x + d.mulS ε)) (𝓝[≠] 0) (𝓝 (f (x + d.mulS 0))) := ((hf x d).tendsto 0).mono_left nhdsWithin_le_nhds
  have h0 : x + d.mulS 0 = x := by ext <;> simp
  rw [h0] at hc
  exact tendsto_nhds_unique hc (tendsto_const_nhds.congr' (e.mono fun ε hε => hε.symm))

/-- The picture of a point in camera coordinates, off the planes `x = 0` and `z = 0`. -/
noncomputable def imgR (k : Kind) (I : Intr) (c : V3 ℝ) : V2 ℝ :=
  match k with
  | .rectilinear => ⟨-c.x * I.fx / c.z + I.cx, c.y * I.fy / c.z + I.cy⟩
  | .cylindrical => ⟨-I.fx * Complex.arg ⟨-c.z, -c.x⟩ + I.cx, -I.fy * (c.y / Real.sqrt (c.x ^ 2 + c.z ^ 2)) + I.cy⟩
  | .equirectangular => ⟨-I.fx * Complex.arg ⟨-c.z, -c.x⟩ + I.cx, -I.fy * Complex.arg ⟨Real.sqrt (c.x ^ 2 + c.z ^ 2), c.y⟩ + I.cy⟩

/-- Behind a rectilinear camera, and therefore hidden. -/
def Hid (k : Kind) (hide : Bool) (c : V3 ℝ) : Prop := k = .rectilinear ∧ hide = true ∧ 0 < c.z

theorem img_is {c : Cam} (hl : c.lens = noDistortion) {P : V3 ℝ} (hz : minDepth ≤ |(camR c P).z|) (hx : (camR c P).x ≠ 0) {hide : Bool}
    (hh : ¬ Hid c.kind hide (camR c P)) : (imageFromSpace c P.num hide).Is (imgR c.kind c.intr (camR c P)) := by
  have hz0 : (camR c P).z ≠ 0 := by
    intro h0; rw [h0] at hz; norm_num [minDepth] at hz
  cases hk : c.kind with
  | rectilinear =>
    refine Lines.image_of c hk hl P hide hz fun h => ?_
    rcases lt_or_gt_of_ne hz0 with h' | h'
    · exact h'
    · exact absurd ⟨hk, h, h'⟩ hh
  | cylindrical =>
    have := Rounded.pan_is .cylindrical (by simp) c.intr (cameraFromSpace_is c (V3.is_num P)) hz (Or.inl hx) hide
    simp only [imageFromSpace, hl, hk, noDistortion, id]
    exact this
  | equirectangular =>
    have := Rounded.pan_is .equirectangular (by simp) c.intr (cameraFromSpace_is c (V3.is_num P)) hz (Or.inl hx) hide
    simp only [imageFromSpace, hl, hk, noDistortion, id]
    exact this

theorem img_nan {c : Cam} (hl : c.lens = noDistortion) {P : V3 ℝ} (hz : minDepth ≤ |(camR c P).z|) {hide : Bool}
    (hh : Hid c.kind hide (camR c P)) : imageFromSpace c P.num hide = V2.nan := by
  obtain ⟨hk, h, hp⟩ := hh
  have h' := cameraFromSpace_is c (V3.is_num P)
  have hs := snap_far h' (by rw [show (1 : ℝ) / 10 ^ 10 = minDepth by norm_num [minDepth]]; exact hz)
  simp only [imageFromSpace, hl, hk, noDistortion, id, imageFromCamera, imageFromCameraRect, hs, projRect]
  rw [if_pos ⟨h, ((Num.is_fin 0).lt_iff h'.2.2).2 hp⟩]

theorem arg_smul {x y s : ℝ} (hs : 0 < s) : Complex.arg ⟨x * s, y * s⟩ = Complex.arg ⟨x, y⟩ := by
  have : (⟨x * s, y * s⟩ : ℂ) = (s : ℂ) * ⟨x, y⟩ := by
    apply Complex.ext <;> simp <;> ring
  rw [this, Complex.arg_real_mul _ hs]

theorem img_smul (k : Kind) (I : Intr) (c : V3 ℝ) (hz : c.z ≠ 0) {s : ℝ} (hs : 0 < s) : imgR k I (c.mulS s) = imgR k I c := by
  have hr : Real.sqrt ((c.x * s) ^ 2 + (c.z * s) ^ 2) = Real.sqrt (c.x ^ 2 + c.z ^ 2) * s := by
    rw [show (c.x * s) ^ 2 + (c.z * s) ^ 2 = (c.x ^ 2 + c.z ^ 2) * s ^ 2 by ring, Real.sqrt_mul (by positivity), Real.sqrt_sq hs.le]
  have hn : Real.sqrt (c.x ^ 2 + c.z ^ 2) ≠ 0 := by
    have : 0 < c.z ^ 2 := by positivity
    exact (Real.sqrt_pos.2 (by positivity)).ne'
  cases k <;> simp only [imgR, V3.mulS_x, V3.mulS_y, V3.mulS_z, hr, V2.mk.injEq]
  · constructor <;> field_simp
  · rw [← neg_mul, ← neg_mul, arg_smul hs]
    refine ⟨rfl, ?_⟩
    field_simp
  · rw [← neg_mul, ← neg_mul, arg_smul hs, arg_smul hs]
    exact ⟨rfl, rfl⟩

theorem polar {x y θ : ℝ} (h : Complex.arg ⟨x, y⟩ = θ) : x = Real.sqrt (x ^ 2 + y ^ 2) * Real.cos θ ∧ y = Real.sqrt (x ^ 2 + y ^ 2) * Real.sin θ := by
  have hn : ‖(⟨x, y⟩ : ℂ)‖ = Real.sqrt (x ^ 2 + y ^ 2) := by
    rw [Complex.norm_def, Complex.normSq_mk]; ring_nf
  rw [← hn, ← h]
  exact ⟨(Complex.norm_mul_cos_arg ⟨x, y⟩).symm, (Complex.norm_mul_sin_arg ⟨x, y⟩).symm⟩

/-- Points with the same picture are on a line with the camera. -/
theorem img_inj {k : Kind} {I : Intr} (h1 : I.fx ≠ 0) (h2 : I.fy ≠ 0) {c d : V3 ℝ} (hc : c.z ≠ 0) (hd : d.z ≠ 0) (h : imgR k I c = imgR k I d) :
    c.cross d = ⟨0, 0, 0⟩ := by
  have hrc : 0 < Real.sqrt (c.x ^ 2 + c.z ^ 2) := by
    have : 0 < c.z ^ 2 := by positivity
    exact Real.sqrt_pos.2 (by positivity)
  have hrd : 0 < Real.sqrt (d.x ^ 2 + d.z ^ 2) := by
    have : 0 < d.z ^ 2 := by positivity
    exact Real.sqrt_pos.2 (by positivity)
  have key : ∀ (r s t θ : ℝ), c = ⟨-(r * Real.sin θ), r * t, -(r * Real.cos θ)⟩ → d = ⟨-(s * Real.sin θ), s * t, -(s * Real.cos θ)⟩ → c.cross d = ⟨0, 0, 0⟩ := by
    rintro r s t θ e1 e2
    rw [e1, e2]
    ext <;> simp only [V3.cross] <;> ring
  have pol : ∀ (e : V3 ℝ) (t θ : ℝ), 0 < Real.sqrt (e.x ^ 2 + e.z ^ 2) → Complex.arg ⟨-e.z, -e.x⟩ = θ → e.y / Real.sqrt (e.x ^ 2 + e.z ^ 2) = t →
      e = ⟨-(Real.sqrt (e.x ^ 2 + e.z ^ 2) * Real.sin θ), Real.sqrt (e.x ^ 2 + e.z ^ 2) * t, -(Real.sqrt (e.x ^ 2 + e.z ^ 2) * Real.cos θ)⟩ := by
    intro e t θ hp ha ht
    obtain ⟨p1, p2⟩ := polar ha
    rw [show (-e.z) ^ 2 + (-e.x) ^ 2 = e.x ^ 2 + e.z ^ 2 by ring] at p1 p2
    ext
    · simp only; linarith
    · simp only [← ht]; field_simp
    · simp only; linarith
  cases k with
  | rectilinear =>
    simp only [imgR, V2.mk.injEq, add_left_inj] at h
    obtain ⟨ha, hb⟩ := h
    field_simp at ha hb
    have ha' : c.x * d.z = d.x * c.z := by linarith
    ext <;> simp only [V3.cross]
    · linarith
    · linarith
    · have : (c.x * d.y - c.y * d.x) * (c.z * d.z) = 0 := by
        have e1 : c.x * d.y * (c.z * d.z) = (c.x * d.z) * (d.y * c.z) := by ring
        have e2 : c.y * d.x * (c.z * d.z) = (d.x * c.z) * (c.y * d.z) := by ring
        rw [sub_mul, e1, e2, ha', mul_comm c.y, hb]
        ring
      rcases mul_eq_zero.1 this with h | h
      · exact h
      · exact absurd h (mul_ne_zero hc hd)
  | cylindrical =>
    simp only [imgR, V2.mk.injEq, add_left_inj, mul_eq_mul_left_iff, neg_eq_zero, h1, h2, or_false] at h
    obtain ⟨ha, hb⟩ := h
    exact key _ _ _ _ (pol c _ _ hrc rfl rfl) (pol d _ _ hrd ha.symm hb.symm)
  | equirectangular =>
    simp only [imgR, V2.mk.injEq, add_left_inj, mul_eq_mul_left_iff, neg_eq_zero, h1, h2, or_false] at h
    obtain ⟨ha, hb⟩ := h
    have hb' : c.y / Real.sqrt (c.x ^ 2 + c.z ^ 2) = d.y / Real.sqrt (d.x ^ 2 + d.z ^ 2) := by
      have t1 := Complex.tan_arg ⟨Real.sqrt (c.x ^ 2 + c.z ^ 2), c.y⟩
      have t2 := Complex.tan_arg ⟨Real.sqrt (d.x ^ 2 + d.z ^ 2), d.y⟩
      rw [hb] at t1
      simp only at t1 t2
      rw [← t1, ← t2]
    exact key _ _ _ _ (pol c _ _ hrc rfl rfl) (pol d _ _ hrd ha.symm hb'.symm)

end Unique

namespace Unique

theorem far {w y : ℝ} (hy : y ≠ 0) (K : ℝ) : ∀ᶠ s : ℝ in atTop, K ≤ |w + s * y| := by
  have hp : 0 < |y| := abs_pos.2 hy
  filter_upwards [eventually_ge_atTop ((K + |w|) / |y|), eventually_ge_atTop 0] with s h1 h0
  rw [div_le_iff₀ hp] at h1
  have h2 : |s * y| = s * |y| := by rw [abs_mul, abs_of_nonneg h0]
  have h3 : |s * y| ≤ |w + s * y| + |w| := by
    have := abs_sub (w + s * y) w
    simpa using this
  linarith

theorem row_unit {c : Cam} : c.orient.mat.R.r0.normSq = 1 ∧ c.orient.mat.R.r1.normSq = 1 ∧ c.orient.mat.R.r2.normSq = 1 := by
  have h := (rigid_mat c.orient).RT
  simp only [M3.mul, M3.rowMul, M3.T, M3.one, V3.dot, M3.mk.injEq, V3.mk.injEq] at h
  simp only [V3.normSq]
  obtain ⟨⟨h1, -, -⟩, ⟨-, h2, -⟩, -, -, h3⟩ := h
  exact ⟨by linarith, by linarith, by linarith⟩

theorem le_norm (P r : V3 ℝ) (hr : r.normSq = 1) : |P.dot r| ≤ P.norm := by
  unfold V3.norm
  refine Real.abs_le_sqrt ?_
  have : P.normSq * r.normSq - P.dot r ^ 2 = (P.cross r).normSq := by simp only [V3.normSq, V3.dot, V3.cross]; ring
  have h2 := V3.normSq_nonneg (P.cross r)
  rw [hr] at this
  linarith

/-- The planes to avoid. -/
noncomputable def planes (a b : Cam) : List (V3 ℝ) := [a.orient.mat.R.r0, a.orient.mat.R.r2, b.orient.mat.R.r0, b.orient.mat.R.r2]

theorem planes_ne (a b : Cam) : ∀ l ∈ planes a b, l.normSq ≠ 0 := by
  intro l hl
  simp only [planes, List.mem_cons, List.not_mem_nil, or_false] at hl
  rcases hl with rfl | rfl | rfl | rfl
  · rw [row_unit.1]; exact one_ne_zero
  · rw [row_unit.2.2]; exact one_ne_zero
  · rw [row_unit.1]; exact one_ne_zero
  · rw [row_unit.2.2]; exact one_ne_zero

theorem camR_line (c : Cam) (t v : V3 ℝ) (s : ℝ) :
    camR c (t + v.mulS s) = c.orient.mat.R.applyR (t - c.orient.pos) + (c.orient.mat.R.applyR v).mulS s := by
  rw [camR, ← M3.applyR_mulS, ← M3.applyR_add]
  congr 1
  ext <;> simp <;> ring

theorem nan_not_is {n : V2 Num} {q : V2 ℝ} (h : n.Is q) : n ≠ V2.nan := by
  rintro rfl
  exact V2.not_is_nan q h

theorem is_of_same {m n : V2 Num} {q : V2 ℝ} (h : V2.SameN m n) (hq : m.Is q) : n.Is q := by
  have key : ∀ {x y : Num} {r : ℝ}, Num.Same x y → Num.Is x r → Num.Is y r := by
    rintro x y r (rfl | ⟨s, h1, h2⟩) hx
    · exact hx
    · rw [hx.unique h1]; exact h2
  exact ⟨key h.1 hq.1, key h.2 hq.2⟩

theorem sameN_symm {m n : V2 Num} (h : V2.SameN m n) : V2.SameN n m := ⟨Num.Same.symm h.1, Num.Same.symm h.2⟩

theorem along {a b : Cam} (ha : a.lens = noDistortion) (hb : b.lens = noDistortion) {hide : Bool} (h : Alike a b hide) {v : V3 ℝ}
    (hv : Off (planes a b) v) : ∀ᶠ s : ℝ in atTop,
      (Hid a.kind hide (a.orient.mat.R.applyR v) ↔
        Hid b.kind hide (b.orient.mat.R.applyR (a.orient.pos - b.orient.pos) + (b.orient.mat.R.applyR v).mulS s)) ∧
      (¬ Hid a.kind hide (a.orient.mat.R.applyR v) → imgR a.kind a.intr (a.orient.mat.R.applyR v) =
        imgR b.kind b.intr (b.orient.mat.R.applyR (a.orient.pos - b.orient.pos) + (b.orient.mat.R.applyR v).mulS s)) := by
  obtain ⟨N, h⟩ := h
  have v1 : v.dot a.orient.mat.R.r0 ≠ 0 := hv _ (by simp [planes])
  have v2 : v.dot a.orient.mat.R.r2 ≠ 0 := hv _ (by simp [planes])
  have v3 : v.dot b.orient.mat.R.r0 ≠ 0 := hv _ (by simp [planes])
  have v4 : v.dot b.orient.mat.R.r2 ≠ 0 := hv _ (by simp [planes])
  set w := b.orient.mat.R.applyR (a.orient.pos - b.orient.pos) with hw
  have hx : (a.orient.mat.R.applyR v).x = v.dot a.orient.mat.R.r0 := rfl
  have hxz : (a.orient.mat.R.applyR v).z = v.dot a.orient.mat.R.r2 := rfl
  have hy : (b.orient.mat.R.applyR v).x = v.dot b.orient.mat.R.r0 := rfl
  have hyz : (b.orient.mat.R.applyR v).z = v.dot b.orient.mat.R.r2 := rfl
  filter_upwards [far (w := a.orient.pos.dot a.orient.mat.R.r0) v1 N, far (w := 0) v2 minDepth, far (w := w.z) v4 minDepth, far (w := w.x) v3 1,
    eventually_gt_atTop 0] with s e1 e2 e3 e4 hs
  have hn : N ≤ (a.orient.pos + v.mulS s).norm := by
    refine e1.trans ?_
    rw [← dot_line]
    exact le_norm _ _ row_unit.1
  have qa : camR a (a.orient.pos + v.mulS s) = (a.orient.mat.R.applyR v).mulS s := by
    rw [camR_line]
    ext <;> simp [M3.applyR, V3.dot]
  have qb : camR b (a.orient.pos + v.mulS s) = w + (b.orient.mat.R.applyR v).mulS s := camR_line _ _ _ _
  have da : minDepth ≤ |(camR a (a.orient.pos + v.mulS s)).z| := by
    rw [qa, V3.mulS_z, hxz, mul_comm]
    simpa using e2
  have xa : (camR a (a.orient.pos + v.mulS s)).x ≠ 0 := by
    rw [qa, V3.mulS_x, hx]
    exact mul_ne_zero v1 hs.ne'
  have db : minDepth ≤ |(camR b (a.orient.pos + v.mulS s)).z| := by
    rw [qb, V3.add_z, V3.mulS_z, hyz, mul_comm]
    exact e3
  have xb : (camR b (a.orient.pos + v.mulS s)).x ≠ 0 := by
    rw [qb, V3.add_x, V3.mulS_x, hy, mul_comm]
    intro h0
    rw [h0] at e4
    norm_num at e4
  have hida : Hid a.kind hide (camR a (a.orient.pos + v.mulS s)) ↔ Hid a.kind hide (a.orient.mat.R.applyR v) := by
    rw [qa]
    unfold Hid
    rw [V3.mulS_z, mul_pos_iff_of_pos_right hs]
  have same := h _ hn
  rw [← qb, ← hida]
  by_cases h1 : Hid a.kind hide (camR a (a.orient.pos + v.mulS s)) <;> by_cases h2 : Hid b.kind hide (camR b (a.orient.pos + v.mulS s))
  · exact ⟨⟨fun _ => h2, fun _ => h1⟩, fun h => absurd h1 h⟩
  · exfalso
    have i1 := img_nan ha da h1
    have i2 := img_is hb db xb h2
    rw [i1] at same
    exact nan_not_is (is_of_same (sameN_symm same) i2) rfl
  · exfalso
    have i1 := img_nan hb db h2
    have i2 := img_is ha da xa h1
    rw [i1] at same
    exact nan_not_is (is_of_same same i2) rfl
  · refine ⟨⟨fun h => absurd h h1, fun h => absurd h h2⟩, fun _ => ?_⟩
    have i1 := img_is ha da xa h1
    have i2 := img_is hb db xb h2
    have e : imgR a.kind a.intr (a.orient.mat.R.applyR v) = imgR a.kind a.intr (camR a (a.orient.pos + v.mulS s)) := by
      rw [qa, img_smul _ _ _ (by rw [hxz]; exact v2) hs]
    rw [e]
    exact (is_of_same same i1).unique i2

/-- The cameras are at the same place. -/
theorem same_pos {a b : Cam} (ha : a.lens = noDistortion) (hb : b.lens = noDistortion) (fb : b.intr.fx ≠ 0 ∧ b.intr.fy ≠ 0) {hide : Bool}
    (h : Alike a b hide) : a.orient.pos = b.orient.pos := by
  set u := a.orient.pos - b.orient.pos with hu
  set w := b.orient.mat.R.applyR u with hw
  -- off the planes, and not hidden, `w` is parallel to the direction
  have h1 : ∀ v, Off (planes a b) v → ¬ Hid a.kind hide (a.orient.mat.R.applyR v) → w.cross (b.orient.mat.R.applyR v) = ⟨0, 0, 0⟩ := by
    intro v hv hh
    have v4 : (b.orient.mat.R.applyR v).z ≠ 0 := hv _ (by simp [planes])
    obtain ⟨s0, hs0⟩ := eventually_atTop.1 ((along ha hb h hv).and (far (w := w.z) v4 1))
    have g1 := (hs0 s0 le_rfl).1.2 hh
    have g2 := (hs0 (s0 + 1) (by linarith)).1.2 hh
    have n1 := (hs0 s0 le_rfl).2
    have n2 := (hs0 (s0 + 1) (by linarith)).2
    have nz : ∀ s, 1 ≤ |w.z + s * (b.orient.mat.R.applyR v).z| → (w + (b.orient.mat.R.applyR v).mulS s).z ≠ 0 := by
      intro s hs h0
      rw [V3.add_z, V3.mulS_z, mul_comm] at h0
      rw [h0] at hs
      norm_num at hs
    have := img_inj fb.1 fb.2 (nz _ n1) (nz _ n2) (g1.symm.trans g2)
    rw [← this]
    ext <;> simp only [V3.cross, V3.add_x, V3.add_y, V3.add_z, V3.mulS_x, V3.mulS_y, V3.mulS_z] <;> ring
  -- a hidden direction: take the opposite one
  have h2 : ∀ v, Off (planes a b) v → w.cross (b.orient.mat.R.applyR v) = ⟨0, 0, 0⟩ := by
    intro v hv
    by_cases hh : Hid a.kind hide (a.orient.mat.R.applyR v)
    · have hv' : Off (planes a b) (v.mulS (-1)) := by
        intro l hl
        have := hv l hl
        rw [show (v.mulS (-1)).dot l = -(v.dot l) by simp only [V3.dot, V3.mulS_x, V3.mulS_y, V3.mulS_z]; ring]
        exact neg_ne_zero.2 this
      have := h1 _ hv' (by
        rintro ⟨-, -, hz⟩
        have := hh.2.2
        rw [M3.applyR_mulS, V3.mulS_z] at hz
        linarith)
      rw [M3.applyR_mulS] at this
      simp only [V3.cross, V3.mulS_x, V3.mulS_y, V3.mulS_z, V3.mk.injEq] at this ⊢
      exact ⟨by linarith [this.1], by linarith [this.2.1], by linarith [this.2.2]⟩
    · exact h1 v hv hh
  have hc : ∀ y : V3 ℝ, w.cross y = ⟨0, 0, 0⟩ := by
    intro y
    have hR := rigid_mat b.orient
    have e : y = b.orient.mat.R.applyR (b.orient.mat.R.T.applyR y) := (M3.applyR_applyR_T hR.RT y).symm
    rw [e]
    generalize b.orient.mat.R.T.applyR y = v
    have cont : ∀ x d : V3 ℝ, Continuous (fun ε : ℝ => (w.cross (b.orient.mat.R.applyR (x + d.mulS ε))).x) ∧
        Continuous (fun ε : ℝ => (w.cross (b.orient.mat.R.applyR (x + d.mulS ε))).y) ∧
        Continuous (fun ε : ℝ => (w.cross (b.orient.mat.R.applyR (x + d.mulS ε))).z) := by
      intro x d
      simp only [V3.cross, M3.applyR, V3.dot, V3.add_x, V3.add_y, V3.add_z, V3.mulS_x, V3.mulS_y, V3.mulS_z]
      refine ⟨?_, ?_, ?_⟩ <;> fun_prop
    ext
    · exact zero_of_off (planes_ne a b) (f := fun v => (w.cross (b.orient.mat.R.applyR v)).x) (fun x d => (cont x d).1) (fun x hx => by simp only [h2 x hx]) v
    · exact zero_of_off (planes_ne a b) (f := fun v => (w.cross (b.orient.mat.R.applyR v)).y) (fun x d => (cont x d).2.1) (fun x hx => by simp only [h2 x hx]) v
    · exact zero_of_off (planes_ne a b) (f := fun v => (w.cross (b.orient.mat.R.applyR v)).z) (fun x d => (cont x d).2.2) (fun x hx => by simp only [h2 x hx]) v
  have hw0 : w = ⟨0, 0, 0⟩ := by
    have g1 := hc ⟨1, 0, 0⟩
    have g2 := hc ⟨0, 1, 0⟩
    simp only [V3.cross, V3.mk.injEq] at g1 g2
    ext <;> simp only
    · linarith [g2.2.2]
    · linarith [g1.2.2]
    · linarith [g1.2.1]
  have hu0 : u = ⟨0, 0, 0⟩ := by
    have hR := rigid_mat b.orient
    rw [← M3.applyR_T_applyR hR.TR u, ← hw, hw0]
    ext <;> simp [M3.applyR, V3.dot]
  rw [hu] at hu0
  have e1 := congrArg V3.x hu0
  have e2 := congrArg V3.y hu0
  have e3 := congrArg V3.z hu0
  simp only [V3.sub_x, V3.sub_y, V3.sub_z] at e1 e2 e3
  ext <;> linarith

/-- The pictures of directions. -/
theorem directions {a b : Cam} (ha : a.lens = noDistortion) (hb : b.lens = noDistortion) (fb : b.intr.fx ≠ 0 ∧ b.intr.fy ≠ 0) {hide : Bool}
    (h : Alike a b hide) {v : V3 ℝ} (hv : Off (planes a b) v) :
    (Hid a.kind hide (a.orient.mat.R.applyR v) ↔ Hid b.kind hide (b.orient.mat.R.applyR v)) ∧
      (¬ Hid a.kind hide (a.orient.mat.R.applyR v) →
        imgR a.kind a.intr (a.orient.mat.R.applyR v) = imgR b.kind b.intr (b.orient.mat.R.applyR v)) := by
  obtain ⟨s, h1, hs⟩ := ((along ha hb h hv).and (eventually_gt_atTop 0)).exists
  have hw : b.orient.mat.R.applyR (a.orient.pos - b.orient.pos) + (b.orient.mat.R.applyR v).mulS s = (b.orient.mat.R.applyR v).mulS s := by
    rw [same_pos ha hb fb h]
    ext <;> simp [M3.applyR, V3.dot]
  rw [hw] at h1
  have v4 : (b.orient.mat.R.applyR v).z ≠ 0 := hv _ (by simp [planes])
  rw [img_smul _ _ _ v4 hs] at h1
  refine ⟨?_, h1.2⟩
  rw [h1.1]
  unfold Hid
  rw [V3.mulS_z, mul_pos_iff_of_pos_right hs]

end Unique

namespace Unique

/-- What orthonormal rows of determinant 1 mean. -/
theorem rows (c : Cam) :
    (c.orient.mat.R.applyR c.orient.mat.R.r0 = ⟨1, 0, 0⟩ ∧ c.orient.mat.R.applyR c.orient.mat.R.r1 = ⟨0, 1, 0⟩ ∧
      c.orient.mat.R.applyR c.orient.mat.R.r2 = ⟨0, 0, 1⟩) ∧ c.orient.mat.R.r1 = c.orient.mat.R.r2.cross c.orient.mat.R.r0 := by
  have hR := rigid_mat c.orient
  have h := hR.RT
  simp only [M3.mul, M3.rowMul, M3.T, M3.one, V3.dot, M3.mk.injEq, V3.mk.injEq] at h
  obtain ⟨⟨h1, h2, h3⟩, ⟨h4, h5, h6⟩, h7, h8, h9⟩ := h
  refine ⟨⟨?_, ?_, ?_⟩, ?_⟩
  · simp only [M3.applyR, V3.dot, V3.mk.injEq]; exact ⟨h1, by linarith, by linarith⟩
  · simp only [M3.applyR, V3.dot, V3.mk.injEq]; exact ⟨by linarith, h5, by linarith⟩
  · simp only [M3.applyR, V3.dot, V3.mk.injEq]; exact ⟨by linarith, by linarith, h9⟩
  · have hi := hR.inv
    have hr : c.orient.mat.Rinv = c.orient.mat.R.inv := by cases c.orient <;> rfl
    rw [hr] at hi
    have e := congrArg M3.T hi
    simp only [M3.inv, hR.det, M3.T, V3.divS, div_one, M3.mk.injEq, V3.mk.injEq] at e
    ext
    · exact e.2.1.1.symm
    · exact e.2.1.2.1.symm
    · exact e.2.1.2.2.symm

/-- A vector by its components along the rows. -/
theorem expand (c : Cam) (v : V3 ℝ) : v = (c.orient.mat.R.r0.mulS (v.dot c.orient.mat.R.r0) + c.orient.mat.R.r1.mulS (v.dot c.orient.mat.R.r1)) +
    c.orient.mat.R.r2.mulS (v.dot c.orient.mat.R.r2) := by
  have h := M3.applyR_T_applyR (rigid_mat c.orient).TR v
  conv_lhs => rw [← h]
  ext <;> simp only [M3.applyR, M3.T, V3.dot, V3.add_x, V3.add_y, V3.add_z, V3.mulS_x, V3.mulS_y, V3.mulS_z] <;> ring

theorem sq_one {m : ℝ} (h : m ^ 2 = 1) : m = 1 ∨ m = -1 := by
  have : (m - 1) * (m + 1) = 0 := by linarith [h, (by ring : (m - 1) * (m + 1) = m ^ 2 - 1)]
  rcases mul_eq_zero.1 this with h | h
  · left; linarith
  · right; linarith

/-- The row of one camera as a multiple of the row of the other. -/
theorem row_mult {r s : V3 ℝ} {m : ℝ} (hr : r.normSq = 1) (hs : s.normSq = 1) (h : s = r.mulS m) : m = 1 ∨ m = -1 := by
  have e : s.normSq = r.normSq * m ^ 2 := by rw [h]; simp only [V3.normSq, V3.mulS_x, V3.mulS_y, V3.mulS_z]; ring
  rw [hr, hs, one_mul] at e
  exact sq_one e.symm

end Unique

namespace Unique

/-- The opposite direction is off the planes, too. -/
theorem off_neg {L : List (V3 ℝ)} {v : V3 ℝ} (hv : Off L v) : Off L (v.mulS (-1)) := by
  intro l hl
  have := hv l hl
  rw [show (v.mulS (-1)).dot l = -(v.dot l) by simp only [V3.dot, V3.mulS_x, V3.mulS_y, V3.mulS_z]; ring]
  exact neg_ne_zero.2 this

/-- Two rectilinear cameras: the quadratic identities. -/
theorem rect_identity {a b : Cam} (ha : a.lens = noDistortion) (hb : b.lens = noDistortion) (fb : b.intr.fx ≠ 0 ∧ b.intr.fy ≠ 0) {hide : Bool}
    (h : Alike a b hide) (ka : a.kind = .rectilinear) (kb : b.kind = .rectilinear) (v : V3 ℝ) :
    (-(a.orient.mat.R.applyR v).x * a.intr.fx + a.intr.cx * (a.orient.mat.R.applyR v).z) * (b.orient.mat.R.applyR v).z -
      (-(b.orient.mat.R.applyR v).x * b.intr.fx + b.intr.cx * (b.orient.mat.R.applyR v).z) * (a.orient.mat.R.applyR v).z = 0 ∧
    ((a.orient.mat.R.applyR v).y * a.intr.fy + a.intr.cy * (a.orient.mat.R.applyR v).z) * (b.orient.mat.R.applyR v).z -
      ((b.orient.mat.R.applyR v).y * b.intr.fy + b.intr.cy * (b.orient.mat.R.applyR v).z) * (a.orient.mat.R.applyR v).z = 0 := by
  have key : ∀ v, Off (planes a b) v → ¬ Hid a.kind hide (a.orient.mat.R.applyR v) →
      (-(a.orient.mat.R.applyR v).x * a.intr.fx + a.intr.cx * (a.orient.mat.R.applyR v).z) * (b.orient.mat.R.applyR v).z -
        (-(b.orient.mat.R.applyR v).x * b.intr.fx + b.intr.cx * (b.orient.mat.R.applyR v).z) * (a.orient.mat.R.applyR v).z = 0 ∧
      ((a.orient.mat.R.applyR v).y * a.intr.fy + a.intr.cy * (a.orient.mat.R.applyR v).z) * (b.orient.mat.R.applyR v).z -
        ((b.orient.mat.R.applyR v).y * b.intr.fy + b.intr.cy * (b.orient.mat.R.applyR v).z) * (a.orient.mat.R.applyR v).z = 0 := by
    intro v hv hh
    have e := (directions ha hb fb h hv).2 hh
    have v2 : (a.orient.mat.R.applyR v).z ≠ 0 := hv _ (by simp [planes])
    have v4 : (b.orient.mat.R.applyR v).z ≠ 0 := hv _ (by simp [planes])
    rw [ka, kb] at e
    simp only [imgR, V2.mk.injEq] at e
    obtain ⟨e1, e2⟩ := e
    field_simp at e1 e2
    exact ⟨by linarith, by linarith⟩
  have key' : ∀ v, Off (planes a b) v →
      (-(a.orient.mat.R.applyR v).x * a.intr.fx + a.intr.cx * (a.orient.mat.R.applyR v).z) * (b.orient.mat.R.applyR v).z -
        (-(b.orient.mat.R.applyR v).x * b.intr.fx + b.intr.cx * (b.orient.mat.R.applyR v).z) * (a.orient.mat.R.applyR v).z = 0 ∧
      ((a.orient.mat.R.applyR v).y * a.intr.fy + a.intr.cy * (a.orient.mat.R.applyR v).z) * (b.orient.mat.R.applyR v).z -
        ((b.orient.mat.R.applyR v).y * b.intr.fy + b.intr.cy * (b.orient.mat.R.applyR v).z) * (a.orient.mat.R.applyR v).z = 0 := by
    intro v hv
    by_cases hh : Hid a.kind hide (a.orient.mat.R.applyR v)
    · have := key _ (off_neg hv) (by
        rintro ⟨-, -, hz⟩
        have := hh.2.2
        rw [M3.applyR_mulS, V3.mulS_z] at hz
        linarith)
      simp only [M3.applyR_mulS, V3.mulS_x, V3.mulS_y, V3.mulS_z] at this
      exact ⟨by linarith [this.1], by linarith [this.2]⟩
    · exact key v hv hh
  refine ⟨zero_of_off (planes_ne a b) (f := fun v => (-(a.orient.mat.R.applyR v).x * a.intr.fx + a.intr.cx * (a.orient.mat.R.applyR v).z) * (b.orient.mat.R.applyR v).z -
      (-(b.orient.mat.R.applyR v).x * b.intr.fx + b.intr.cx * (b.orient.mat.R.applyR v).z) * (a.orient.mat.R.applyR v).z) ?_ (fun x hx => (key' x hx).1) v,
    zero_of_off (planes_ne a b) (f := fun v => ((a.orient.mat.R.applyR v).y * a.intr.fy + a.intr.cy * (a.orient.mat.R.applyR v).z) * (b.orient.mat.R.applyR v).z -
      ((b.orient.mat.R.applyR v).y * b.intr.fy + b.intr.cy * (b.orient.mat.R.applyR v).z) * (a.orient.mat.R.applyR v).z) ?_ (fun x hx => (key' x hx).2) v⟩
  all_goals
    intro x d
    simp only [M3.applyR, V3.dot, V3.add_x, V3.add_y, V3.add_z, V3.mulS_x, V3.mulS_y, V3.mulS_z]
    fun_prop

theorem applyR_row (A : M3) (r : V3 ℝ) : (A.applyR r).x = r.dot A.r0 ∧ (A.applyR r).y = r.dot A.r1 ∧ (A.applyR r).z = r.dot A.r2 := ⟨rfl, rfl, rfl⟩

theorem dot_comm (r s : V3 ℝ) : r.dot s = s.dot r := by simp only [V3.dot]; ring

theorem add_dot (r s t : V3 ℝ) : (r + s).dot t = r.dot t + s.dot t := by simp only [V3.dot, V3.add_x, V3.add_y, V3.add_z]; ring

/-- Two rectilinear cameras. -/
theorem rect_rect {a b : Cam} (ha : a.lens = noDistortion) (hb : b.lens = noDistortion) (pa : 0 < a.intr.fx ∧ 0 < a.intr.fy)
    (pb : 0 < b.intr.fx ∧ 0 < b.intr.fy) {hide : Bool}
    (h : Alike a b hide) (ka : a.kind = .rectilinear) (kb : b.kind = .rectilinear) :
    (a.intr.fx = b.intr.fx ∧ a.intr.fy = b.intr.fy ∧ a.intr.cx = b.intr.cx ∧ a.intr.cy = b.intr.cy) ∧ a.orient.mat.R = b.orient.mat.R := by
  have id := rect_identity ha hb ⟨pb.1.ne', pb.2.ne'⟩ h ka kb
  obtain ⟨⟨A0, A1, A2⟩, Ac⟩ := rows a
  obtain ⟨⟨B0, B1, B2⟩, Bc⟩ := rows b
  have ex := expand a
  obtain ⟨ua0, ua1, ua2⟩ := row_unit (c := a)
  obtain ⟨ub0, ub1, ub2⟩ := row_unit (c := b)
  have o20 : (b.orient.mat.R.r2).dot b.orient.mat.R.r0 = 0 := by rw [← (applyR_row _ _).1, B2]
  have o21 : (b.orient.mat.R.r2).dot b.orient.mat.R.r1 = 0 := by rw [← (applyR_row _ _).2.1, B2]
  have A0' := A0; have A1' := A1; have A2' := A2
  set A := a.orient.mat.R with hA
  set B := b.orient.mat.R with hB
  -- the axes agree up to the sign
  have m31 : A.r0.dot B.r2 = 0 := by
    have := (id A.r0).1
    rw [A0] at this
    simp only [(applyR_row B A.r0).2.2] at this
    have : -a.intr.fx * A.r0.dot B.r2 = 0 := by linarith
    rcases mul_eq_zero.1 this with h | h
    · linarith [pa.1]
    · exact h
  have m32 : A.r1.dot B.r2 = 0 := by
    have := (id A.r1).2
    rw [A1] at this
    simp only [(applyR_row B A.r1).2.2] at this
    have : a.intr.fy * A.r1.dot B.r2 = 0 := by linarith
    rcases mul_eq_zero.1 this with h | h
    · linarith [pa.2]
    · exact h
  obtain ⟨ε, hε⟩ : ∃ ε, ε = B.r2.dot A.r2 := ⟨_, rfl⟩
  have hB2 : B.r2 = A.r2.mulS ε := by
    rw [ex B.r2, dot_comm B.r2 A.r0, dot_comm B.r2 A.r1, m31, m32, hε]
    ext <;> simp
  have hε1 := row_mult ua2 ub2 hB2
  have hεε : ε * ε = 1 := by rcases hε1 with h | h <;> rw [h] <;> norm_num
  have hε0 : ε ≠ 0 := by rintro rfl; norm_num at hεε
  have hA2 : A.r2 = B.r2.mulS ε := by
    rw [hB2]
    ext <;> simp only [V3.mulS_x, V3.mulS_y, V3.mulS_z] <;> rw [mul_assoc, hεε, mul_one]
  have md (r s : V3 ℝ) (m : ℝ) : (r.mulS m).dot s = m * r.dot s := by simp only [V3.dot, V3.mulS_x, V3.mulS_y, V3.mulS_z]; ring
  have m13 : A.r2.dot B.r0 = 0 := by rw [hA2, md, o20, mul_zero]
  have m23 : A.r2.dot B.r1 = 0 := by rw [hA2, md, o21, mul_zero]
  have m33 : A.r2.dot B.r2 = ε := by rw [dot_comm, ← hε]
  have hcx : a.intr.cx = b.intr.cx := by
    have := (id A.r2).1
    rw [A2, (applyR_row B A.r2).1, (applyR_row B A.r2).2.2, m13, m33] at this
    simp only at this
    have : (a.intr.cx - b.intr.cx) * ε = 0 := by linarith
    linarith [(mul_eq_zero.1 this).resolve_right hε0]
  have hcy : a.intr.cy = b.intr.cy := by
    have := (id A.r2).2
    rw [A2, (applyR_row B A.r2).2.1, (applyR_row B A.r2).2.2, m23, m33] at this
    simp only at this
    have : (a.intr.cy - b.intr.cy) * ε = 0 := by linarith
    linarith [(mul_eq_zero.1 this).resolve_right hε0]
  have i02 := id (A.r0 + A.r2)
  have i12 := id (A.r1 + A.r2)
  rw [M3.applyR_add, M3.applyR_add, A0, A2] at i02
  rw [M3.applyR_add, M3.applyR_add, A1, A2] at i12
  simp only [V3.add_x, V3.add_y, V3.add_z, (applyR_row B _).1, (applyR_row B _).2.1, (applyR_row B _).2.2, m13, m23, m33, m31, m32, ← hcx, ← hcy] at i02 i12
  have f1 : a.intr.fx * ε = A.r0.dot B.r0 * b.intr.fx := by linarith [i02.1]
  have f2 : A.r0.dot B.r1 = 0 := by
    have : A.r0.dot B.r1 * b.intr.fy = 0 := by linarith [i02.2]
    exact (mul_eq_zero.1 this).resolve_right pb.2.ne'
  have f3 : A.r1.dot B.r0 = 0 := by
    have : A.r1.dot B.r0 * b.intr.fx = 0 := by linarith [i12.1]
    exact (mul_eq_zero.1 this).resolve_right pb.1.ne'
  have f4 : a.intr.fy * ε = A.r1.dot B.r1 * b.intr.fy := by linarith [i12.2]
  have hB0 : B.r0 = A.r0.mulS (A.r0.dot B.r0) := by
    conv_lhs => rw [ex B.r0, dot_comm B.r0 A.r0, dot_comm B.r0 A.r1, dot_comm B.r0 A.r2, m13, f3]
    ext <;> simp
  have hB1 : B.r1 = A.r1.mulS (A.r1.dot B.r1) := by
    conv_lhs => rw [ex B.r1, dot_comm B.r1 A.r0, dot_comm B.r1 A.r1, dot_comm B.r1 A.r2, m23, f2]
    ext <;> simp
  have s0 := row_mult ua0 ub0 hB0
  have s1 := row_mult ua1 ub1 hB1
  have g0 : A.r0.dot B.r0 = ε ∧ a.intr.fx = b.intr.fx := by
    rcases s0 with h | h <;> rcases hε1 with h' | h' <;> rw [h, h'] at f1 <;> rw [h, h'] <;> constructor <;> linarith [pa.1, pb.1]
  have g1 : A.r1.dot B.r1 = ε ∧ a.intr.fy = b.intr.fy := by
    rcases s1 with h | h <;> rcases hε1 with h' | h' <;> rw [h, h'] at f4 <;> rw [h, h'] <;> constructor <;> linarith [pa.2, pb.2]
  rw [g0.1] at hB0
  rw [g1.1] at hB1
  have hcross : A.r1 = A.r1.mulS ε := by
    rw [← hB1, Bc, hB2, hB0, Ac]
    have e : ∀ r s : V3 ℝ, (r.mulS ε).cross (s.mulS ε) = (r.cross s).mulS (ε * ε) := by
      intro r s
      ext <;> simp only [V3.cross, V3.mulS_x, V3.mulS_y, V3.mulS_z] <;> ring
    rw [e, hεε]
    ext <;> simp
  have hone : ε = 1 := by
    rcases hε1 with h | h
    · exact h
    · exfalso
      rw [h] at hcross
      have z1 := congrArg V3.x hcross
      have z2 := congrArg V3.y hcross
      have z3 := congrArg V3.z hcross
      simp only [V3.mulS_x, V3.mulS_y, V3.mulS_z] at z1 z2 z3
      have : A.r1.normSq = 0 := by
        rw [V3.normSq, show A.r1.x = 0 by linarith, show A.r1.y = 0 by linarith, show A.r1.z = 0 by linarith]; ring
      rw [ua1] at this
      norm_num at this
  refine ⟨⟨g0.2, g1.2, hcx, hcy⟩, ?_⟩
  have one : ∀ r : V3 ℝ, r.mulS ε = r := by intro r; rw [hone]; ext <;> simp
  rw [one] at hB0 hB1 hB2
  exact M3.ext hB0.symm hB1.symm hB2.symm

end Unique

namespace Unique

theorem img_pan {k : Kind} (hk : k ≠ .rectilinear) (I : Intr) (c : V3 ℝ) : (imgR k I c).x = -I.fx * Complex.arg ⟨-c.z, -c.x⟩ + I.cx := by
  cases k with
  | rectilinear => exact absurd rfl hk
  | cylindrical => rfl
  | equirectangular => rfl

theorem not_hid {k : Kind} (hk : k ≠ .rectilinear) {hide : Bool} {c : V3 ℝ} : ¬ Hid k hide c := fun h => hk h.1

/-- The columns of the pictures of two panoramas. -/
theorem pan_columns {a b : Cam} (ha : a.lens = noDistortion) (hb : b.lens = noDistortion) (fb : b.intr.fx ≠ 0 ∧ b.intr.fy ≠ 0) {hide : Bool}
    (h : Alike a b hide) (ka : a.kind ≠ .rectilinear) (kb : b.kind ≠ .rectilinear) {v : V3 ℝ} (hv : Off (planes a b) v) :
    -a.intr.fx * Complex.arg ⟨-(a.orient.mat.R.applyR v).z, -(a.orient.mat.R.applyR v).x⟩ + a.intr.cx =
      -b.intr.fx * Complex.arg ⟨-(b.orient.mat.R.applyR v).z, -(b.orient.mat.R.applyR v).x⟩ + b.intr.cx := by
  rw [← img_pan ka, ← img_pan kb, (directions ha hb fb h hv).2 (not_hid ka)]

/-- The columns of the one panorama are among the columns of the other. -/
theorem pan_range {a b : Cam} (ha : a.lens = noDistortion) (hb : b.lens = noDistortion) (pb : 0 < b.intr.fx ∧ 0 < b.intr.fy) {hide : Bool}
    (h : Alike a b hide) (ka : a.kind ≠ .rectilinear) (kb : b.kind ≠ .rectilinear) {θ : ℝ} (h1 : -Real.pi < θ) (h2 : θ < Real.pi) :
    -b.intr.fx * Real.pi + b.intr.cx ≤ -a.intr.fx * θ + a.intr.cx ∧ -a.intr.fx * θ + a.intr.cx ≤ b.intr.fx * Real.pi + b.intr.cx := by
  obtain ⟨d, hd⟩ := exists_off (planes_ne a b)
  set v := a.orient.mat.R.T.applyR ⟨-Real.sin θ, 0, -Real.cos θ⟩ with hv
  have hx : a.orient.mat.R.applyR v = ⟨-Real.sin θ, 0, -Real.cos θ⟩ := M3.applyR_applyR_T (rigid_mat a.orient).RT _
  have harg : Complex.arg ⟨-(-Real.cos θ), -(-Real.sin θ)⟩ = θ := by
    rw [neg_neg, neg_neg]
    have := arg_polar (r := 1) one_pos h1 h2.le
    simpa using this
  set w := a.orient.mat.R.applyR d with hw
  have hc : Tendsto (fun ε : ℝ => -a.intr.fx * Complex.arg ⟨-(-Real.cos θ + w.z * ε), -(-Real.sin θ + w.x * ε)⟩ + a.intr.cx) (𝓝[≠] 0)
      (𝓝 (-a.intr.fx * θ + a.intr.cx)) := by
    have hcont : ContinuousAt (fun ε : ℝ => Complex.arg ⟨-(-Real.cos θ + w.z * ε), -(-Real.sin θ + w.x * ε)⟩) 0 := by
      refine Moving.arg_moving (by fun_prop) (by fun_prop) ?_
      simp only [mul_zero, add_zero, neg_neg]
      by_cases hs : Real.sin θ = 0
      · left
        have : θ = 0 := (Real.sin_eq_zero_iff_of_lt_of_lt h1 h2).1 hs
        rw [this, Real.cos_zero]
        exact one_pos
      · exact Or.inr hs
    have := (hcont.tendsto.mono_left (nhdsWithin_le_nhds (s := {0}ᶜ)))
    simp only [mul_zero, add_zero, harg] at this
    exact (this.const_mul _).add_const _
  have hev : ∀ᶠ ε in 𝓝[≠] (0 : ℝ), -b.intr.fx * Real.pi + b.intr.cx ≤ -a.intr.fx * Complex.arg ⟨-(-Real.cos θ + w.z * ε), -(-Real.sin θ + w.x * ε)⟩ + a.intr.cx ∧
      -a.intr.fx * Complex.arg ⟨-(-Real.cos θ + w.z * ε), -(-Real.sin θ + w.x * ε)⟩ + a.intr.cx ≤ b.intr.fx * Real.pi + b.intr.cx := by
    filter_upwards [eventually_off hd v] with ε hε
    have e := pan_columns ha hb ⟨pb.1.ne', pb.2.ne'⟩ h ka kb hε
    rw [M3.applyR_add a.orient.mat.R, M3.applyR_mulS a.orient.mat.R, hx, ← hw] at e
    simp only [V3.add_x, V3.add_z, V3.mulS_x, V3.mulS_z] at e
    rw [e]
    have b1 := Complex.arg_le_pi ⟨-(b.orient.mat.R.applyR (v + d.mulS ε)).z, -(b.orient.mat.R.applyR (v + d.mulS ε)).x⟩
    have b2 := Complex.neg_pi_lt_arg ⟨-(b.orient.mat.R.applyR (v + d.mulS ε)).z, -(b.orient.mat.R.applyR (v + d.mulS ε)).x⟩
    constructor
    · nlinarith [pb.1]
    · nlinarith [pb.1]
  exact ⟨ge_of_tendsto hc (hev.mono fun _ h => h.1), le_of_tendsto hc (hev.mono fun _ h => h.2)⟩

theorem pan_range' {a b : Cam} (ha : a.lens = noDistortion) (hb : b.lens = noDistortion) (pb : 0 < b.intr.fx ∧ 0 < b.intr.fy) {hide : Bool}
    (h : Alike a b hide) (ka : a.kind ≠ .rectilinear) (kb : b.kind ≠ .rectilinear) :
    -b.intr.fx * Real.pi + b.intr.cx ≤ -a.intr.fx * Real.pi + a.intr.cx ∧ a.intr.fx * Real.pi + a.intr.cx ≤ b.intr.fx * Real.pi + b.intr.cx := by
  have hr := fun θ => pan_range ha hb pb h ka kb (θ := θ)
  have hp := Real.pi_pos
  constructor
  · have hc : Tendsto (fun θ : ℝ => -a.intr.fx * θ + a.intr.cx) (𝓝[<] Real.pi) (𝓝 (-a.intr.fx * Real.pi + a.intr.cx)) :=
      ((by fun_prop : Continuous fun θ : ℝ => -a.intr.fx * θ + a.intr.cx).tendsto _).mono_left nhdsWithin_le_nhds
    refine ge_of_tendsto hc ?_
    filter_upwards [Ioo_mem_nhdsLT (show -Real.pi < Real.pi by linarith)] with θ hθ
    exact (hr θ hθ.1 hθ.2).1
  · have hc : Tendsto (fun θ : ℝ => -a.intr.fx * θ + a.intr.cx) (𝓝[>] (-Real.pi)) (𝓝 (-a.intr.fx * (-Real.pi) + a.intr.cx)) :=
      ((by fun_prop : Continuous fun θ : ℝ => -a.intr.fx * θ + a.intr.cx).tendsto _).mono_left nhdsWithin_le_nhds
    rw [neg_mul_neg] at hc
    refine le_of_tendsto hc ?_
    filter_upwards [Ioo_mem_nhdsGT (show -Real.pi < Real.pi by linarith)] with θ hθ
    exact (hr θ hθ.1 hθ.2).2

theorem alike_symm {a b : Cam} {hide : Bool} (h : Alike a b hide) : Alike b a hide := by
  obtain ⟨N, h⟩ := h
  refine ⟨N, fun P hP => ?_⟩
  exact sameN_symm (h P hP)

theorem pan_scale {a b : Cam} (ha : a.lens = noDistortion) (hb : b.lens = noDistortion) (pa : 0 < a.intr.fx ∧ 0 < a.intr.fy)
    (pb : 0 < b.intr.fx ∧ 0 < b.intr.fy) {hide : Bool} (h : Alike a b hide) (ka : a.kind ≠ .rectilinear) (kb : b.kind ≠ .rectilinear) :
    a.intr.fx = b.intr.fx ∧ a.intr.cx = b.intr.cx := by
  obtain ⟨h1, h2⟩ := pan_range' ha hb pb h ka kb
  obtain ⟨h3, h4⟩ := pan_range' hb ha pa (alike_symm h) kb ka
  have hp := Real.pi_pos
  have e : a.intr.fx * Real.pi = b.intr.fx * Real.pi := by linarith
  have e' := mul_right_cancel₀ hp.ne' e
  exact ⟨e', by rw [e'] at h1 h2 h3 h4; linarith⟩

theorem pan_rotation {a b : Cam} (ha : a.lens = noDistortion) (hb : b.lens = noDistortion) (pa : 0 < a.intr.fx ∧ 0 < a.intr.fy)
    (pb : 0 < b.intr.fx ∧ 0 < b.intr.fy) {hide : Bool} (h : Alike a b hide) (ka : a.kind ≠ .rectilinear) (kb : b.kind ≠ .rectilinear) :
    a.orient.mat.R = b.orient.mat.R := by
  obtain ⟨efx, ecx⟩ := pan_scale ha hb pa pb h ka kb
  have harg : ∀ v, Off (planes a b) v → Complex.arg ⟨-(a.orient.mat.R.applyR v).z, -(a.orient.mat.R.applyR v).x⟩ =
      Complex.arg ⟨-(b.orient.mat.R.applyR v).z, -(b.orient.mat.R.applyR v).x⟩ := by
    intro v hv
    have e := pan_columns ha hb ⟨pb.1.ne', pb.2.ne'⟩ h ka kb hv
    rw [efx, ecx] at e
    have := add_right_cancel e
    exact mul_left_cancel₀ (neg_ne_zero.2 pb.1.ne') this
  have hid : ∀ v, (a.orient.mat.R.applyR v).x * (b.orient.mat.R.applyR v).z - (a.orient.mat.R.applyR v).z * (b.orient.mat.R.applyR v).x = 0 := by
    refine zero_of_off (planes_ne a b) (f := fun v => (a.orient.mat.R.applyR v).x * (b.orient.mat.R.applyR v).z -
      (a.orient.mat.R.applyR v).z * (b.orient.mat.R.applyR v).x) ?_ ?_
    · intro x d
      simp only [M3.applyR, V3.dot, V3.add_x, V3.add_y, V3.add_z, V3.mulS_x, V3.mulS_y, V3.mulS_z]
      fun_prop
    · intro v hv
      obtain ⟨p1, p2⟩ := polar (harg v hv)
      obtain ⟨q1, q2⟩ := polar (rfl : _ = Complex.arg ⟨-(b.orient.mat.R.applyR v).z, -(b.orient.mat.R.applyR v).x⟩)
      set θ := Complex.arg ⟨-(b.orient.mat.R.applyR v).z, -(b.orient.mat.R.applyR v).x⟩
      set r := Real.sqrt ((-(a.orient.mat.R.applyR v).z) ^ 2 + (-(a.orient.mat.R.applyR v).x) ^ 2)
      set s := Real.sqrt ((-(b.orient.mat.R.applyR v).z) ^ 2 + (-(b.orient.mat.R.applyR v).x) ^ 2)
      have e1 : (a.orient.mat.R.applyR v).x = -(r * Real.sin θ) := by linarith
      have e2 : (a.orient.mat.R.applyR v).z = -(r * Real.cos θ) := by linarith
      have e3 : (b.orient.mat.R.applyR v).x = -(s * Real.sin θ) := by linarith
      have e4 : (b.orient.mat.R.applyR v).z = -(s * Real.cos θ) := by linarith
      rw [e1, e2, e3, e4]
      ring
  obtain ⟨⟨A0, A1, A2⟩, Ac⟩ := rows a
  obtain ⟨-, Bc⟩ := rows b
  have ex := expand a
  obtain ⟨ua0, ua1, ua2⟩ := row_unit (c := a)
  obtain ⟨ub0, ub1, ub2⟩ := row_unit (c := b)
  obtain ⟨v, hv⟩ := exists_off (planes_ne a b)
  have hargv := harg v hv
  have hvz : (a.orient.mat.R.applyR v).z ≠ 0 := hv _ (by simp [planes])
  set A := a.orient.mat.R with hA
  set B := b.orient.mat.R with hB
  have i0 := hid A.r0
  have i2 := hid A.r2
  have i01 := hid (A.r0 + A.r1)
  have i12 := hid (A.r1 + A.r2)
  have i02 := hid (A.r0 + A.r2)
  rw [A0] at i0
  rw [A2] at i2
  rw [M3.applyR_add, M3.applyR_add, A0, A1] at i01
  rw [M3.applyR_add, M3.applyR_add, A1, A2] at i12
  rw [M3.applyR_add, M3.applyR_add, A0, A2] at i02
  simp only [V3.add_x, V3.add_z, (applyR_row B _).1, (applyR_row B _).2.2] at i0 i2 i01 i12 i02
  have m31 : A.r0.dot B.r2 = 0 := by linarith
  have m13 : A.r2.dot B.r0 = 0 := by linarith
  have m32 : A.r1.dot B.r2 = 0 := by linarith
  have m12 : A.r1.dot B.r0 = 0 := by linarith
  obtain ⟨m, hm⟩ : ∃ m, m = A.r0.dot B.r0 := ⟨_, rfl⟩
  have m33 : A.r2.dot B.r2 = m := by rw [hm]; linarith
  have hB0 : B.r0 = A.r0.mulS m := by
    conv_lhs => rw [ex B.r0, dot_comm B.r0 A.r0, dot_comm B.r0 A.r1, dot_comm B.r0 A.r2, m13, m12, ← hm]
    ext <;> simp
  have hB2 : B.r2 = A.r2.mulS m := by
    conv_lhs => rw [ex B.r2, dot_comm B.r2 A.r0, dot_comm B.r2 A.r1, dot_comm B.r2 A.r2, m31, m32, m33]
    ext <;> simp
  have hm1 : m = 1 := by
    rcases row_mult ua0 ub0 hB0 with h | h
    · exact h
    · exfalso
      have hx : (B.applyR v).x = -(A.applyR v).x := by
        rw [(applyR_row B v).1, (applyR_row A v).1, hB0, h]; simp only [V3.dot, V3.mulS_x, V3.mulS_y, V3.mulS_z]; ring
      have hz : (B.applyR v).z = -(A.applyR v).z := by
        rw [(applyR_row B v).2.2, (applyR_row A v).2.2, hB2, h]; simp only [V3.dot, V3.mulS_x, V3.mulS_y, V3.mulS_z]; ring
      rw [hx, hz, neg_neg, neg_neg] at hargv
      obtain ⟨p1, p2⟩ := polar hargv
      obtain ⟨q1, q2⟩ := polar (rfl : _ = Complex.arg ⟨(A.applyR v).z, (A.applyR v).x⟩)
      rw [neg_sq, neg_sq] at p1
      rw [← q1] at p1
      exact hvz (by linarith)
  have one : ∀ r : V3 ℝ, r.mulS m = r := by intro r; rw [hm1]; ext <;> simp
  rw [one] at hB0 hB2
  refine M3.ext hB0.symm ?_ hB2.symm
  rw [Ac, Bc, hB0, hB2]

theorem arg_pos_sqrt {x : ℝ} (hx : 0 < x) (y : ℝ) : |Complex.arg ⟨x, y⟩| < Real.pi / 2 := by
  rw [Complex.abs_arg_lt_pi_div_two_iff]
  exact Or.inl hx

theorem pan_rows {a b : Cam} (ha : a.lens = noDistortion) (hb : b.lens = noDistortion) (pa : 0 < a.intr.fx ∧ 0 < a.intr.fy)
    (pb : 0 < b.intr.fx ∧ 0 < b.intr.fy) {hide : Bool} (h : Alike a b hide) (ka : a.kind ≠ .rectilinear) (kb : b.kind ≠ .rectilinear) :
    a.kind = b.kind ∧ a.intr.fy = b.intr.fy ∧ a.intr.cy = b.intr.cy := by
  have hR := pan_rotation ha hb pa pb h ka kb
  have key : ∀ t : ℝ, (imgR a.kind a.intr ⟨1, t, 1⟩).y = (imgR b.kind b.intr ⟨1, t, 1⟩).y := by
    intro t
    have hx : a.orient.mat.R.applyR (a.orient.mat.R.T.applyR ⟨1, t, 1⟩) = ⟨1, t, 1⟩ := M3.applyR_applyR_T (rigid_mat a.orient).RT _
    have hoff : Off (planes a b) (a.orient.mat.R.T.applyR ⟨1, t, 1⟩) := by
      intro l hl
      simp only [planes, ← hR, List.mem_cons, List.not_mem_nil, or_false] at hl
      rcases hl with rfl | rfl | rfl | rfl
      · rw [← (applyR_row _ _).1, hx]; exact one_ne_zero
      · rw [← (applyR_row _ _).2.2, hx]; exact one_ne_zero
      · rw [← (applyR_row _ _).1, hx]; exact one_ne_zero
      · rw [← (applyR_row _ _).2.2, hx]; exact one_ne_zero
    have e := (directions ha hb ⟨pb.1.ne', pb.2.ne'⟩ h hoff).2 (not_hid ka)
    rw [← hR, hx] at e
    rw [e]
  have s2 : (0 : ℝ) < Real.sqrt (1 ^ 2 + 1 ^ 2) := Real.sqrt_pos.2 (by norm_num)
  have arg0 : Complex.arg ⟨Real.sqrt (1 ^ 2 + 1 ^ 2), 0⟩ = 0 := Complex.arg_ofReal_of_nonneg s2.le
  have argn : ∀ y : ℝ, y ≠ 0 → Complex.arg ⟨Real.sqrt (1 ^ 2 + 1 ^ 2), y⟩ ≠ 0 := by
    intro y hy h0
    rw [Complex.arg_eq_zero_iff] at h0
    exact hy h0.2
  have k0 := key 0
  have no : ∀ f g c : ℝ, 0 < f → (∀ t, f * (t / Real.sqrt (1 ^ 2 + 1 ^ 2)) = g * Complex.arg ⟨Real.sqrt (1 ^ 2 + 1 ^ 2), t⟩) → False := by
    intro f g _ hf hall
    have hb := arg_pos_sqrt s2
    have e := hall ((|g| * Real.pi + 1) / f * Real.sqrt (1 ^ 2 + 1 ^ 2))
    have hb := hb ((|g| * Real.pi + 1) / f * Real.sqrt (1 ^ 2 + 1 ^ 2))
    rw [mul_div_assoc, div_self s2.ne', mul_one, mul_div_cancel₀ _ hf.ne'] at e
    have h1 : g * Complex.arg ⟨Real.sqrt (1 ^ 2 + 1 ^ 2), (|g| * Real.pi + 1) / f * Real.sqrt (1 ^ 2 + 1 ^ 2)⟩ ≤ |g| * (Real.pi / 2) := by
      refine (le_abs_self _).trans ?_
      rw [abs_mul]
      exact mul_le_mul_of_nonneg_left hb.le (abs_nonneg g)
    have h2 : 0 ≤ |g| * Real.pi := by positivity
    linarith
  cases hka : a.kind with
  | rectilinear => exact absurd hka ka
  | cylindrical =>
    cases hkb : b.kind with
    | rectilinear => exact absurd hkb kb
    | cylindrical =>
      simp only [hka, hkb, imgR] at key k0
      simp only [zero_div, mul_zero, zero_add] at k0
      have k1 := key (Real.sqrt (1 ^ 2 + 1 ^ 2))
      rw [div_self s2.ne', k0] at k1
      exact ⟨rfl, by linarith, k0⟩
    | equirectangular =>
      exfalso
      simp only [hka, hkb, imgR] at key k0
      simp only [zero_div, mul_zero, zero_add, arg0] at k0
      refine no a.intr.fy b.intr.fy 0 pa.2 fun t => ?_
      have := key t
      rw [k0] at this
      linarith
  | equirectangular =>
    cases hkb : b.kind with
    | rectilinear => exact absurd hkb kb
    | cylindrical =>
      exfalso
      simp only [hka, hkb, imgR] at key k0
      simp only [zero_div, mul_zero, zero_add, arg0] at k0
      refine no b.intr.fy a.intr.fy 0 pb.2 fun t => ?_
      have := key t
      rw [k0] at this
      linarith
    | equirectangular =>
      simp only [hka, hkb, imgR] at key k0
      simp only [mul_zero, zero_add, arg0] at k0
      have k1 := key 1
      rw [k0] at k1
      have := mul_right_cancel₀ (argn 1 one_ne_zero) (add_right_cancel k1)
      exact ⟨rfl, by linarith, k0⟩

/-- A rectilinear camera and a panorama never show the same. -/
theorem rect_pan {a b : Cam} (ha : a.lens = noDistortion) (hb : b.lens = noDistortion) (pb : 0 < b.intr.fx ∧ 0 < b.intr.fy)
    {hide : Bool} (h : Alike a b hide) (ka : a.kind = .rectilinear) (kb : b.kind ≠ .rectilinear) : False := by
  obtain ⟨v, hv⟩ := exists_off (planes_ne a b)
  have hvz : (a.orient.mat.R.applyR v).z ≠ 0 := hv _ (by simp [planes])
  have hbz : (b.orient.mat.R.applyR v).z ≠ 0 := hv _ (by simp [planes])
  have d1 := directions ha hb ⟨pb.1.ne', pb.2.ne'⟩ h hv
  have d2 := directions ha hb ⟨pb.1.ne', pb.2.ne'⟩ h (off_neg hv)
  have n1 : ¬ Hid a.kind hide (a.orient.mat.R.applyR v) := fun h => not_hid kb (d1.1.1 h)
  have n2 : ¬ Hid a.kind hide (a.orient.mat.R.applyR (v.mulS (-1))) := fun h => not_hid kb (d2.1.1 h)
  have e1 := d1.2 n1
  have e2 := d2.2 n2
  rw [M3.applyR_mulS, M3.applyR_mulS] at e2
  have e3 : imgR a.kind a.intr ((a.orient.mat.R.applyR v).mulS (-1)) = imgR a.kind a.intr (a.orient.mat.R.applyR v) := by
    rw [ka]
    simp only [imgR, V3.mulS_x, V3.mulS_y, V3.mulS_z, V2.mk.injEq]
    constructor <;> field_simp
  rw [e3, e1] at e2
  have e4 := congrArg V2.x e2
  rw [img_pan kb, img_pan kb] at e4
  have e5 := mul_left_cancel₀ (neg_ne_zero.2 pb.1.ne') (add_right_cancel e4)
  simp only [V3.mulS_x, V3.mulS_z, mul_neg, mul_one, neg_neg] at e5
  obtain ⟨p1, p2⟩ := polar e5
  obtain ⟨q1, q2⟩ := polar (rfl : _ = Complex.arg ⟨(b.orient.mat.R.applyR v).z, (b.orient.mat.R.applyR v).x⟩)
  rw [neg_sq, neg_sq, ← q1] at p1
  exact hbz (by linarith)

end Unique

/-- **C165** Two cameras without lens distortion that show everything far away at the same pixels are of the same class, have the same
focal lengths and optical centre and the same position and orientation. -/
theorem C165_unique (a b : Cam) (ha : a.lens = noDistortion) (hb : b.lens = noDistortion) (pa : 0 < a.intr.fx ∧ 0 < a.intr.fy)
    (pb : 0 < b.intr.fx ∧ 0 < b.intr.fy) (hide : Bool) (h : Alike a b hide) :
    a.kind = b.kind ∧ (a.intr.fx = b.intr.fx ∧ a.intr.fy = b.intr.fy ∧ a.intr.cx = b.intr.cx ∧ a.intr.cy = b.intr.cy) ∧
      a.orient.pos = b.orient.pos ∧ a.orient.mat.R = b.orient.mat.R := by
  have hpos := Unique.same_pos ha hb ⟨pb.1.ne', pb.2.ne'⟩ h
  by_cases ka : a.kind = .rectilinear <;> by_cases kb : b.kind = .rectilinear
  · obtain ⟨h1, h2⟩ := Unique.rect_rect ha hb pa pb h ka kb
    exact ⟨ka.trans kb.symm, h1, hpos, h2⟩
  · exact (Unique.rect_pan ha hb pb h ka kb).elim
  · exact (Unique.rect_pan hb ha pa (Unique.alike_symm h) kb ka).elim
  · obtain ⟨h1, h2⟩ := Unique.pan_scale ha hb pa pb h ka kb
    obtain ⟨h3, h4, h5⟩ := Unique.pan_rows ha hb pa pb h ka kb
    exact ⟨h3, ⟨h1, h4, h2, h5⟩, hpos, Unique.pan_rotation ha hb pa pb h ka kb⟩

/-- **C165** Cameras that agree far away agree everywhere, for every input, hidden points or not. -/
theorem C165_everywhere (a b : Cam) (ha : a.lens = noDistortion) (hb : b.lens = noDistortion) (pa : 0 < a.intr.fx ∧ 0 < a.intr.fy)
    (pb : 0 < b.intr.fx ∧ 0 < b.intr.fy) (hide : Bool) (h : Alike a b hide) (hide' : Bool) (P : V3 Num) :
    imageFromSpace a P hide' = imageFromSpace b P hide' := by
  obtain ⟨hk, ⟨h1, h2, h3, h4⟩, hpos, hR⟩ := C165_unique a b ha hb pa pb hide h
  have ht : a.orient.mat.t = b.orient.mat.t := by rw [mat_t, mat_t, hpos]
  simp only [imageFromSpace, ha, hb, noDistortion, id, hk, Spatial.cameraFromSpace, hR, ht]
  cases b.kind <;>
    simp only [imageFromCamera, imageFromCameraRect, imageFromCameraCyl, imageFromCameraEqui, projRect, projCyl, projEqui, h1, h2, h3, h4]

namespace Unique

theorem same_angle {x y : ℝ} (hs : Real.sin (Spatial.rad x) = Real.sin (Spatial.rad y)) (hc : Real.cos (Spatial.rad x) = Real.cos (Spatial.rad y)) :
    SameAngle x y := by
  have h := Real.Angle.cos_sin_inj hc hs
  obtain ⟨k, hk⟩ := Real.Angle.angle_eq_iff_two_pi_dvd_sub.1 h
  refine ⟨k, ?_⟩
  unfold Spatial.rad at hk
  have hp := Real.pi_pos
  have : (x - y) * Real.pi = 360 * k * Real.pi := by linarith
  have := mul_right_cancel₀ hp.ne' this
  linarith

theorem euler {r t g r' t' g' : ℝ} (ht : 0 < t ∧ t < 180) (ht' : 0 < t' ∧ t' < 180)
    (h : Spatial.rotation (Spatial.rad r) (Spatial.rad t) (Spatial.rad g) = Spatial.rotation (Spatial.rad r') (Spatial.rad t') (Spatial.rad g')) :
    t = t' ∧ SameAngle g g' ∧ SameAngle r r' := by
  have hp := Real.pi_pos
  simp only [Spatial.rotation, M3.mul, M3.rowMul, M3.T, Spatial.R_roll, Spatial.R_tilt, Spatial.R_head, V3.dot, M3.mk.injEq, V3.mk.injEq] at h
  obtain ⟨⟨-, -, h1⟩, ⟨-, -, h2⟩, h3, h4, h5⟩ := h
  have hc : Real.cos (Spatial.rad t) = Real.cos (Spatial.rad t') := by linarith
  have hr : ∀ s : ℝ, 0 < s ∧ s < 180 → 0 < Spatial.rad s ∧ Spatial.rad s < Real.pi := by
    rintro s ⟨h1, h2⟩
    unfold Spatial.rad
    exact ⟨by positivity, by nlinarith⟩
  have e : Spatial.rad t = Spatial.rad t' :=
    Real.injOn_cos ⟨(hr t ht).1.le, (hr t ht).2.le⟩ ⟨(hr t' ht').1.le, (hr t' ht').2.le⟩ hc
  have et : t = t' := by
    unfold Spatial.rad at e
    have := mul_right_cancel₀ (by positivity : Real.pi / 180 ≠ 0) e
    exact this
  have hs : 0 < Real.sin (Spatial.rad t) := Real.sin_pos_of_pos_of_lt_pi (hr t ht).1 (hr t ht).2
  rw [← e] at h1 h2 h3 h4
  refine ⟨et, same_angle ?_ ?_, same_angle ?_ ?_⟩
  · exact mul_left_cancel₀ hs.ne' (by linarith)
  · exact mul_left_cancel₀ hs.ne' (by linarith)
  · exact mul_left_cancel₀ hs.ne' (by linarith)
  · exact mul_left_cancel₀ hs.ne' (by linarith)

end Unique

/-- **C165** The parameters of the orientation, too, are determined by what the camera shows, the angles up to full turns. -/
theorem C165_parameters (a b : Cam) (ha : a.lens = noDistortion) (hb : b.lens = noDistortion) (pa : 0 < a.intr.fx ∧ 0 < a.intr.fy)
    (pb : 0 < b.intr.fx ∧ 0 < b.intr.fy) (oa : a.orient.Inclined) (ob : b.orient.Inclined) (hide : Bool) (h : Alike a b hide) :
    SameParameters a.orient b.orient := by
  obtain ⟨-, -, hpos, hR⟩ := C165_unique a b ha hb pa pb hide h
  have hy : ∀ r : ℝ, Real.pi / 2 + Spatial.rad r = Spatial.rad (90 + r) := by intro r; unfold Spatial.rad; ring
  have hn : ∀ r : ℝ, -(Spatial.rad r) = Spatial.rad (-r) := by intro r; unfold Spatial.rad; ring
  cases hoa : a.orient with
  | thr p =>
    rw [hoa] at hpos hR oa
    cases hob : b.orient with
    | thr q =>
      rw [hob] at hpos hR ob
      simp only [Orient.mat, (C12_heading_wrap _).2.2.2.2.1, Spatial.matrices] at hR
      simp only [Orient.pos, V3.mk.injEq] at hpos
      obtain ⟨e1, e2, e3⟩ := Unique.euler oa ob hR
      exact ⟨hpos.2.2, hpos.1, hpos.2.1, e1, e2, e3⟩
    | ypr q =>
      rw [hob] at hpos hR ob
      simp only [Orient.mat, (C12_heading_wrap _).2.2.2.2.1, Spatial.matrices, Moving.ypr_wrap, Spatial.matricesYPR, hy, hn] at hR
      simp only [Orient.pos, V3.mk.injEq] at hpos
      obtain ⟨b1, b2⟩ := ob
      obtain ⟨e1, e2, e3⟩ := Unique.euler oa ⟨by linarith, by linarith⟩ hR
      exact ⟨hpos.2.2, hpos.1, hpos.2.1, e1, e2, e3⟩
  | ypr p =>
    rw [hoa] at hpos hR oa
    obtain ⟨a1, a2⟩ := oa
    cases hob : b.orient with
    | thr q =>
      rw [hob] at hpos hR ob
      simp only [Orient.mat, (C12_heading_wrap _).2.2.2.2.1, Spatial.matrices, Moving.ypr_wrap, Spatial.matricesYPR, hy, hn] at hR
      simp only [Orient.pos, V3.mk.injEq] at hpos
      obtain ⟨e1, e2, e3⟩ := Unique.euler ⟨by linarith, by linarith⟩ ob hR
      exact ⟨hpos.2.2, hpos.1, hpos.2.1, e1, e2, e3⟩
    | ypr q =>
      rw [hob] at hpos hR ob
      simp only [Orient.mat, Moving.ypr_wrap, Spatial.matricesYPR, hy, hn] at hR
      simp only [Orient.pos, V3.mk.injEq] at hpos
      obtain ⟨b1, b2⟩ := ob
      obtain ⟨e1, e2, k, e3⟩ := Unique.euler ⟨by linarith, by linarith⟩ ⟨by linarith, by linarith⟩ hR
      refine ⟨hpos.2.2, hpos.1, hpos.2.1, by linarith, e2, -k, ?_⟩
      push_cast
      linarith

namespace Unique

theorem half_turn (K : Kind) (I J : Intr) (p : Spatial.Params) (P : V3 ℝ) :
    camR ⟨K, J, .thr { p with roll_deg := p.roll_deg + 180 }, noDistortion⟩ P =
      ⟨-(camR ⟨K, I, .thr p, noDistortion⟩ P).x, -(camR ⟨K, I, .thr p, noDistortion⟩ P).y, (camR ⟨K, I, .thr p, noDistortion⟩ P).z⟩ := by
  have e : Spatial.rad (p.roll_deg + 180) = Spatial.rad p.roll_deg + Real.pi := by unfold Spatial.rad; ring
  simp only [camR, Orient.mat, Orient.pos, (C12_heading_wrap _).2.2.2.2.1, Spatial.matrices, e, M3.applyR, V3.dot, Spatial.rotation, M3.mul, M3.rowMul, M3.T,
    Spatial.R_roll, Spatial.R_tilt, Spatial.R_head, Real.cos_add_pi, Real.sin_add_pi, V3.sub_x, V3.sub_y, V3.sub_z, V3.mk.injEq]
  refine ⟨?_, ?_, ?_⟩
  · ring
  · ring
  · trivial

theorem rect_is {c : Cam} (hl : c.lens = noDistortion) (hk : c.kind = .rectilinear) {P : V3 ℝ} (hz : minDepth ≤ |(camR c P).z|) {hide : Bool}
    (hh : ¬ Hid c.kind hide (camR c P)) : (imageFromSpace c P.num hide).Is (imgR .rectilinear c.intr (camR c P)) := by
  have hz0 : (camR c P).z ≠ 0 := by
    intro h0; rw [h0] at hz; norm_num [minDepth] at hz
  refine Lines.image_of c hk hl P hide hz fun h => ?_
  rcases lt_or_gt_of_ne hz0 with h' | h'
  · exact h'
  · exact absurd ⟨hk, h, h'⟩ hh

end Unique

/-- **C165** Positive focal lengths are needed: with both focal lengths negated and half a turn around its axis a rectilinear camera shows the same
picture, of every point that is not in the plane of the camera. -/
theorem C165_signs (I : Intr) (p : Spatial.Params) (P : V3 ℝ) (hide : Bool)
    (hz : minDepth ≤ |(camR ⟨.rectilinear, I, .thr p, noDistortion⟩ P).z|) :
    V2.Same (imageFromSpace ⟨.rectilinear, I, .thr p, noDistortion⟩ P.num hide)
      (imageFromSpace ⟨.rectilinear, { I with fx := -I.fx, fy := -I.fy }, .thr { p with roll_deg := p.roll_deg + 180 }, noDistortion⟩ P.num hide) := by
  have hc := Unique.half_turn .rectilinear I { I with fx := -I.fx, fy := -I.fy } p P
  have hz' : minDepth ≤ |(camR ⟨.rectilinear, { I with fx := -I.fx, fy := -I.fy }, .thr { p with roll_deg := p.roll_deg + 180 }, noDistortion⟩ P).z| := by
    rw [hc]; exact hz
  by_cases hh : Unique.Hid .rectilinear hide (camR ⟨.rectilinear, I, .thr p, noDistortion⟩ P)
  · exact .inl ⟨Unique.img_nan rfl hz hh, Unique.img_nan rfl hz' (by rw [hc]; exact hh)⟩
  · refine .inr ⟨_, Unique.rect_is rfl rfl hz hh, ?_⟩
    have h2 := Unique.rect_is (c := ⟨.rectilinear, { I with fx := -I.fx, fy := -I.fy }, .thr { p with roll_deg := p.roll_deg + 180 }, noDistortion⟩) rfl rfl hz'
      (hide := hide) (by rw [hc]; exact hh)
    rw [hc] at h2
    convert h2 using 1
    simp only [Unique.imgR, V2.mk.injEq]
    constructor <;> ring

namespace Unique

theorem turned (k : Kind) (I : Intr) (p : Spatial.Params) (hide : Bool) (P : V3 Num) :
    imageFromSpace ⟨k, I, .thr p, noDistortion⟩ P hide =
      imageFromSpace ⟨k, I, .thr { p with heading_deg := p.heading_deg + 360 }, noDistortion⟩ P hide := by
  have := (C12_heading_wrap p).2.2.2.2.2 1
  simp only [Int.cast_one, mul_one] at this
  simp only [imageFromSpace, Orient.mat, this]

end Unique

/-- Two different cameras of every class that show the same: one of them has turned around by 360 degrees. -/
example (k : Kind) : ∃ a b : Cam, a ≠ b ∧ a.kind = k ∧ a.lens = noDistortion ∧ b.lens = noDistortion ∧ (0 < a.intr.fx ∧ 0 < a.intr.fy) ∧
    (0 < b.intr.fx ∧ 0 < b.intr.fy) ∧ a.orient.Inclined ∧ b.orient.Inclined ∧ Alike a b true := by
  refine ⟨⟨k, ⟨100, 100, 50, 50, 100, 100⟩, .thr ⟨10, 45, 0, 0, 0, 0⟩, noDistortion⟩,
    ⟨k, ⟨100, 100, 50, 50, 100, 100⟩, .thr { (⟨10, 45, 0, 0, 0, 0⟩ : Spatial.Params) with heading_deg := 0 + 360 }, noDistortion⟩,
    ?_, rfl, rfl, rfl, by norm_num, by norm_num, by norm_num [Orient.Inclined], by norm_num [Orient.Inclined], 0, fun P _ => ?_⟩
  · intro h
    simp at h
  · rw [Unique.turned]
    exact ⟨.inl rfl, .inl rfl⟩

/-- A point ten metres in front of a camera that looks down. -/
example : minDepth ≤ |(camR ⟨.rectilinear, ⟨100, 100, 50, 50, 100, 100⟩, .thr ⟨10, 0, 0, 0, 0, 0⟩, noDistortion⟩ ⟨0, 0, 0⟩).z| := by
  norm_num [camR, Orient.mat, Orient.pos, (C12_heading_wrap _).2.2.2.2.1, Spatial.matrices, Spatial.rad, M3.applyR, V3.dot, Spatial.rotation, M3.mul, M3.rowMul, M3.T,
    Spatial.R_roll, Spatial.R_tilt, Spatial.R_head, minDepth, V3.sub_x, V3.sub_y, V3.sub_z]

/-- **C165** A camera that looks straight down must be excluded: turning it and rolling it by the same angle changes nothing. -/
theorem C165_straight_down (k : Kind) (I : Intr) (L : Lens) (p : Spatial.Params) (hp : p.tilt_deg = 0) (d : ℝ) (P : V3 Num) (hide : Bool) :
    imageFromSpace ⟨k, I, .thr p, L⟩ P hide =
      imageFromSpace ⟨k, I, .thr { p with heading_deg := p.heading_deg + d, roll_deg := p.roll_deg + d }, L⟩ P hide := by
  have e1 : Spatial.rad 0 = 0 := by simp [Spatial.rad]
  have e2 : ∀ x : ℝ, Spatial.rad (x + d) = Spatial.rad x + Spatial.rad d := by intro x; unfold Spatial.rad; ring
  have hR : Spatial.rotation (Spatial.rad p.roll_deg) 0 (Spatial.rad p.heading_deg) =
      Spatial.rotation (Spatial.rad p.roll_deg + Spatial.rad d) 0 (Spatial.rad p.heading_deg + Spatial.rad d) := by
    have hs := Real.sin_sq_add_cos_sq (Spatial.rad d)
    simp only [Spatial.rotation, M3.mul, M3.rowMul, M3.T, Spatial.R_roll, Spatial.R_tilt, Spatial.R_head, V3.dot, Real.cos_add, Real.sin_add,
      Real.cos_zero, Real.sin_zero, M3.mk.injEq, V3.mk.injEq]
    have hc : Real.cos (Spatial.rad p.roll_deg) * Real.cos (Spatial.rad p.heading_deg) + Real.sin (Spatial.rad p.roll_deg) * Real.sin (Spatial.rad p.heading_deg) =
      (Real.cos (Spatial.rad p.roll_deg) * Real.cos (Spatial.rad p.heading_deg) + Real.sin (Spatial.rad p.roll_deg) * Real.sin (Spatial.rad p.heading_deg)) *
        (Real.sin (Spatial.rad d) ^ 2 + Real.cos (Spatial.rad d) ^ 2) := by rw [hs, mul_one]
    have hd : Real.sin (Spatial.rad p.roll_deg) * Real.cos (Spatial.rad p.heading_deg) - Real.cos (Spatial.rad p.roll_deg) * Real.sin (Spatial.rad p.heading_deg) =
      (Real.sin (Spatial.rad p.roll_deg) * Real.cos (Spatial.rad p.heading_deg) - Real.cos (Spatial.rad p.roll_deg) * Real.sin (Spatial.rad p.heading_deg)) *
        (Real.sin (Spatial.rad d) ^ 2 + Real.cos (Spatial.rad d) ^ 2) := by rw [hs, mul_one]
    refine ⟨⟨?_, ?_, ?_⟩, ⟨?_, ?_, ?_⟩, ?_, ?_, ?_⟩
    · linear_combination hc
    · linear_combination hd
    · ring
    · linear_combination -hd
    · linear_combination hc
    · ring
    · ring
    · ring
    · trivial
  simp only [imageFromSpace, Orient.mat, (C12_heading_wrap _).2.2.2.2.1, Spatial.matrices, hp, e1, e2, ← hR]
