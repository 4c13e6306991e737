import Verif.Model.Drawn
import Verif.Props.Construct
import Verif.Props.Camera
import Verif.Props.View
import Verif.Props.SceneView
import Mathlib.Analysis.SpecialFunctions.Trigonometric.Bounds

/-! # The assertions of the property tests: C179 -/

open Classical Num Camera Drawn View

namespace Drawn

/-- The focal length that belongs to a field of view. -/
noncomputable def focal (k : Projection.Kind) (w v : ℝ) : ℝ := match k with
  | .rectilinear => w / (2 * Real.tan (v * (Real.pi / 180) / 2))
  | _ => w / (v * (Real.pi / 180))

theorem sensor_pos {s : ℝ × ℝ} (h : s ∈ sensorSizes) : 0 < s.1 ∧ 0 < s.2 ∧ s.1 ≤ 5 * s.2 ∧ 3 * s.2 ≤ 4 * s.1 := by
  unfold sensorSizes at h
  simp only [List.mem_cons, List.not_mem_nil, or_false] at h
  repeat' (rcases h with rfl | h)
  all_goals norm_num

theorem height_facts {d : Draw} (h : d.Ok) : 1 ≤ d.height ∧ (d.height : ℝ) ≤ 4 / 3 * d.width := by
  obtain ⟨s1, s2, s3, s4⟩ := sensor_pos h.sensor
  have hw : (10 : ℝ) ≤ d.width := by exact_mod_cast h.width.1
  have e : (d.width : ℝ) / d.sensor.1 * d.sensor.2 = d.width * (d.sensor.2 / d.sensor.1) := by ring
  have r1 : (1 : ℝ) / 5 ≤ d.sensor.2 / d.sensor.1 := by rw [div_le_div_iff₀ (by norm_num) s1]; linarith
  have r2 : d.sensor.2 / d.sensor.1 ≤ 4 / 3 := by rw [div_le_div_iff₀ s1 (by norm_num)]; linarith
  unfold Draw.height
  rw [e]
  constructor
  · rw [Nat.one_le_floor_iff]; nlinarith
  · refine (Nat.floor_le (by positivity)).trans ?_
    nlinarith

theorem view_tan {v : ℝ} (h1 : 1 ≤ v) (h2 : v ≤ 80) : 0 < Real.tan (v * (Real.pi / 180) / 2) ∧ Real.tan (v * (Real.pi / 180) / 2) ≤ 1 := by
  have hpi := Real.pi_pos
  constructor
  · apply Real.tan_pos_of_pos_of_lt_pi_div_two <;> nlinarith
  · rw [← Real.tan_pi_div_four]
    apply Real.strictMonoOn_tan.monotoneOn
    · constructor <;> nlinarith
    · constructor <;> nlinarith
    · nlinarith

/-- The parameters of a drawn projection. -/
noncomputable def Draw.intr (d : Draw) : Projection.Intr :=
  ⟨focal d.kind d.width d.view, focal d.kind d.width d.view, d.width / 2, d.height / 2, d.width, d.height⟩

/-- What the constructor makes of a draw. -/
theorem constructs {d : Draw} (h : d.Ok) : ∃ n : Num, Num.Is n (focal d.kind d.width d.view) ∧ Construct.construct d.kind d.args =
    .ok ⟨.num n, .num n, .num n, d.width / 2, d.height / 2, d.width, d.height, some d.sensor.1, some d.sensor.2,
      Construct.truthy (some d.view) ∨ Construct.truthy none⟩ := by
  have hpi := Real.pi_pos
  have hv : d.view ≠ 0 := by have := h.view.1; intro h0; rw [h0] at this; norm_num at this
  have tv : Construct.truthy (some d.view) := ⟨_, rfl, hv⟩
  have key : ∃ n : Num, Construct.fov d.kind d.width d.height (some (.fin d.view)) none = .ok (.num n) ∧ Num.Is n (focal d.kind d.width d.view) := by
    have ht := (view_tan h.view.1 h.view.2).1
    have hpos : d.view * (Real.pi / 180) ≠ 0 := mul_ne_zero hv (by positivity)
    have hd : Num.Is (Num.deg2rad (.fin d.view)) (d.view * (Real.pi / 180)) := (is_fin d.view).deg2rad
    unfold Construct.fov Projection.focallengthFromFOV focal
    cases d.kind with
    | rectilinear => exact ⟨_, rfl, (is_fin _).div ((is_fin 2).mul (hd.div (is_fin 2) two_ne_zero).tan) (mul_ne_zero two_ne_zero ht.ne')⟩
    | cylindrical => exact ⟨_, rfl, (is_fin _).div hd hpos⟩
    | equirectangular => exact ⟨_, rfl, (is_fin _).div hd hpos⟩
  obtain ⟨n, hn, i⟩ := key
  have tn : ¬ Construct.truthy none := by simp [Construct.truthy]
  have tf : ¬ Construct.truthyF none := by simp [Construct.truthyF]
  refine ⟨n, i, ?_⟩
  simp only [Construct.construct, Draw.args, Construct.dims, Construct.centre, Construct.focal, Construct.sensors, Construct.millimetres, Construct.viewX,
    Construct.viewY, Construct.finish, bind, Except.bind, tn, tf, tv, hn, Option.isSome_none, Option.map_none, Option.map_some,
    Option.getD_none, if_true, if_false, or_self, and_self, false_and, Bool.false_eq_true]

theorem makes_iff {d : Draw} (h : d.Ok) (I : Projection.Intr) : d.Makes I ↔ I = d.intr := by
  obtain ⟨n, i, hc⟩ := constructs h
  constructor
  · rintro ⟨r, X, Y, hr, hX, hY, iX, iY, e1, e2, e3, e4⟩
    rw [hc] at hr
    cases hr
    cases hX
    cases hY
    have f1 := iX.unique i
    have f2 := iY.unique i
    cases I
    simp_all [Draw.intr]
  · rintro rfl
    exact ⟨_, n, n, hc, rfl, rfl, i, i, rfl, rfl, rfl, rfl⟩

theorem focal_pos {d : Draw} (h : d.Ok) : 0 < focal d.kind d.width d.view := by
  have hw : (0 : ℝ) < d.width := by exact_mod_cast (by have := h.width.1; omega : 0 < d.width)
  have hpi := Real.pi_pos
  have ht := (view_tan h.view.1 h.view.2).1
  have hv : 0 < d.view := by linarith [h.view.1]
  unfold focal
  cases d.kind <;> simp only <;> positivity

/-- A drawn pixel is at most the width of the image away from the middle. -/
theorem pixel_near {d : Draw} (h : d.Ok) {c : Cam} (hI : c.intr = d.intr) {p : V2 ℝ} (hp : IsPixel c p) :
    |p.x - c.intr.cx| ≤ d.width ∧ |p.y - c.intr.cy| ≤ d.width := by
  obtain ⟨h1, h2⟩ := height_facts h
  have hh : (0 : ℝ) ≤ d.height := Nat.cast_nonneg _
  have hw : (0 : ℝ) ≤ d.width := Nat.cast_nonneg _
  unfold IsPixel at hp
  rw [hI] at hp ⊢
  simp only [Draw.intr] at hp ⊢
  rw [abs_le, abs_le]
  rcases hp with ⟨a, b, e, f⟩ | ⟨a, b, e, f⟩ <;> refine ⟨⟨?_, ?_⟩, ?_, ?_⟩ <;> linarith

/-- The ray of a drawn pixel: it is determined by the pixel, and points well away from the plane of the camera. -/
theorem pixel_ray {d : Draw} (h : d.Ok) {c : Cam} (hk : d.kind = c.kind) (hI : c.intr = d.intr) {p : V2 ℝ} (hp : IsPixel c p) :
    Projection.InRange c.kind c.intr p ∧ (Projection.rayR c.kind c.intr p).z ≤ -(1 / 9) ∧ (Projection.rayR c.kind c.intr p).normSq ≤ 100 := by
  obtain ⟨hx, hy⟩ := pixel_near h hI hp
  have hf := focal_pos h
  have hw : (0 : ℝ) < d.width := by exact_mod_cast (by have := h.width.1; omega : 0 < d.width)
  have hpi := Real.pi_pos
  have hpi4 := Real.pi_le_four
  obtain ⟨t1, t2⟩ := view_tan h.view.1 h.view.2
  have hv : 0 < d.view := by linarith [h.view.1]
  have efx : c.intr.fx = focal d.kind d.width d.view := by rw [hI]; rfl
  have efy : c.intr.fy = focal d.kind d.width d.view := by rw [hI]; rfl
  set a := (p.x - c.intr.cx) / c.intr.fx with ha
  set b := (p.y - c.intr.cy) / c.intr.fy with hb
  have ab : |a| ≤ d.width / focal d.kind d.width d.view ∧ |b| ≤ d.width / focal d.kind d.width d.view := by
    rw [ha, hb, efx, efy, abs_div, abs_div, abs_of_pos hf]
    exact ⟨div_le_div_of_nonneg_right hx hf.le, div_le_div_of_nonneg_right hy hf.le⟩
  have lin : d.kind ≠ .rectilinear → d.width / focal d.kind d.width d.view ≤ 4 * Real.pi / 9 := by
    intro hne
    have : focal d.kind d.width d.view = d.width / (d.view * (Real.pi / 180)) := by
      unfold focal; cases hkk : d.kind <;> simp_all
    rw [this, div_div_cancel₀ hw.ne']
    nlinarith [h.view.2]
  have cosb : ∀ x : ℝ, |x| ≤ 4 * Real.pi / 9 → 1 / 9 ≤ Real.cos x := by
    intro x hx
    rw [← Real.cos_abs]
    have := Real.one_sub_mul_le_cos (abs_nonneg x) (by linarith : |x| ≤ Real.pi / 2)
    refine le_trans ?_ this
    have : 2 / Real.pi * |x| ≤ 2 / Real.pi * (4 * Real.pi / 9) := mul_le_mul_of_nonneg_left hx (by positivity)
    have e : 2 / Real.pi * (4 * Real.pi / 9) = 8 / 9 := by field_simp; norm_num
    linarith
  cases hkc : c.kind with
  | rectilinear =>
    have hb2 : d.width / focal d.kind d.width d.view ≤ 2 := by
      rw [hk, hkc]
      simp only [focal]
      rw [div_div_cancel₀ hw.ne']; linarith
    have a2 : a ^ 2 ≤ 4 := by rw [← sq_abs]; nlinarith [abs_nonneg a, ab.1]
    have b2 : b ^ 2 ≤ 4 := by rw [← sq_abs]; nlinarith [abs_nonneg b, ab.2]
    refine ⟨trivial, ?_, ?_⟩
    · show (-1 : ℝ) ≤ _; norm_num
    · show a ^ 2 + (-b) ^ 2 + (-1) ^ 2 ≤ _; nlinarith
  | cylindrical =>
    have hl := lin (by rw [hk, hkc]; simp)
    have hca := cosb a (ab.1.trans hl)
    have b2 : b ^ 2 ≤ 4 := by rw [← sq_abs]; nlinarith [abs_nonneg b, ab.2]
    refine ⟨?_, ?_, ?_⟩
    · show |a| < Real.pi; linarith [ab.1]
    · show -Real.cos a ≤ _; linarith
    · show Real.sin a ^ 2 + (-b) ^ 2 + (-Real.cos a) ^ 2 ≤ _; nlinarith [Real.sin_sq_add_cos_sq a]
  | equirectangular =>
    have hl := lin (by rw [hk, hkc]; simp)
    have hca := cosb a (ab.1.trans hl)
    have hcb := cosb b (ab.2.trans hl)
    have tb : Real.tan b ^ 2 ≤ 81 := by
      rw [Real.tan_eq_sin_div_cos, div_pow, div_le_iff₀ (by positivity)]
      nlinarith [Real.sin_sq_add_cos_sq b]
    refine ⟨⟨?_, ?_⟩, ?_, ?_⟩
    · show |a| < Real.pi; linarith [ab.1]
    · show |b| < Real.pi / 2; linarith [ab.2]
    · show -Real.cos a ≤ _; linarith
    · show Real.sin a ^ 2 + (-Real.tan b) ^ 2 + (-Real.cos a) ^ 2 ≤ _; nlinarith [Real.sin_sq_add_cos_sq a]

/-- A point on the ray of a drawn pixel that is not too close to the camera. -/
theorem deep_of {d : Draw} (h : d.Ok) {c : Cam} (hk : d.kind = c.kind) (hI : c.intr = d.intr) {p : V2 ℝ} (hp : IsPixel c p) {u : ℝ}
    (hu : 1 / 10 ^ 6 ≤ u) : Deep c ((dirR c p).mulS u + c.orient.pos) := by
  refine ⟨_, cameraFromSpace_is c (V3.is_num _), ?_⟩
  rw [camR_on_ray]
  obtain ⟨-, hz, -⟩ := pixel_ray h hk hI hp
  have : Projection.minDepth = 1 / 10 ^ 10 := rfl
  rw [V3.mulS_z, abs_mul, abs_of_neg (by linarith), abs_of_nonneg (by linarith [show (0 : ℝ) ≤ 1 / 10 ^ 6 by positivity]), this]
  have : (1 : ℝ) / 10 ^ 6 * (1 / 9) ≤ -(Projection.rayR c.kind c.intr p).z * u := by
    rw [mul_comm]
    exact mul_le_mul (by linarith) hu (by positivity) (by linarith)
  refine le_trans ?_ this
  norm_num

/-- The height of the ray of a drawn pixel grows by at most 10 for each unit. -/
theorem dir_norm {d : Draw} (h : d.Ok) {c : Cam} (hk : d.kind = c.kind) (hI : c.intr = d.intr) {p : V2 ℝ} (hp : IsPixel c p) :
    (dirR c p).normSq ≤ 100 ∧ |(dirR c p).z| ≤ 10 := by
  have : (dirR c p).normSq ≤ 100 := by
    unfold dirR
    rw [M3.normSq_applyR (A := c.orient.mat.R.T) (rigid_mat c.orient).RT]
    exact (pixel_ray h hk hI hp).2.2
  refine ⟨this, ?_⟩
  apply abs_le_of_sq_le_sq _ (by norm_num)
  simp only [V3.normSq] at this
  nlinarith [sq_nonneg (dirR c p).x, sq_nonneg (dirR c p).y]

/-- Points without a height have no pixel. -/
theorem image_nan_z (c : Cam) (hl : c.lens = noDistortion) {P : V3 Num} (h : P.z = .nan) : imageFromSpace c P = V2.nan := by
  have h1 : Spatial.cameraFromSpace c.orient.mat P = V3.nan := by
    simp [Spatial.cameraFromSpace, M3.apply, V3.nan, V3.dot, h]
  have h2 : Spatial.cameraFromSpace c.orient.mat V3.nan = V3.nan := by
    simp [Spatial.cameraFromSpace, M3.apply, V3.nan, V3.dot]
  rw [← Scene.image_nan c hl]
  unfold imageFromSpace
  rw [h1, h2]

theorem sides_pos {d : Draw} (h : d.Ok) : (0 : ℝ) < d.width ∧ (0 : ℝ) < d.height := by
  have h1 := h.width.1
  have h2 := (height_facts h).1
  exact ⟨by exact_mod_cast (by omega : 0 < d.width), by exact_mod_cast (by omega : 0 < d.height)⟩

/-- Points at the height of a rectilinear camera have no pixel. -/
theorem near_nan {I : Projection.Intr} {n : V3 Num} {P : V3 ℝ} (h : n.Is P) (hz : |P.z| < Projection.minDepth) (hide : Bool) :
    Projection.imageFromCamera .rectilinear I n hide = V2.nan := by
  have hs : Projection.snap n = ⟨.fin 0, .fin 0, .fin 0⟩ := Projection.snap_near (q := P) h.2.2 hz
  simp only [Projection.imageFromCamera, Projection.imageFromCameraRect, hs]
  have h1 : Num.Is (-(fin 0) * fin I.fx) 0 := ((is_fin 0).neg.mul (is_fin I.fx)).congr (by ring)
  have h2 : Num.Is (fin 0 * fin I.fy) 0 := ((is_fin 0).mul (is_fin I.fy)).congr (by ring)
  unfold Projection.projRect
  simp only [zero_div_zero h1 (is_fin 0), zero_div_zero h2 (is_fin 0), nan_add]
  split_ifs <;> rfl

theorem arctan_range {s f : ℝ} (hs : 0 < s) (hf : 0 < f) :
    0 < 2 * Real.arctan (s / (2 * f)) * (180 / Real.pi) ∧ 2 * Real.arctan (s / (2 * f)) * (180 / Real.pi) < 180 := by
  have hpi := Real.pi_pos
  have h1 : 0 < Real.arctan (s / (2 * f)) := Real.arctan_pos.2 (by positivity)
  have h2 := Real.arctan_lt_pi_div_two (s / (2 * f))
  refine ⟨by positivity, ?_⟩
  rw [mul_div_assoc', div_lt_iff₀ hpi]
  nlinarith

/-- The fields of view of a projection. -/
theorem fov_admissible (k : Projection.Kind) (I : Projection.Intr) (hx : 0 < I.fx) (hy : 0 < I.fy) (hw : 0 < I.w) (hh : 0 < I.h) :
    (∀ v, Num.Is (Projection.getFieldOfView k I).1 v → Projection.Admissible k true v) ∧
    (∀ v, Num.Is (Projection.getFieldOfView k I).2 v → Projection.Admissible k false v) := by
  have hpi := Real.pi_pos
  cases k with
  | rectilinear =>
    constructor <;> intro v hv
    · rw [hv.unique (Projection.arctan_is I.w I.fx hx.ne')]
      exact ⟨(arctan_range hw hx).1, fun _ => (arctan_range hw hx).2⟩
    · rw [hv.unique (Projection.arctan_is I.h I.fy hy.ne')]
      exact ⟨(arctan_range hh hy).1, fun _ => (arctan_range hh hy).2⟩
  | cylindrical =>
    constructor <;> intro v hv
    · rw [hv.unique (Projection.linView_is I.w I.fx hx.ne')]
      exact ⟨by positivity, by simp⟩
    · rw [hv.unique (Projection.arctan_is I.h I.fy hy.ne')]
      exact ⟨(arctan_range hh hy).1, fun _ => (arctan_range hh hy).2⟩
  | equirectangular =>
    constructor <;> intro v hv
    · rw [hv.unique (Projection.linView_is I.w I.fx hx.ne')]
      exact ⟨by positivity, by simp⟩
    · rw [hv.unique (Projection.linView_is I.h I.fy hy.ne')]
      exact ⟨by positivity, by simp⟩

section
open Construct
variable (u : Choice) {I : Projection.Intr} {w h : ℕ} {s v : ℝ × ℝ}

theorem args_nonzero (x1 : I.fx ≠ 0) (x2 : I.fy ≠ 0) (c1 : I.cx ≠ 0) (c2 : I.cy ≠ 0) (w0 : w ≠ 0) (h0 : h ≠ 0) (s1 : s.1 ≠ 0) (s2 : s.2 ≠ 0)
    (a1 : v.1 ≠ 0) (a2 : v.2 ≠ 0) : Nonzero (u.args I w h s v) := by
  obtain ⟨i, c, f, m, e, o⟩ := u
  constructor
  · fin_cases f <;> simp [Choice.args, Construct.real, x1]
  · fin_cases f <;> simp [Choice.args, NZ, x1]
  · fin_cases f <;> simp [Choice.args, NZ, x2]
  · fin_cases c <;> simp [Choice.args, NZ, c1]
  · fin_cases c <;> simp [Choice.args, NZ, c2]
  · fin_cases m <;> simp [Choice.args, NZ]
  · fin_cases i <;> simp [Choice.args, NZ, w0]
  · fin_cases i <;> simp [Choice.args, NZ, h0]
  · fin_cases e <;> simp [Choice.args, NZ, s1]
  · fin_cases e <;> simp [Choice.args, NZ, s2]
  · fin_cases o <;> simp [Choice.args, NZ, a1]
  · fin_cases o <;> simp [Choice.args, NZ, a1, a2]
  · fin_cases i <;> simp [Choice.args, Image.size, w0, h0]
  · fin_cases e <;> simp [Choice.args, s1, s2]

theorem args_mixed : ¬ Mixed (u.args I w h s v) := by
  obtain ⟨i, c, f, m, e, o⟩ := u
  fin_cases f <;> simp [Mixed, Choice.args]

theorem error_view (hv : u.view ≠ 0) (hf : u.focal ≠ 0) : u.Error := by
  unfold Choice.Error
  iterate 8 right
  exact .inl ⟨hv, .inr hf⟩

theorem error_mm (hm : u.mm = 1) (hf : u.focal ≠ 0) : u.Error := by
  unfold Choice.Error
  iterate 6 right
  exact .inl ⟨hm, hf⟩

theorem error_none (hm : u.mm = 0) (hf : u.focal = 0) (hv : u.view = 0) : u.Error := by
  unfold Choice.Error
  iterate 9 right
  exact ⟨hm, hf, hv⟩

theorem args_consistent : Consistent (u.args I w h s v) ↔ ¬ u.Error := by
  obtain ⟨i, c, f, m, e, o⟩ := u
  have e1 : OneImage (Choice.args ⟨i, c, f, m, e, o⟩ I w h s v) ↔ ¬ (i = 0 ∨ i = 4 ∨ i = 5 ∨ i = 6) := by
    fin_cases i <;> simp [OneImage, Choice.args]
  have e2 : OneCentre (Choice.args ⟨i, c, f, m, e, o⟩ I w h s v) ↔ c ≠ 3 := by
    fin_cases c <;> simp [OneCentre, Choice.args]
  have e3 : OneSensor (Choice.args ⟨i, c, f, m, e, o⟩ I w h s v) := by
    fin_cases e <;> simp [OneSensor, Choice.args]
  have x1 : (Choice.args ⟨i, c, f, m, e, o⟩ I w h s v).f ≠ none ↔ f = 1 ∨ f = 3 := by fin_cases f <;> simp [Choice.args]
  have x2 : (Choice.args ⟨i, c, f, m, e, o⟩ I w h s v).fx ≠ none ↔ f = 2 ∨ f = 3 := by fin_cases f <;> simp [Choice.args]
  have x3 : (Choice.args ⟨i, c, f, m, e, o⟩ I w h s v).fy ≠ none ↔ f = 2 ∨ f = 3 := by fin_cases f <;> simp [Choice.args]
  have x4 : (Choice.args ⟨i, c, f, m, e, o⟩ I w h s v).fmm ≠ none ↔ m = 1 := by fin_cases m <;> simp [Choice.args]
  have x5 : (Choice.args ⟨i, c, f, m, e, o⟩ I w h s v).vx ≠ none ∨ (Choice.args ⟨i, c, f, m, e, o⟩ I w h s v).vy ≠ none ↔ o ≠ 0 := by
    fin_cases o <;> simp [Choice.args]
  have x6 : (Choice.args ⟨i, c, f, m, e, o⟩ I w h s v).sensor ≠ none ∨ (Choice.args ⟨i, c, f, m, e, o⟩ I w h s v).sw ≠ none ∨
      (Choice.args ⟨i, c, f, m, e, o⟩ I w h s v).sh ≠ none ↔ e ≠ 0 := by
    fin_cases e <;> simp [Choice.args]
  have e4 : OneFocal (Choice.args ⟨i, c, f, m, e, o⟩ I w h s v) ↔
      ¬ (f = 3 ∨ (m = 1 ∧ f ≠ 0) ∨ (m = 1 ∧ e = 0) ∨ (o ≠ 0 ∧ (m ≠ 0 ∨ f ≠ 0)) ∨ (m = 0 ∧ f = 0 ∧ o = 0)) := by
    unfold OneFocal
    generalize (Choice.args ⟨i, c, f, m, e, o⟩ I w h s v) = a at x1 x2 x3 x4 x5 x6
    rw [x6]
    have y1 := not_iff_not.2 x1
    have y2 := not_iff_not.2 x2
    have y3 := not_iff_not.2 x3
    have y4 := not_iff_not.2 x4
    have y5 := not_iff_not.2 x5
    rw [not_or] at y5
    simp only [ne_eq, not_not] at y1 y2 y3 y4 y5 x1 x2 x3 x4 x5
    simp only [ne_eq, x1, x2, x4, x5, y1, y2, y3, y4, y5, not_or]
    clear x1 x2 x3 x4 x5 x6 y1 y2 y3 y4 y5 e1 e2 e3
    fin_cases f <;> fin_cases m <;> simp
  have : Consistent (Choice.args ⟨i, c, f, m, e, o⟩ I w h s v) ↔ OneImage (Choice.args ⟨i, c, f, m, e, o⟩ I w h s v) ∧
      OneCentre (Choice.args ⟨i, c, f, m, e, o⟩ I w h s v) ∧ OneFocal (Choice.args ⟨i, c, f, m, e, o⟩ I w h s v) :=
    ⟨fun h => ⟨h.image, h.centre, h.focal⟩, fun h => ⟨h.1, h.2.1, e3, h.2.2⟩⟩
  have e5 : Choice.Error ⟨i, c, f, m, e, o⟩ ↔ (i = 0 ∨ i = 4 ∨ i = 5 ∨ i = 6) ∨ c = 3 ∨
      (f = 3 ∨ (m = 1 ∧ f ≠ 0) ∨ (m = 1 ∧ e = 0) ∨ (o ≠ 0 ∧ (m ≠ 0 ∨ f ≠ 0)) ∨ (m = 0 ∧ f = 0 ∧ o = 0)) := by
    unfold Choice.Error
    simp only [or_assoc]
  rw [this, e1, e2, e4, e5]
  simp only [not_or, ne_eq]

theorem args_sides {r : Result} (hi : OneImage (u.args I w h s v)) (q1 : Width (u.args I w h s v) r.w ∧ Height (u.args I w h s v) r.h) :
    r.w = w ∧ r.h = h := by
  obtain ⟨i, c, f, m, e, o⟩ := u
  revert q1 hi
  fin_cases i <;> simp [OneImage, Choice.args, Width, Height]
  all_goals exact fun a b => ⟨by rw [a], by rw [b]⟩

theorem args_centre {r : Result} (hi : OneCentre (u.args I w h s v)) (q2 : ∀ c, (u.args I w h s v).center = some c → r.cx = c.1 ∧ r.cy = c.2)
    (q3 : (u.args I w h s v).center = none → (∀ x, (u.args I w h s v).cx = some x → r.cx = x) ∧ (∀ y, (u.args I w h s v).cy = some y → r.cy = y) ∧
      ((u.args I w h s v).cx = none → 2 * r.cx = r.w) ∧ ((u.args I w h s v).cy = none → 2 * r.cy = r.h)) :
    u.center ≠ 0 → r.cx = I.cx ∧ r.cy = I.cy := by
  obtain ⟨i, c, f, m, e, o⟩ := u
  revert q2 q3 hi
  fin_cases c <;> simp +contextual [OneCentre, Choice.args]

theorem args_sensor {r : Result} (q4 : ∀ c, (u.args I w h s v).sensor = some c → r.sw = some c.1 ∧ r.sh = some c.2)
    (q5 : (u.args I w h s v).sensor = none → (∀ x, (u.args I w h s v).sw = some x → r.sw = some x) ∧ (∀ y, (u.args I w h s v).sh = some y → r.sh = some y) ∧
      (∀ x, (u.args I w h s v).sw = some x → x ≠ 0 → (u.args I w h s v).sh = none → ∃ y, r.sh = some y ∧ y * r.w = x * r.h) ∧
      (∀ y, (u.args I w h s v).sh = some y → y ≠ 0 → (u.args I w h s v).sw = none → ∃ x, r.sw = some x ∧ y * r.w = x * r.h) ∧
      ((u.args I w h s v).sw = none → (u.args I w h s v).sh = none → r.sw = none ∧ r.sh = none)) :
    (u.sensor = 1 ∨ u.sensor = 2 → r.sw = some s.1 ∧ r.sh = some s.2) ∧ (u.sensor = 3 → r.sw = some s.1) ∧ (u.sensor = 4 → r.sh = some s.2) := by
  have q5' := fun hs => (q5 hs).1
  have q5'' := fun hs => (q5 hs).2.1
  clear q5
  obtain ⟨i, c, f, m, e, o⟩ := u
  revert q4 q5' q5''
  fin_cases e <;> simp +contextual [Choice.args]

theorem args_view : (∀ x, (u.args I w h s v).vx = some x → v.1 = x) ∧ (∀ x, (u.args I w h s v).vy = some x → v.2 = x ∨ v.1 = x) ∧
    (u.view ≠ 0 → (u.args I w h s v).vx ≠ none ∨ (u.args I w h s v).vy ≠ none) := by
  obtain ⟨i, c, f, m, e, o⟩ := u
  fin_cases o <;> simp +contextual [Choice.args]

theorem focal_xy {k : Projection.Kind} {a : Args} {r : Result} {x y : ℝ} (h1 : a.f = none) (h2 : a.fx = some x) (h3 : a.fy = some y) (hx : x ≠ 0) (hy : y ≠ 0)
    (h : construct k a = .ok r) : r.fx = real x ∧ r.fy = real y := by
  have tx : truthy (some x) := ⟨x, rfl, hx⟩
  obtain ⟨c, f, f2, f3, s, -, -, rfl, k3, -, rfl, k5, k6, k7, k8, -⟩ := construct_inv h
  unfold Construct.focal at k3
  rw [h1, h2, h3, if_pos (Or.inr (Or.inl tx))] at k3
  split_ifs at k3 with g1 g2 g3
  · exact absurd g3 (by simp [truthyF])
  cases k3
  unfold millimetres at k5
  have : a.fmm = none := by simpa using g2
  rw [this] at k5; cases k5
  obtain ⟨-, rfl⟩ := viewX_some rfl k6
  obtain ⟨-, e⟩ := viewY_some (real_nz hy) k7
  simp only [Prod.mk.injEq] at e
  exact ⟨Option.some.inj e.1, Option.some.inj e.2⟩

theorem args_focal {k : Projection.Kind} {r : Result} (hf : u.focal ≠ 0) (hx : I.fx ≠ 0) (hy : I.fy ≠ 0) (he : I.fx = I.fy)
    (hr : construct k (u.args I w h s v) = .ok r) : r.fx = .num (.fin I.fx) ∧ r.fy = .num (.fin I.fy) := by
  by_cases h1 : u.focal = 2
  · exact focal_xy (by simp [Choice.args, h1]) (by simp [Choice.args, h1]) (by simp [Choice.args, h1]) hx hy hr
  · have : u.focal = 1 ∨ u.focal = 3 := by omega
    have hu : (u.args I w h s v).f = some (real I.fx) := by rcases this with e | e <;> simp [Choice.args, e]
    obtain ⟨g1, g2, -⟩ := focal_f hu (real_nz hx) hr
    exact ⟨g1, g2.trans (by rw [he]; rfl)⟩

end

/-- The position of a rectilinear camera has no pixel. -/
theorem origin_nan {c : Cam} (hl : c.lens = noDistortion) (hk : c.kind = .rectilinear) {O : V3 Num} (hO : O.Is c.orient.pos) : imageFromSpace c O = V2.nan := by
  have hP := cameraFromSpace_is c hO
  have e : camR c c.orient.pos = ⟨0, 0, 0⟩ := by
    have : c.orient.pos - c.orient.pos = (⟨0, 0, 0⟩ : V3 ℝ) := by ext <;> simp
    unfold camR
    rw [this]
    ext <;> simp [M3.applyR, V3.dot]
  rw [e] at hP
  unfold imageFromSpace
  rw [hl, hk]
  exact near_nan hP (by simp [Projection.minDepth]) true

/-- The point at distance `s` along the ray of a drawn pixel. -/
theorem distance_image {c : Cam} (h : IsCamera c) {p : V2 ℝ} (hp : IsPixel c p) {s : ℝ} (hs : 1 ≤ s) {P : V3 Num}
    (hP : spaceFromImage c p.num { D := some (.fin s) } = .ok P) : (imageFromSpace c P).Is p := by
  obtain ⟨⟨d, hd, hk, hm⟩, -, hl⟩ := h
  rw [makes_iff hd] at hm
  have hf := focal_pos hd
  have hc : c.Proper := by unfold Cam.Proper; rw [hm]; exact ⟨hf.ne', hf.ne'⟩
  have hu : (c.lens.imageFromDistorted p.num).Is p := by rw [hl]; exact V2.is_num p
  obtain ⟨t, ht, -, ht', hdir⟩ := getRay_dir c hc.1 hc.2 hu true
  have hoff := getRay_offset c p.num true
  have hn := dirR_norm_pos c p
  have hn10 : (dirR c p).norm ≤ 10 := by
    unfold V3.norm
    rw [show (10 : ℝ) = Real.sqrt (10 ^ 2) from (Real.sqrt_sq (by norm_num)).symm]
    exact Real.sqrt_le_sqrt ((dir_norm hd hk hm hp).1.trans (by norm_num))
  have hsp : spaceFromImage c p.num { D := some (.fin s) } = .ok (pointAt (getRay c p.num true).1 (getRay c p.num true).2 (.fin s)) := rfl
  have e : ((dirR c p).mulS t).mulS s + c.orient.pos = (dirR c p).mulS (t * s) + c.orient.pos := by ext <;> simp [mul_assoc]
  have hQ := (pointAt_is hdir hoff (is_fin s) (by linarith)).congr e
  rw [hsp] at hP
  cases hP
  have hts : 1 / 10 ^ 6 ≤ t * s := by
    have : 1 / 10 ≤ t := by rw [ht' rfl]; exact one_div_le_one_div_of_le hn hn10
    nlinarith
  exact C06_image_space_image c hc hl p (pixel_ray hd hk hm hp).1 { D := some (.fin s) } rfl _ hsp _ hQ (deep_of hd hk hm hp hts) true

end Drawn

/-- **C179** tests/test_transforms.py:286-298 `test_transWorldToCam`: for all cameras, pixels and planes that can be drawn and pass the assumption of line 290
the pixel comes back, or the result is nan, which line 296 allows. -/
theorem C179_world (c : Cam) (h : IsCamera c) (p : V2 ℝ) (hp : IsPixel c p) (Z : ℝ) (ha : 1 / 1000 < |Z - c.orient.pos.z|) :
    ∃ P, spaceFromImage c p.num { Z := some (.fin Z) } = .ok P ∧ (imageFromSpace c P = V2.nan ∨ (imageFromSpace c P).Is p) := by
  obtain ⟨⟨d, hd, hk, hm⟩, -, hl⟩ := h
  rw [makes_iff hd] at hm
  have hf := focal_pos hd
  have hc : c.Proper := by unfold Cam.Proper; rw [hm]; exact ⟨hf.ne', hf.ne'⟩
  have hu : (c.lens.imageFromDistorted p.num).Is p := by rw [hl]; exact V2.is_num p
  have hdir := getRay_real c hc hu
  have hoff := getRay_offset c p.num false
  have hsp : spaceFromImage c p.num { Z := some (.fin Z) } =
      .ok (pointAt (getRay c p.num false).1 (getRay c p.num false).2 ((.fin Z - (getRay c p.num false).1.z) / (getRay c p.num false).2.z)) := rfl
  refine ⟨_, hsp, ?_⟩
  generalize (getRay c p.num false).1 = o at hsp hoff ⊢
  generalize (getRay c p.num false).2 = r at hsp hdir ⊢
  have hnum : Num.Is (.fin Z - o.z) (Z - c.orient.pos.z) := (is_fin Z).sub hoff.2.2
  have hne : Z - c.orient.pos.z ≠ 0 := by
    intro h0; rw [h0, abs_zero] at ha; norm_num at ha
  by_cases hz : (dirR c p).z = 0
  · left
    apply image_nan_z c hl
    have hr : Num.Is r.z 0 := by have := hdir.2.2; rw [hz] at this; exact this
    have hinf := div_zero_inf hnum hne hr
    generalize (.fin Z - o.z) / r.z = x at hinf
    unfold pointAt
    split_ifs
    · rfl
    · show r.z * x + o.z = .nan
      rw [inf_mul_zero hinf hr, nan_add]
  · have hfac : Num.Is ((.fin Z - o.z) / r.z) ((Z - c.orient.pos.z) / (dirR c p).z) := hnum.div hdir.2.2 hz
    generalize (.fin Z - o.z) / r.z = x at hfac hsp ⊢
    rcases lt_or_ge ((Z - c.orient.pos.z) / (dirR c p).z) 0 with hn | hn
    · left
      rw [pointAt_neg hfac hn]
      exact Scene.image_nan c hl
    · right
      have hP := pointAt_is hdir hoff hfac hn
      refine C06_image_space_image c hc hl p (pixel_ray hd hk hm hp).1 { Z := some (.fin Z) } rfl _ hsp _ hP (deep_of hd hk hm hp ?_) true
      have hz10 := (dir_norm hd hk hm hp).2
      rw [← abs_of_nonneg hn, abs_div, le_div_iff₀ (abs_pos.2 hz)]
      have : (1 : ℝ) / 10 ^ 6 * |(dirR c p).z| ≤ 1 / 10 ^ 6 * 10 := mul_le_mul_of_nonneg_left hz10 (by positivity)
      refine this.trans (le_trans ?_ ha.le)
      norm_num

/-- **C179** tests/test_transforms.py:314-326 `test_rays`: the rays have length 1, and points on them have the pixel as their image. -/
theorem C179_rays (c : Cam) (h : IsCamera c) (p : V2 ℝ) (hp : IsPixel c p) (s : ℝ) (hs : 1 ≤ s ∧ s ≤ 100) :
    Num.Is (getRay c p.num true).2.normN 1 ∧ (imageFromSpace c ((getRay c p.num true).1 + (getRay c p.num true).2.mulS (.fin s))).Is p := by
  obtain ⟨⟨d, hd, hk, hm⟩, -, hl⟩ := h
  rw [makes_iff hd] at hm
  have hf := focal_pos hd
  have hc : c.Proper := by unfold Cam.Proper; rw [hm]; exact ⟨hf.ne', hf.ne'⟩
  have hu : (c.lens.imageFromDistorted p.num).Is p := by rw [hl]; exact V2.is_num p
  obtain ⟨t, ht, -, ht', hdir⟩ := getRay_dir c hc.1 hc.2 hu true
  have hoff := getRay_offset c p.num true
  have hn := dirR_norm_pos c p
  have hn10 : (dirR c p).norm ≤ 10 := by
    unfold V3.norm
    rw [show (10 : ℝ) = Real.sqrt (10 ^ 2) from (Real.sqrt_sq (by norm_num)).symm]
    exact Real.sqrt_le_sqrt ((dir_norm hd hk hm hp).1.trans (by norm_num))
  constructor
  · refine (hdir.normN).congr ?_
    rw [ht' rfl]
    have e1 : ((dirR c p).mulS (1 / (dirR c p).norm)).normSq = (dirR c p).normSq * (1 / (dirR c p).norm) ^ 2 := by
      simp [V3.normSq]; ring
    have e2 : (dirR c p).normSq = (dirR c p).norm ^ 2 := by
      unfold V3.norm; rw [Real.sq_sqrt (V3.normSq_nonneg _)]
    unfold V3.norm at e1 e2 hn ⊢
    rw [Real.sqrt_eq_one, e1, one_div, inv_pow, ← e2]
    exact mul_inv_cancel₀ (Real.sqrt_pos.1 hn).ne'
  · have hP' : ((getRay c p.num true).1 + (getRay c p.num true).2.mulS (.fin s)).Is ((dirR c p).mulS (t * s) + c.orient.pos) := by
      refine (hoff.add (hdir.mulS (is_fin s))).congr ?_
      ext <;> simp [V3.mulS] <;> ring
    have hts : 1 / 10 ^ 6 ≤ t * s := by
      have : 1 / 10 ≤ t := by rw [ht' rfl]; exact one_div_le_one_div_of_le hn hn10
      nlinarith [hs.1]
    have := image_of_ray_point c hc (pixel_ray hd hk hm hp).1 hP' (f := t * s) (by linarith [(by positivity : (0 : ℝ) < 1 / 10 ^ 6)]) rfl
      (deep_of hd hk hm hp hts) true
    unfold imageFromSpace
    rw [hl]
    exact this

/-- **C179** tests/test_transforms.py:225-236 `test_transFieldOfView`: the focal lengths and the sides of the image come back from the fields of view. -/
theorem C179_fov (c : Cam) (h : IsCamera c) :
    ∃ a b w h : Num, Projection.focallengthFromFOV c.kind c.intr.w c.intr.h (some (Projection.getFieldOfView c.kind c.intr).1) none = some a ∧ Num.Is a c.intr.fx ∧
      Projection.focallengthFromFOV c.kind c.intr.w c.intr.h none (some (Projection.getFieldOfView c.kind c.intr).2) = some b ∧ Num.Is b c.intr.fy ∧
      Projection.imageFromFOV c.kind c.intr (some (Projection.getFieldOfView c.kind c.intr).1) none = some w ∧ Num.Is w c.intr.w ∧
      Projection.imageFromFOV c.kind c.intr none (some (Projection.getFieldOfView c.kind c.intr).2) = some h ∧ Num.Is h c.intr.h := by
  obtain ⟨⟨d, hd, hk, hm⟩, -, -⟩ := h
  rw [makes_iff hd] at hm
  have hf := focal_pos hd
  obtain ⟨w0, h0⟩ := sides_pos hd
  have fx : 0 < c.intr.fx := by rw [hm]; exact hf
  have fy : 0 < c.intr.fy := by rw [hm]; exact hf
  obtain ⟨a, b, h1, h2, h3, h4⟩ := C16_focal_length_from_fov c.kind c.intr fx fy (by rw [hm]; exact w0) (by rw [hm]; exact h0)
  obtain ⟨u, v, h5, h6, h7, h8⟩ := C17_image_size_from_fov c.kind c.intr fx fy
  exact ⟨a, b, u, v, h1, h2, h3, h4, h5, h6, h7, h8⟩

/-- **C179** tests/test_helpers.py:101-106 `test_cameraOrigin`: the position of a rectilinear camera has no pixel. -/
theorem C179_origin (c : Cam) (h : IsCamera c) (hk : c.kind = .rectilinear) (p : V2 Num) : imageFromSpace c (getRay c p).1 = V2.nan :=
  origin_nan h.2.2 hk (getRay_offset c p false)

/-- **C179** tests/test_helpers.py:81-90 `test_cameraCone`: the pixels of the points of the cone of a rectilinear camera are nan or on the edge of the image. -/
theorem C179_cone (c : Cam) (h : IsCamera c) (hk : c.kind = .rectilinear) (w h' : Size) (hw : w.val = c.intr.w) (hh : h'.val = c.intr.h) :
    ∃ l, cameraCone c w h' false = .ok l ∧ ∀ P ∈ l, imageFromSpace c P = V2.nan ∨ ∃ p, (imageFromSpace c P).Is p ∧ Geo.OnEdge c.intr.w c.intr.h p := by
  obtain ⟨P, O, hO, hP, hl⟩ := C79_cone_distance_partial c w h' (.fin 1)
  refine ⟨_, hl, ?_⟩
  obtain ⟨d, hd, -, hm⟩ := h.1
  rw [makes_iff hd] at hm
  obtain ⟨w0, h0⟩ := sides_pos hd
  have w0' : 0 ≤ c.intr.w := by rw [hm]; exact w0.le
  have h0' : 0 ≤ c.intr.h := by rw [hm]; exact h0.le
  have key : ∀ p : V2 ℝ, Geo.OnEdge c.intr.w c.intr.h p → ∃ q, (imageFromSpace c (P p)).Is q ∧ Geo.OnEdge c.intr.w c.intr.h q := fun p hp =>
    ⟨p, distance_image h (.inl ⟨hp.1, hp.2.1, hp.2.2.1, hp.2.2.2.1⟩) le_rfl (hP p), hp⟩
  have k1 := key ⟨0, c.intr.h⟩ ⟨le_rfl, w0', h0', le_rfl, .inl rfl⟩
  have k2 := key ⟨c.intr.w, c.intr.h⟩ ⟨w0', le_rfl, h0', le_rfl, .inr (.inl rfl)⟩
  have k3 := key ⟨c.intr.w, 0⟩ ⟨w0', le_rfl, le_rfl, h0', .inr (.inl rfl)⟩
  have k4 := key ⟨0, 0⟩ ⟨le_rfl, w0', le_rfl, h0', .inl rfl⟩
  have k5 := origin_nan h.2.2 hk hO
  have k6 := Scene.image_nan c h.2.2
  rw [hw, hh]
  generalize P ⟨0, c.intr.h⟩ = A1 at *
  generalize P ⟨c.intr.w, c.intr.h⟩ = A2 at *
  generalize P ⟨c.intr.w, 0⟩ = A3 at *
  generalize P ⟨0, 0⟩ = A4 at *
  simp only [Geo.ray3, List.forall_mem_append, List.forall_mem_cons, List.not_mem_nil, false_implies, implies_true, and_true, k1, k2, k3, k4, k5, k6, or_true,
    true_or]

/-- **C179** tests/test_helpers.py:92-99 `test_cameraCone`: the points of the border are on the edge of the image. -/
theorem C179_border (c : Cam) (h : IsCamera c) : ∀ p ∈ imageBorder c.intr.w c.intr.h 1, Geo.OnEdge c.intr.w c.intr.h p := by
  obtain ⟨d, hd, -, hm⟩ := h.1
  rw [makes_iff hd] at hm
  obtain ⟨w0, h0⟩ := sides_pos hd
  exact (C78_border _ _ 1 (by rw [hm]; exact w0.le) (by rw [hm]; exact h0.le) one_pos).1

/-- **C179** tests/test_transforms.py:300-312 `test_pointBehindCamera`: the assertion, that a point has no pixel if and only if it is above the camera,
holds for a drawn point if and only if it is not less than `minDepth` below the camera, or at its height. -/
theorem C179_behind_partial (c : Cam) (P : V3 ℝ) (h : IsDown c P) (hk : c.kind = .rectilinear) :
    ((imageFromSpace c P.num = V2.nan ↔ P.z > c.orient.pos.z) ↔ ¬ (30 - Projection.minDepth < P.z ∧ P.z ≤ 30)) ∧
    (imageFromSpace c P.num = V2.nan ∨ ∃ p, (imageFromSpace c P.num).Is p) := by
  obtain ⟨-, ho, hl, -⟩ := h
  have hP := cameraFromSpace_is c (V3.is_num P)
  have e : camR c P = ⟨P.x, P.y, P.z - 30⟩ := by
    have hw : Spatial.wrap360 0 = 0 := by simp [Spatial.wrap360]
    have hr : Spatial.rad 0 = 0 := by simp [Spatial.rad]
    unfold camR
    rw [ho]
    ext <;> simp [Orient.mat, Orient.pos, Spatial.initCameraMatrix, Spatial.matrices, hw, hr,
      M3.applyR, V3.dot, Spatial.rotation, M3.mul, M3.rowMul, M3.T, Spatial.R_roll, Spatial.R_tilt, Spatial.R_head]
  rw [e] at hP
  have hpos : c.orient.pos.z = 30 := by rw [ho]; rfl
  have key : imageFromSpace c P.num = Projection.imageFromCamera .rectilinear c.intr (Spatial.cameraFromSpace c.orient.mat P.num) true := by
    unfold imageFromSpace
    rw [hl, hk]
    rfl
  rw [key, hpos]
  have m0 : 0 < Projection.minDepth := by unfold Projection.minDepth; positivity
  rcases lt_or_ge |P.z - 30| Projection.minDepth with h1 | h1
  · rw [near_nan hP h1 true]
    rw [abs_lt] at h1
    refine ⟨?_, .inl rfl⟩
    simp only [true_iff, not_and, not_le, gt_iff_lt]
    exact ⟨fun h _ => h, fun h => h (by linarith)⟩
  · rcases lt_or_ge 30 P.z with h2 | h2
    · have : Projection.imageFromCamera .rectilinear c.intr (Spatial.cameraFromSpace c.orient.mat P.num) true = V2.nan := by
        have hs := Projection.snap_far hP h1
        simp only [Projection.imageFromCamera, Projection.imageFromCameraRect, hs, Projection.projRect]
        rw [if_pos]
        exact ⟨trivial, ((is_fin 0).lt_iff hP.2.2).2 (by show 0 < P.z - 30; linarith)⟩
      rw [this]
      refine ⟨?_, .inl rfl⟩
      simp [h2]
    · have hneg : P.z - 30 < 0 := by
        rcases (sub_nonpos.2 h2).lt_or_eq with h | h
        · exact h
        · rw [h, abs_zero] at h1; linarith
      have hs := Projection.snap_far hP h1
      have hI : ∃ p, (Projection.imageFromCamera .rectilinear c.intr (Spatial.cameraFromSpace c.orient.mat P.num) true).Is p := by
        simp only [Projection.imageFromCamera, Projection.imageFromCameraRect, hs]
        exact ⟨_, Projection.projRect_is hP hneg.ne true fun _ => hneg⟩
      refine ⟨?_, .inr hI⟩
      have hn : Projection.imageFromCamera .rectilinear c.intr (Spatial.cameraFromSpace c.orient.mat P.num) true ≠ V2.nan := by
        obtain ⟨p, hp⟩ := hI
        intro h
        rw [h] at hp
        exact V2.not_is_nan _ hp
      rw [abs_of_neg hneg] at h1
      simp only [hn, gt_iff_lt, not_lt.2 h2, true_iff, not_and]
      intro h
      linarith

/-- **C179 is violated** by `test_pointBehindCamera`: a point at the height of the camera can be drawn, has no pixel, and is not above the camera. -/
theorem C179_behind_violated (c : Cam) (P : V3 ℝ) (h : IsDown c P) (hk : c.kind = .rectilinear) (hz : P.z = 30) :
    imageFromSpace c P.num = V2.nan ∧ ¬ P.z > c.orient.pos.z := by
  have hn : ¬ P.z > c.orient.pos.z := by
    rw [h.2.1]
    show ¬ P.z > 30
    rw [hz]
    exact lt_irrefl _
  refine ⟨?_, hn⟩
  have h1 := (C179_behind_partial c P h hk).1
  have m0 : 0 < Projection.minDepth := by unfold Projection.minDepth; positivity
  by_contra hc
  exact (h1.1 (by simp [hc, hn])) ⟨by linarith, hz.le⟩

/-- **C179** tests/test_transforms.py:76-218 `test_initProjection`, for all numbers it can draw: if it expects a ValueError, the constructor raises it,
otherwise the constructor makes a projection with all the attributes the test asks for. -/
theorem C179_constructor (d : Draw) (hd : d.Ok) (I : Projection.Intr) (hI : d.Makes I) (v : ℝ × ℝ)
    (h1 : Num.Is (Projection.getFieldOfView d.kind I).1 v.1) (h2 : Num.Is (Projection.getFieldOfView d.kind I).2 v.2) (u : Choice) :
    (u.Error → Construct.construct d.kind (u.args I d.width d.height d.sensor v) = .error .value) ∧
    (¬ u.Error → ∃ r X Y fx fy, Construct.construct d.kind (u.args I d.width d.height d.sensor v) = .ok r ∧
      r.fx = .num X ∧ r.fy = .num Y ∧ Num.Is X fx ∧ Num.Is Y fy ∧
      r.w = I.w ∧ r.h = I.h ∧ (u.center ≠ 0 → r.cx = I.cx ∧ r.cy = I.cy) ∧ (u.focal ≠ 0 → fx = I.fx ∧ fy = I.fy) ∧
      (u.sensor = 1 ∨ u.sensor = 2 → r.sw = some d.sensor.1 ∧ r.sh = some d.sensor.2) ∧
      (u.sensor = 3 → r.sw = some d.sensor.1) ∧ (u.sensor = 4 → r.sh = some d.sensor.2) ∧
      (u.view = 1 ∨ u.view = 3 ∨ u.view = 4 → Num.Is (Projection.getFieldOfView d.kind ⟨fx, fy, r.cx, r.cy, r.w, r.h⟩).1 v.1) ∧
      (u.view = 2 ∨ u.view = 3 → Num.Is (Projection.getFieldOfView d.kind ⟨fx, fy, r.cx, r.cy, r.w, r.h⟩).2 v.2) ∧
      (u.view = 4 → Num.Is (Projection.getFieldOfView d.kind ⟨fx, fy, r.cx, r.cy, r.w, r.h⟩).2 v.1)) := by
  rw [makes_iff hd] at hI
  have hf := focal_pos hd
  obtain ⟨w0, h0⟩ := sides_pos hd
  obtain ⟨s1, s2, -, -⟩ := sensor_pos hd.sensor
  have ex : I.fx = focal d.kind d.width d.view := by rw [hI]; rfl
  have ey : I.fy = focal d.kind d.width d.view := by rw [hI]; rfl
  have ew : I.w = d.width := by rw [hI]; rfl
  have eh : I.h = d.height := by rw [hI]; rfl
  have ecx : I.cx = d.width / 2 := by rw [hI]; rfl
  have ecy : I.cy = d.height / 2 := by rw [hI]; rfl
  have fx : 0 < I.fx := by rw [ex]; exact hf
  have fy : 0 < I.fy := by rw [ey]; exact hf
  have ax : Projection.Admissible d.kind true v.1 := (fov_admissible d.kind I fx fy (ew ▸ w0) (eh ▸ h0)).1 _ h1
  have ay : Projection.Admissible d.kind false v.2 := (fov_admissible d.kind I fx fy (ew ▸ w0) (eh ▸ h0)).2 _ h2
  have ax' : Projection.Admissible d.kind false v.1 := by
    refine ⟨ax.1, fun hk => ?_⟩
    rcases hk with hk | ⟨hk, -⟩
    · exact ax.2 (.inl hk)
    · have hpi := Real.pi_pos
      have hv := hd.view
      have hw0 := w0.ne'
      rw [hk] at h1
      rw [h1.unique (Projection.linView_is I.w I.fx fx.ne'), ex, ew, hk]
      simp only [focal]
      have : (d.width : ℝ) / (d.width / (d.view * (Real.pi / 180))) * (180 / Real.pi) = d.view := by
        have : d.view ≠ 0 := by linarith
        field_simp
      linarith
  have hz : Construct.Nonzero (u.args I d.width d.height d.sensor v) := args_nonzero u fx.ne' fy.ne' (by rw [ecx]; positivity) (by rw [ecy]; positivity)
    (by exact_mod_cast w0.ne') (by exact_mod_cast h0.ne') s1.ne' s2.ne' ax.1.ne' ay.1.ne'
  have hm : ¬ Construct.Mixed (u.args I d.width d.height d.sensor v) := args_mixed u
  have hc := args_consistent u (I := I) (w := d.width) (h := d.height) (s := d.sensor) (v := v)
  obtain ⟨k1, k2⟩ := C76_constructor_checks_partial d.kind hz hm
  refine ⟨fun h => k2 (by rw [hc, not_not]; exact h), fun h => ?_⟩
  obtain ⟨r, hr⟩ := k1 (hc.2 h)
  have hcon := hc.2 h
  obtain ⟨q1, q2, q3, q4, q5, q6⟩ := C77_defaults_partial hr
  have rw' : r.w = I.w ∧ r.h = I.h := by
    rw [ew, eh]
    exact args_sides u hcon.image q1
  have rc := args_centre u hcon.centre q2 q3
  have rs := args_sensor u q4 q5
  have pw : 0 < r.w := by rw [rw'.1, ew]; exact w0
  have ph : 0 < r.h := by rw [rw'.2, eh]; exact h0
  by_cases hv : u.view = 0
  · have nv : ∀ {p : Prop}, (u.view = 1 ∨ u.view = 3 ∨ u.view = 4 → p) ∧ (u.view = 2 ∨ u.view = 3 → p) ∧ (u.view = 4 → p) := by
      rw [hv]; simp
    by_cases hm0 : u.mm = 0
    · have hf0 : u.focal ≠ 0 := fun h0 => h (error_none u hm0 h0 hv)
      obtain ⟨g1, g2⟩ := args_focal u hf0 fx.ne' fy.ne' (ex.trans ey.symm) hr
      exact ⟨r, _, _, I.fx, I.fy, hr, g1, g2, is_fin _, is_fin _, rw'.1, rw'.2, rc, fun _ => ⟨rfl, rfl⟩, rs.1, rs.2.1, rs.2.2, nv.1, nv.2.1, nv.2.2⟩
    · have hm1 : u.mm = 1 := by omega
      obtain ⟨-, -, X, Y, -, -, g1, g2, -⟩ := q6 14 (by simp [Choice.args, hm1]) (by norm_num) ph.ne'
      refine ⟨r, _, _, X, Y, hr, g1, g2, is_fin _, is_fin _, rw'.1, rw'.2, rc, fun hf0 => ?_, rs.1, rs.2.1, rs.2.2, nv.1, nv.2.1, nv.2.2⟩
      exact absurd (error_mm u hm1 hf0) h
  · obtain ⟨X, Y, fx', fy', g1, g2, g3, g4, -, -, g5, g6, -⟩ := C16_constructed_projection hr pw ph rfl rfl (fun x hx => (args_view u).1 x hx ▸ ax) (fun x hx => ((args_view u).2.1 x hx).elim (· ▸ ay) (· ▸ ax')) ((args_view u).2.2 hv)
    refine ⟨r, X, Y, fx', fy', hr, g1, g2, g3, g4, rw'.1, rw'.2, rc, fun hf0 => ?_, rs.1, rs.2.1, rs.2.2, fun hw => g5 _ ?_, fun hw => g6 _ ?_, fun hw => g6 _ ?_⟩
    · exact absurd (error_view u hv hf0) h
    · rcases hw with hw | hw | hw <;> simp [Choice.args, hw]
    · rcases hw with hw | hw <;> simp [Choice.args, hw]
    · simp [Choice.args, hw]

/-- A camera that can be drawn, with a pixel. -/
noncomputable def Drawn.example_draw (k : Projection.Kind) : Draw := ⟨k, 60, 100, (4, 3)⟩

theorem Drawn.example_ok (k : Projection.Kind) : (example_draw k).Ok := ⟨by norm_num [example_draw], by norm_num [example_draw], by simp [example_draw, sensorSizes]⟩

example (k : Projection.Kind) : ∃ (c : Cam) (p : V2 ℝ) (Z : ℝ), IsCamera c ∧ c.kind = k ∧ IsPixel c p ∧ 1 / 1000 < |Z - c.orient.pos.z| := by
  refine ⟨⟨k, (example_draw k).intr, .thr ⟨10, 45, 0, 0, 0, 0⟩, noDistortion⟩, ⟨0, 0⟩, 0, ⟨⟨example_draw k, example_ok k, rfl, (makes_iff (example_ok k) _).2 rfl⟩,
    ⟨⟨10, 45, 0, 0, 0, 0⟩, by constructor <;> norm_num, rfl⟩, rfl⟩, rfl, .inl ⟨le_rfl, ?_, le_rfl, ?_⟩, ?_⟩
  · simp [Draw.intr]
  · simp [Draw.intr]
  · show 1 / 1000 < |0 - (10 : ℝ)|
    norm_num

/-- A point at the height of the camera can be drawn. -/
example : ∃ (c : Cam) (P : V3 ℝ), IsDown c P ∧ c.kind = .rectilinear ∧ P.z = 30 :=
  ⟨⟨.rectilinear, (example_draw .rectilinear).intr, .thr ⟨30, 0, 0, 0, 0, 0⟩, noDistortion⟩, ⟨0, 0, 30⟩,
    ⟨⟨_, example_ok _, rfl, (makes_iff (example_ok _) _).2 rfl⟩, rfl, rfl, by norm_num, by norm_num, by norm_num⟩, rfl, rfl⟩

/-- Both outcomes of `test_initProjection` can be drawn. -/
example : (∃ u : Choice, u.Error) ∧ ∃ u : Choice, ¬ u.Error :=
  ⟨⟨⟨0, 0, 0, 0, 0, 0⟩, .inl rfl⟩, ⟨⟨1, 0, 0, 0, 0, 1⟩, by simp [Choice.Error]⟩⟩

example (k : Projection.Kind) : ∃ (d : Draw) (I : Projection.Intr) (v : ℝ × ℝ), d.Ok ∧ d.kind = k ∧ d.Makes I ∧ Num.Is (Projection.getFieldOfView d.kind I).1 v.1 ∧
    Num.Is (Projection.getFieldOfView d.kind I).2 v.2 := by
  have hf := focal_pos (example_ok k)
  obtain ⟨x, hx⟩ : ∃ x, Num.Is (Projection.getFieldOfView k (example_draw k).intr).1 x := by
    cases k
    · exact ⟨_, Projection.arctan_is _ _ hf.ne'⟩
    · exact ⟨_, Projection.linView_is _ _ hf.ne'⟩
    · exact ⟨_, Projection.linView_is _ _ hf.ne'⟩
  obtain ⟨y, hy⟩ : ∃ y, Num.Is (Projection.getFieldOfView k (example_draw k).intr).2 y := by
    cases k
    · exact ⟨_, Projection.arctan_is _ _ hf.ne'⟩
    · exact ⟨_, Projection.arctan_is _ _ hf.ne'⟩
    · exact ⟨_, Projection.linView_is _ _ hf.ne'⟩
  exact ⟨example_draw k, _, (x, y), example_ok k, rfl, (makes_iff (example_ok k) _).2 rfl, hx, hy⟩

open Camera Drawn in
/-- **C179** `test_pointBehindCamera` can draw every point of the cube. -/
theorem C179_points (P : V3 ℝ) (hx : |P.x| ≤ 100) (hy : |P.y| ≤ 100) (hz : |P.z| ≤ 100) (k : Projection.Kind) :
    ∃ c : Cam, c.kind = k ∧ IsDown c P :=
  ⟨⟨k, (example_draw k).intr, .thr ⟨30, 0, 0, 0, 0, 0⟩, noDistortion⟩, rfl,
    ⟨⟨_, example_ok _, rfl, (makes_iff (example_ok _) _).2 rfl⟩, rfl, rfl, hx, hy, hz⟩⟩
