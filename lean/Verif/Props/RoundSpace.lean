import Verif.Props.RoundPan
import Verif.Props.RoundTrip

/-! # C168: from the image of a panorama to space, and back, with rounding errors -/

namespace Rounded

open Projection

theorem sin_near (x y : ℝ) : |Real.sin y - Real.sin x| ≤ |y - x| := by
  rw [Real.sin_sub_sin, abs_mul, abs_mul, abs_two]
  have h1 := Real.abs_cos_le_one ((y + x) / 2)
  have h2 : |Real.sin ((y - x) / 2)| ≤ |(y - x) / 2| := Real.abs_sin_le_abs
  rw [abs_div, abs_two] at h2
  have := mul_le_mul h2 h1 (abs_nonneg _) (by positivity)
  linarith

theorem cos_near (x y : ℝ) : |Real.cos y - Real.cos x| ≤ |y - x| := by
  have := sin_near (x + Real.pi / 2) (y + Real.pi / 2)
  rwa [Real.sin_add_pi_div_two, Real.sin_add_pi_div_two, add_sub_add_right_eq_sub] at this

/-- The tangent of an angle that is known roughly. -/
theorem tan_near {b h x : ℝ} (hc : Real.cos b ≠ 0) (hh : |x - b| ≤ h) (hs : h ≤ |Real.cos b| / 2) :
    |Real.tan x - Real.tan b| ≤ 2 * h * (1 + Real.tan b ^ 2) := by
  have hp : 0 < |Real.cos b| := abs_pos.2 hc
  have h1 := (cos_near b x).trans hh
  have h2 : |Real.cos b| / 2 ≤ |Real.cos x| := by
    have := abs_sub_abs_le_abs_sub (Real.cos b) (Real.cos x)
    rw [abs_sub_comm] at h1
    linarith
  have hx : Real.cos x ≠ 0 := abs_pos.1 (by linarith)
  have e : Real.tan x - Real.tan b = Real.sin (x - b) / (Real.cos x * Real.cos b) := by
    rw [Real.tan_eq_sin_div_cos, Real.tan_eq_sin_div_cos, Real.sin_sub]
    field_simp
  have e2 : 1 + Real.tan b ^ 2 = 1 / |Real.cos b| ^ 2 := by
    rw [sq_abs, Real.tan_eq_sin_div_cos]
    field_simp
    linarith [Real.sin_sq_add_cos_sq b]
  have h3 : |Real.sin (x - b)| ≤ h := (Real.abs_sin_le_abs).trans hh
  have h0 := (abs_nonneg _).trans hh
  rw [e, e2, abs_div, abs_mul, div_le_iff₀ (by positivity)]
  have e3 : 2 * h * (1 / |Real.cos b| ^ 2) * (|Real.cos x| * |Real.cos b|) = 2 * h * (|Real.cos x| / |Real.cos b|) := by
    field_simp
  rw [e3]
  have : 1 / 2 ≤ |Real.cos x| / |Real.cos b| := by
    rw [le_div_iff₀ hp]; linarith
  nlinarith

theorem two_steps {u p c f A a : ℝ} (hu : 0 ≤ u) (hu1 : u ≤ 1 / 100000) (h1 : Rd u (p - c) A) (h2 : Rd u (A / f) a) :
    |a - (p - c) / f| ≤ 201 / 100 * u * |(p - c) / f| := by
  obtain ⟨e1, he1, rfl⟩ := h1.form hu
  obtain ⟨e2, he2, rfl⟩ := h2.form hu
  have hg := fac_mul he1 he2
  rw [show (p - c) * e1 / f * e2 - (p - c) / f = (p - c) / f * (e1 * e2 - 1) by ring, abs_mul, mul_comm]
  refine mul_le_mul_of_nonneg_right (hg.trans ?_) (abs_nonneg _)
  nlinarith

theorem rd_near {u d x y z : ℝ} (hu1 : u ≤ 1 / 100000) (hu : 0 ≤ u) (h : Rd u y z) (hd : |y - x| ≤ d) : |z - x| ≤ 101 / 100 * d + u * |x| := by
  unfold Rd at h
  have h1 := abs_sub_le z y x
  have h2 := abs_add_le (y - x) x
  rw [sub_add_cancel] at h2
  have h3 : u * |y| ≤ u * d + u * |x| := by
    have := mul_le_mul_of_nonneg_left (h2.trans (add_le_add_left hd _)) hu
    linarith
  have h0 := (abs_nonneg _).trans hd
  have : u * d ≤ 1 / 100 * d := mul_le_mul_of_nonneg_right (by linarith) h0
  linarith

/-- The ray of a pixel of a panorama. -/
theorem ray_near (k : Kind) (hk : k ≠ .rectilinear) (I : Intr) {u : ℝ} (hu : 0 ≤ u) (hu1 : u ≤ 1 / 100000) (p : V2 ℝ)
    (hpole : k = .equirectangular → 201 / 100 * u * |(p.y - I.cy) / I.fy| ≤ |Real.cos ((p.y - I.cy) / I.fy)| / 2 ∧ Real.cos ((p.y - I.cy) / I.fy) ≠ 0)
    (r : V3 ℝ) (hr : RayPan u k I p false r) :
    |r.x - (rayR k I p).x| + |r.y - (rayR k I p).y| + |r.z - (rayR k I p).z| ≤ 42 / 10 * u * panSize k I p ∧ size (rayR k I p) ≤ panSize k I p := by
  obtain ⟨A, α, s, z, B, β, y, h1, h2, h3, h4, h5, h6, h7, hn⟩ := hr
  simp only [Bool.false_eq_true, if_false] at hn
  subst hn
  have ha := two_steps hu hu1 h1 h2
  have hb := two_steps hu hu1 h5 h6
  have hs := rd_near hu1 hu h3 ((sin_near _ α).trans ha)
  have hz := rd_near hu1 hu h4 ((cos_near _ α).trans ha)
  have t1 := Real.abs_sin_le_one ((p.x - I.cx) / I.fx)
  have t2 := Real.abs_cos_le_one ((p.x - I.cx) / I.fx)
  have w1 := mul_le_mul_of_nonneg_left t1 hu
  have w2 := mul_le_mul_of_nonneg_left t2 hu
  have w3 := mul_nonneg hu (abs_nonneg ((p.x - I.cx) / I.fx))
  have w4 := mul_nonneg hu (abs_nonneg ((p.y - I.cy) / I.fy))
  have e1 : ∀ x y : ℝ, |-x - -y| = |x - y| := fun x y => by rw [neg_sub_neg, abs_sub_comm]
  cases k with
  | rectilinear => exact absurd rfl hk
  | cylindrical =>
    simp only at h7
    subst h7
    simp only [panSize, rayR, size, V3.neg_x, V3.neg_y, V3.neg_z, neg_neg, abs_neg, e1]
    have := abs_nonneg ((p.x - I.cx) / I.fx)
    constructor <;> linarith
  | equirectangular =>
    simp only at h7
    obtain ⟨g1, g2⟩ := hpole rfl
    have hy := rd_near hu1 hu h7 (tan_near g2 hb g1)
    simp only [panSize, rayR, size, V3.neg_x, V3.neg_y, V3.neg_z, neg_neg, abs_neg, e1]
    generalize (p.x - I.cx) / I.fx = a at *
    generalize (p.y - I.cy) / I.fy = b at *
    have := abs_nonneg a
    have w5 : 0 ≤ |b| * (1 + Real.tan b ^ 2) := by positivity
    have w6 := mul_nonneg hu w5
    have w7 := mul_nonneg hu (abs_nonneg (Real.tan b))
    constructor <;> linarith

/-- Where a ray meets a plane at an angle that is not too flat, the pixel is away from the poles. -/
theorem pole_far {u b N : ℝ} (hc : Real.cos b ≠ 0) (hN : N ≤ 2 + |Real.tan b|)
    (h : 16 * u * (|b| * (1 + Real.tan b ^ 2)) ≤ N) : 201 / 100 * u * |b| ≤ |Real.cos b| / 2 := by
  have hp : 0 < |Real.cos b| := abs_pos.2 hc
  have hc1 := Real.abs_cos_le_one b
  have e2 : 1 + Real.tan b ^ 2 = 1 / |Real.cos b| ^ 2 := by
    rw [sq_abs, Real.tan_eq_sin_div_cos]
    field_simp
    linarith [Real.sin_sq_add_cos_sq b]
  have e3 : |Real.tan b| ≤ 1 / |Real.cos b| := by
    rw [Real.tan_eq_sin_div_cos, abs_div]
    exact div_le_div_of_nonneg_right (Real.abs_sin_le_one b) hp.le
  have e4 : 1 ≤ 1 / |Real.cos b| := by rw [le_div_iff₀ hp]; linarith
  have h1 : 16 * u * (|b| * (1 / |Real.cos b| ^ 2)) ≤ 3 * (1 / |Real.cos b|) := by rw [← e2]; linarith
  have h2 := mul_le_mul_of_nonneg_right h1 (sq_nonneg |Real.cos b|)
  have e5 : 16 * u * (|b| * (1 / |Real.cos b| ^ 2)) * |Real.cos b| ^ 2 = 16 * (u * |b|) := by field_simp
  have e6 : 3 * (1 / |Real.cos b|) * |Real.cos b| ^ 2 = 3 * |Real.cos b| := by field_simp
  rw [e5, e6] at h2
  linarith

theorem row_abs {u e y : ℝ} (hu : 0 ≤ u) (hu1 : u ≤ 1 / 100000) (he : 0 ≤ e) (he1 : e ≤ 1 / 1000) {d d' r r' : V3 ℝ} {N : ℝ}
    (hd : |d'.x - d.x| + |d'.y - d.y| + |d'.z - d.z| ≤ 42 / 10 * u * N) (hN : size d ≤ N) (k1 : |r'.x - r.x| ≤ e) (k2 : |r'.y - r.y| ≤ e)
    (k3 : |r'.z - r.z| ≤ e) (b1 : |r.x| ≤ 1) (b2 : |r.y| ≤ 1) (b3 : |r.z| ≤ 1) (h : Dot u d' r' y) :
    |y - d.dot r| ≤ (e + 8 * u) * N := by
  have h3 : (1 + u) ^ 3 - 1 ≤ 301 / 100 * u := by nlinarith [pow_nonneg hu 2]
  have key : ∀ {a a' b b' : ℝ}, |b' - b| ≤ e → |b| ≤ 1 → ∀ g, |g - 1| ≤ (1 + u) ^ 3 - 1 →
      |a' * b' * g - a * b| ≤ 102 / 100 * |a' - a| + (e + 31 / 10 * u) * |a| := by
    intro a a' b b' hb h1 g hg
    have hg' := hg.trans h3
    have g1 : |b' * g - b| ≤ e + 31 / 10 * u := by
      have e0 : b' * g - b = (b' - b) * g + b * (g - 1) := by ring
      have hga : |g| ≤ 1 + 301 / 100 * u := by
        have := abs_add_le (g - 1) 1
        rw [sub_add_cancel, _root_.abs_one] at this
        linarith
      rw [e0]
      refine (abs_add_le _ _).trans ?_
      rw [abs_mul, abs_mul]
      have q1 := mul_le_mul hb hga (abs_nonneg _) he
      have q2 := mul_le_mul h1 hg' (abs_nonneg _) zero_le_one
      have : e * u ≤ u / 1000 := by nlinarith
      linarith
    have g2 : |b' * g| ≤ 102 / 100 := by
      have := abs_add_le (b' * g - b) b
      rw [sub_add_cancel] at this
      linarith
    have e0 : a' * b' * g - a * b = (a' - a) * (b' * g) + a * (b' * g - b) := by ring
    rw [e0]
    refine (abs_add_le _ _).trans ?_
    rw [abs_mul (a' - a), abs_mul a]
    have q1 := mul_le_mul_of_nonneg_left g2 (abs_nonneg (a' - a))
    have q2 := mul_le_mul_of_nonneg_left g1 (abs_nonneg a)
    linarith
  have := h.near hu (p := d) (q := r) (key k1 b1) (key k2 b2) (key k3 b3)
  have hS : (e + 31 / 10 * u) * size d ≤ (e + 31 / 10 * u) * N := mul_le_mul_of_nonneg_left hN (by positivity)
  have hN0 : 0 ≤ N := (size_nonneg d).trans hN
  have : 0 ≤ u * N := by positivity
  unfold size at hS
  linarith

open Camera in
/-- The direction of the ray of a pixel of a panorama is accurate. -/
theorem direction_pan (k : Kind) (hk : k ≠ .rectilinear) (I : Intr) {u e : ℝ} (hu : 0 ≤ u) (hu1 : u ≤ 1 / 100000) (he1 : e ≤ 1 / 1000) (o : Orient)
    (Rinv : M3) (hR : Near e Rinv o.mat.Rinv) (p : V2 ℝ) (hp : k = .equirectangular → Real.cos ((p.y - I.cy) / I.fy) ≠ 0) (i : Fin 3)
    (hfar : 2 * (e + 8 * u) * panSize k I p ≤ |(o.mat.Rinv.applyR (rayR k I p)).get i|)
    (dir : V3 ℝ) (hd : DirectionPan u k I Rinv p false dir) (j : Fin 3) :
    |dir.get j - (o.mat.Rinv.applyR (rayR k I p)).get j| ≤ (e + 8 * u) * panSize k I p ∧
      |(o.mat.Rinv.applyR (rayR k I p)).get j| ≤ size (rayR k I p) ∧ size (rayR k I p) ≤ panSize k I p := by
  obtain ⟨r', hr', k1, k2, k3⟩ := hd
  obtain ⟨n1, n2, n3, n4, n5, n6, n7, n8, n9⟩ := hR
  have he : 0 ≤ e := (abs_nonneg _).trans n1
  have hb := inv_le o
  simp only [Near, sub_zero] at hb
  obtain ⟨b1, b2, b3, b4, b5, b6, b7, b8, b9⟩ := hb
  obtain ⟨r, hr⟩ : ∃ r, r = rayR k I p := ⟨_, rfl⟩
  have hle : ∀ j, |(o.mat.Rinv.applyR r).get j| ≤ size r := by
    have key : ∀ w : V3 ℝ, |w.x| ≤ 1 → |w.y| ≤ 1 → |w.z| ≤ 1 → |r.dot w| ≤ size r := by
      intro w h1 h2 h3
      simp only [V3.dot, size]
      refine (abs_add_three _ _ _).trans ?_
      rw [abs_mul, abs_mul, abs_mul]
      nlinarith [abs_nonneg r.x, abs_nonneg r.y, abs_nonneg r.z]
    intro j
    fin_cases j
    · exact key _ b1 b2 b3
    · exact key _ b4 b5 b6
    · exact key _ b7 b8 b9
  obtain ⟨g1, g2⟩ := ray_near k hk I hu hu1 p (by
    rintro rfl
    refine ⟨?_, hp rfl⟩
    have h1 := hle i
    rw [← hr] at hfar
    refine pole_far (N := size r) (hp rfl) ?_ ?_
    · rw [hr]
      simp only [size, rayR, abs_neg]
      have := Real.abs_sin_le_one ((p.x - I.cx) / I.fx)
      have := Real.abs_cos_le_one ((p.x - I.cx) / I.fx)
      linarith
    · refine le_trans ?_ (hfar.trans h1)
      have w1 : |(p.y - I.cy) / I.fy| * (1 + Real.tan ((p.y - I.cy) / I.fy) ^ 2) ≤ panSize .equirectangular I p := by
        simp only [panSize]
        have := abs_nonneg ((p.x - I.cx) / I.fx)
        have := abs_nonneg (Real.tan ((p.y - I.cy) / I.fy))
        linarith
      have w0 : 0 ≤ |(p.y - I.cy) / I.fy| * (1 + Real.tan ((p.y - I.cy) / I.fy) ^ 2) := by positivity
      have w2 := mul_le_mul_of_nonneg_left w1 (by positivity : 0 ≤ 2 * (e + 8 * u))
      refine le_trans ?_ w2
      have := mul_nonneg he w0
      linarith) r' hr'
  rw [← hr] at g1 g2 ⊢
  have hdot : ∀ j, |dir.get j - (o.mat.Rinv.applyR r).get j| ≤ (e + 8 * u) * panSize k I p := by
    intro j
    fin_cases j
    · exact row_abs hu hu1 he he1 g1 g2 n1 n2 n3 b1 b2 b3 k1
    · exact row_abs hu hu1 he he1 g1 g2 n4 n5 n6 b4 b5 b6 k2
    · exact row_abs hu hu1 he he1 g1 g2 n7 n8 n9 b7 b8 b9 k3
  exact ⟨hdot j, hle j, g2⟩

end Rounded

open Projection Rounded Camera in
/-- The point on a plane that is seen at a pixel of a panorama is accurate up to rounding errors, if the entries of the inverse rotation matrix are
accurate up to `e`; also if the ray points backwards. -/
theorem C168_plane (k : Kind) (hk : k ≠ .rectilinear) (I : Intr) (hfx : I.fx ≠ 0) (hfy : I.fy ≠ 0) (u e : ℝ) (hu : 0 ≤ u) (hu1 : u ≤ 1 / 100000)
    (he1 : e ≤ 9 / 10000) (o : Orient) (Rinv : M3) (hR : Near e Rinv o.mat.Rinv) (p : V2 ℝ)
    (hp : k = .equirectangular → Real.cos ((p.y - I.cy) / I.fy) ≠ 0) (i : Fin 3) (v : ℝ) (d : V3 ℝ)
    (hd : (Camera.getRay ⟨k, I, o, noDistortion⟩ p.num).2.Is d)
    (hfar : 2 * (e + 8 * u) * panSize k I p < |d.get i|) (hs : 0 ≤ (v - o.pos.get i) / d.get i) (out : V3 Num)
    (ho : SpaceFromImagePan u k I o.pos Rinv p i v out) :
    ∃ (w : V3 Num) (q q0 : V3 ℝ), out.Is q ∧
      spaceFromImage ⟨k, I, o, noDistortion⟩ p.num (coord i (.fin v)) = .ok w ∧ w.Is q0 ∧
      ∀ j : Fin 3, |q.get j - q0.get j| ≤
        (2 * e + 21 * u) * (panSize k I p / |d.get i|) * (|v - o.pos.get i| + |q0.get j - o.pos.get j|) + u * |o.pos.get j| := by
  obtain ⟨dir, a, f, hdir, ha, hf, hq⟩ := ho
  have he : 0 ≤ e := (abs_nonneg _).trans hR.1
  have hdd : d = o.mat.Rinv.applyR (rayR k I p) := hd.unique (M3.apply_is (getRay_is k hfx hfy (V2.is_num p)))
  have hn := direction_pan k hk I hu hu1 (by linarith) o Rinv hR p hp i (by rw [← hdd]; exact hfar.le) dir hdir
  rw [← hdd] at hn
  obtain ⟨N, hN⟩ : ∃ N, N = panSize k I p := ⟨_, rfl⟩
  rw [← hN] at hn hfar ⊢
  have hle : ∀ j, |d.get j| ≤ N := fun j => (hn j).2.1.trans (hn j).2.2
  have hnear : ∀ j, |dir.get j - d.get j| ≤ (e + 2 * u + 6 * u) * N := fun j => (hn j).1.trans (le_of_eq (by ring))
  have hfar' : 2 * (e + 2 * u + 6 * u) * N < |d.get i| := lt_of_eq_of_lt (by ring) hfar
  have hS : 0 ≤ N := (abs_nonneg _).trans (hle i)
  have hd0 : d.get i ≠ 0 := by
    intro h
    rw [h, abs_zero] at hfar
    have : 0 ≤ 2 * (e + 8 * u) * N := by positivity
    linarith
  obtain ⟨ea, hea, rfl⟩ := ha.form hu
  obtain ⟨ef, hef, rfl⟩ := hf.form hu
  have hfn := factor_sign hu1 hd0 (hnear i) hfar'.le hea hef hs
  unfold PointAt at hq
  rw [if_neg hfn] at hq
  obtain ⟨m1, m2, m3, x, y, z, i1, i2, i3, i4, i5, i6, hq⟩ := hq
  have hw := spaceFromImage_coord ⟨k, I, o, noDistortion⟩ p.num i (.fin v)
  have hoff := getRay_offset ⟨k, I, o, noDistortion⟩ p.num false
  have hfac : Num.Is ((Num.fin v - (Camera.getRay ⟨k, I, o, noDistortion⟩ p.num).1.get i) /
      (Camera.getRay ⟨k, I, o, noDistortion⟩ p.num).2.get i) ((v - o.pos.get i) / d.get i) :=
    Num.Is.div (Num.Is.sub (Num.is_fin v) (hoff.get i)) (hd.get i) hd0
  have hpt := pointAt_is hd hoff hfac hs
  have he2 : e + 2 * u ≤ 1 / 1000 := by linarith
  have hc : 2 * (e + 2 * u) + 17 * u = 2 * e + 21 * u := by ring
  rw [← hc]
  refine ⟨_, _, _, hq, hw, hpt, fun j => ?_⟩
  fin_cases j
  · exact plane_coord hu hu1 he2 hd0 (hle i) (hnear i) hfar'.le hea hef (hnear 0) i1 i2
  · exact plane_coord hu hu1 he2 hd0 (hle i) (hnear i) hfar'.le hea hef (hnear 1) i3 i4
  · exact plane_coord hu hu1 he2 hd0 (hle i) (hnear i) hfar'.le hea hef (hnear 2) i5 i6

namespace Rounded

open Projection Camera

/-- The exact image of a point on the ray of a pixel of a panorama is that pixel. -/
theorem pan_ray (k : Kind) (hk : k ≠ .rectilinear) (I : Intr) (hfx : I.fx ≠ 0) (hfy : I.fy ≠ 0) (p : V2 ℝ) (hx : |(p.x - I.cx) / I.fx| < Real.pi)
    (hy : k = .equirectangular → |(p.y - I.cy) / I.fy| < Real.pi / 2) {f : ℝ} (hf : 0 < f) (hz : minDepth ≤ |((rayR k I p).mulS f).z|) (hide : Bool) :
    (Projection.imageFromCamera k I ((rayR k I p).mulS f).num hide).Is p := by
  have hpi := Real.pi_pos
  have a1 := abs_lt.1 hx
  have ez : ((rayR k I p).mulS f).z = -(f * Real.cos ((p.x - I.cx) / I.fx)) := by
    cases k with
    | rectilinear => exact absurd rfl hk
    | cylindrical => simp [rayR, mul_comm]
    | equirectangular => simp [rayR, mul_comm]
  have ex : ((rayR k I p).mulS f).x = f * Real.sin ((p.x - I.cx) / I.fx) := by
    cases k with
    | rectilinear => exact absurd rfl hk
    | cylindrical => simp [rayR, mul_comm]
    | equirectangular => simp [rayR, mul_comm]
  have hs : ((rayR k I p).mulS f).x ≠ 0 ∨ ((rayR k I p).mulS f).z < 0 := by
    rw [ex, ez]
    by_cases h : Real.sin ((p.x - I.cx) / I.fx) = 0
    · right
      have h0 : (p.x - I.cx) / I.fx = 0 := (Real.sin_eq_zero_iff_of_lt_of_lt a1.1 a1.2).1 h
      rw [h0, Real.cos_zero]
      linarith
    · left
      exact mul_ne_zero hf.ne' h
  have h := pan_is k hk I (V3.is_num ((rayR k I p).mulS f)) hz hs hide
  have e0 : Real.sqrt (((rayR k I p).mulS f).x ^ 2 + ((rayR k I p).mulS f).z ^ 2) = f := by
    rw [ex, ez, show (f * Real.sin ((p.x - I.cx) / I.fx)) ^ 2 + (-(f * Real.cos ((p.x - I.cx) / I.fx))) ^ 2 = f ^ 2 * (Real.sin ((p.x - I.cx) / I.fx) ^ 2 + Real.cos ((p.x - I.cx) / I.fx) ^ 2) by ring,
      Real.sin_sq_add_cos_sq, mul_one, Real.sqrt_sq hf.le]
  have e1 : Complex.arg ⟨-((rayR k I p).mulS f).z, -((rayR k I p).mulS f).x⟩ = -((p.x - I.cx) / I.fx) := by
    have := arg_polar (θ := -((p.x - I.cx) / I.fx)) hf (by linarith) (by linarith)
    rw [Real.cos_neg, Real.sin_neg] at this
    rw [ex, ez, neg_neg, ← mul_neg]
    exact this
  rw [e0, e1] at h
  refine h.congr ?_
  have k1 : -I.fx * -((p.x - I.cx) / I.fx) + I.cx = p.x := by field_simp; ring
  cases k with
  | rectilinear => exact absurd rfl hk
  | cylindrical =>
    have k2 : -I.fy * (((rayR .cylindrical I p).mulS f).y / f) + I.cy = p.y := by
      have : f ≠ 0 := hf.ne'
      simp [rayR]
      field_simp
      ring
    simp only [k1, k2]
  | equirectangular =>
    have b1 := abs_lt.1 (hy rfl)
    have hcos : 0 < Real.cos ((p.y - I.cy) / I.fy) := Real.cos_pos_of_mem_Ioo ⟨by linarith, by linarith⟩
    have e2 : Complex.arg ⟨f, ((rayR .equirectangular I p).mulS f).y⟩ = -((p.y - I.cy) / I.fy) := by
      have := arg_polar (θ := -((p.y - I.cy) / I.fy)) (div_pos hf hcos) (by linarith) (by linarith)
      rw [Real.cos_neg, Real.sin_neg] at this
      rw [show f = f / Real.cos ((p.y - I.cy) / I.fy) * Real.cos ((p.y - I.cy) / I.fy) by field_simp]
      rw [show ((rayR .equirectangular I p).mulS (f / Real.cos ((p.y - I.cy) / I.fy) * Real.cos ((p.y - I.cy) / I.fy))).y =
        f / Real.cos ((p.y - I.cy) / I.fy) * -Real.sin ((p.y - I.cy) / I.fy) by
          simp [rayR, Real.tan_eq_sin_div_cos]
          field_simp]
      exact this
    have k2 : -I.fy * -((p.y - I.cy) / I.fy) + I.cy = p.y := by field_simp; ring
    simp only [k1, e2, k2]

theorem pan_size (k : Kind) (hk : k ≠ .rectilinear) (I : Intr) (p : V2 ℝ) : 1 ≤ size (rayR k I p) := by
  have key : ∀ a y : ℝ, 1 ≤ |Real.sin a| + |y| + |-Real.cos a| := by
    intro a y
    have h1 := Real.sin_sq_add_cos_sq a
    have h2 := Real.abs_sin_le_one a
    have h3 := Real.abs_cos_le_one a
    rw [abs_neg]
    rw [← sq_abs, ← sq_abs (Real.cos a)] at h1
    nlinarith [abs_nonneg (Real.sin a), abs_nonneg (Real.cos a), abs_nonneg y]
  cases k with
  | rectilinear => exact absurd rfl hk
  | cylindrical => exact key _ _
  | equirectangular => exact key _ _

theorem pan_depth (k : Kind) (hk : k ≠ .rectilinear) (I : Intr) (p : V2 ℝ) :
    (rayR k I p).x = Real.sin ((p.x - I.cx) / I.fx) ∧ (rayR k I p).z = -Real.cos ((p.x - I.cx) / I.fx) := by
  cases k with
  | rectilinear => exact absurd rfl hk
  | cylindrical => exact ⟨rfl, rfl⟩
  | equirectangular => exact ⟨rfl, rfl⟩

end Rounded

open Projection Rounded Camera in
/-- From a pixel of a panorama to a plane and back: the computed point on the plane, projected again, is close to the pixel.  The pixel must be between the
poles and away from the cut of the panorama and from the sides, where the depth changes its sign. -/
theorem C168_back (k : Kind) (hk : k ≠ .rectilinear) (I : Intr) (hfx : I.fx ≠ 0) (hfy : I.fy ≠ 0) (u e : ℝ) (hu : 0 ≤ u) (hu1 : u ≤ 1 / 100000)
    (he1 : e ≤ 9 / 10000) (o : Orient) (R Rinv : M3) (hR : Near e R o.mat.R) (hRi : Near e Rinv o.mat.Rinv) (p : V2 ℝ)
    (hx : |(p.x - I.cx) / I.fx| < Real.pi) (hy : k = .equirectangular → |(p.y - I.cy) / I.fy| < Real.pi / 2) (i : Fin 3) (v : ℝ) (r d : V3 ℝ)
    (hr : (Projection.getRay k I p.num).Is r) (hd : (Camera.getRay ⟨k, I, o, noDistortion⟩ p.num).2.Is d)
    (hfar : 2 * (e + 8 * u) * panSize k I p < |d.get i|) (s : ℝ) (hs : s * d.get i = v - o.pos.get i) (hs0 : 4 * minDepth ≤ s * |r.z|)
    (Z : ℝ) (hZ : Z = (62 / 10 * e + 52 * u) * panSize k I p + 5 * (u * size o.pos / s)) (hZ1 : Z ≤ 1 / 10) (hside : 8 * Z ≤ |r.z|)
    (hcut : r.z < 0 ∨ Z < |r.x|) (g : V3 Num) (hg : SpaceFromImagePan u k I o.pos Rinv p i v g) :
    ∃ P : V3 ℝ, g.Is P ∧ ∀ out, ImageFromSpacePan u k I o.pos R P out →
    ∃ w : V2 ℝ, out.Is w ∧
      |w.x - p.x| ≤ (7 * Z + 25 * u) * (|I.fx| + |p.x - I.cx|) + u * |I.cx| ∧
      |w.y - p.y| ≤ (7 * Z + 25 * u) * (|I.fy| + |p.y - I.cy|) + u * |I.cy| := by
  have he : 0 ≤ e := (abs_nonneg _).trans hR.1
  have hrr : r = rayR k I p := hr.unique (getRay_is k hfx hfy (V2.is_num p))
  have hdd : d = o.mat.Rinv.applyR r := hd.unique (M3.apply_is hr)
  have hmp : 0 < minDepth := by norm_num [minDepth]
  have hrz1 : |r.z| ≤ 1 := by
    rw [hrr, (pan_depth k hk I p).2, abs_neg]
    exact Real.abs_cos_le_one _
  have hsp : 0 < s := by
    by_contra h
    have := mul_nonpos_of_nonpos_of_nonneg (not_lt.1 h) (abs_nonneg r.z)
    linarith
  obtain ⟨dir, a, f, hdir, ha, hf, hq⟩ := hg
  have hcosb : k = .equirectangular → Real.cos ((p.y - I.cy) / I.fy) ≠ 0 := fun h => by
    have b1 := abs_lt.1 (hy h)
    exact (Real.cos_pos_of_mem_Ioo ⟨by linarith, by linarith⟩).ne'
  have hn := direction_pan k hk I hu hu1 (by linarith) o Rinv hRi p hcosb i (by rw [← hrr, ← hdd]; exact hfar.le) dir hdir
  rw [← hrr, ← hdd] at hn
  obtain ⟨N, hN⟩ : ∃ N, N = panSize k I p := ⟨_, rfl⟩
  rw [← hN] at hn hfar hZ
  have hS1 : 1 ≤ size r := by rw [hrr]; exact pan_size k hk I p
  have hSN : size r ≤ N := (hn 0).2.2
  have hN0 : 0 ≤ N := by linarith
  have hle : ∀ j, |d.get j| ≤ N := fun j => (hn j).2.1.trans hSN
  have hnear : ∀ j, |dir.get j - d.get j| ≤ (e + 2 * u + 6 * u) * N := fun j => (hn j).1.trans (le_of_eq (by ring))
  have hfar' : 2 * (e + 2 * u + 6 * u) * N < |d.get i| := lt_of_eq_of_lt (by ring) hfar
  have hd0 : d.get i ≠ 0 := by
    intro h
    rw [h, abs_zero] at hfar
    have : 0 ≤ 2 * (e + 8 * u) * N := by positivity
    linarith
  have hsq : (v - o.pos.get i) / d.get i = s := by rw [← hs]; field_simp
  obtain ⟨ea, hea, rfl⟩ := ha.form hu
  obtain ⟨ef, hef, rfl⟩ := hf.form hu
  have hfl := factor_le hu1 hd0 (hnear i) hfar'.le hea hef (by rw [hsq]; exact hsp.le)
  rw [hsq] at hfl
  obtain ⟨f, hff⟩ : ∃ f, f = (v - o.pos.get i) * ea / dir.get i * ef := ⟨_, rfl⟩
  rw [← hff] at hfl hq
  have hf0 : 0 < f := by linarith
  unfold PointAt at hq
  rw [if_neg (by linarith)] at hq
  obtain ⟨m1, m2, m3, x, y, z, i1, i2, i3, i4, i5, i6, hq⟩ := hq
  have hT : ∀ j, |o.pos.get j| ≤ size o.pos := by
    intro j
    have h1 := abs_nonneg o.pos.x
    have h2 := abs_nonneg o.pos.y
    have h3 := abs_nonneg o.pos.z
    unfold size
    fin_cases j
    · show |o.pos.x| ≤ _; linarith
    · show |o.pos.y| ≤ _; linarith
    · show |o.pos.z| ≤ _; linarith
  have he2 : e + 2 * u ≤ 1 / 1000 := by linarith
  have he3 : 0 ≤ e + 2 * u := by positivity
  refine ⟨⟨x, y, z⟩, hq, fun out ho => ?_⟩
  obtain ⟨Y, hY⟩ : ∃ Y, Y = (e + 2 * u + 9 * u) * N + 5 / 3 * u * size o.pos / s := ⟨_, rfl⟩
  have hpt : ∀ j, |((⟨x, y, z⟩ : V3 ℝ) - o.pos).get j - f * d.get j| ≤ f * Y := by
    intro j
    rw [hY]
    fin_cases j
    · exact point_near hu hu1 he3 he2 hN0 hsp (hT 0) hfl (hnear 0) (hle 0) i1 i2
    · exact point_near hu hu1 he3 he2 hN0 hsp (hT 1) hfl (hnear 1) (hle 1) i3 i4
    · exact point_near hu hu1 he3 he2 hN0 hsp (hT 2) hfl (hnear 2) (hle 2) i5 i6
  rw [hdd] at hpt
  have hts : 0 ≤ u * size o.pos / s := div_nonneg (mul_nonneg hu (size_nonneg _)) hsp.le
  have hYe : Y = (e + 11 * u) * N + 5 / 3 * (u * size o.pos / s) := by rw [hY]; ring
  have huN : 0 ≤ u * N := by positivity
  have heN : 0 ≤ e * N := by positivity
  have hYZ : 3 * Y + 31 / 10 * ((e + 6 * u) * N) ≤ Z := by
    rw [hYe, hZ]
    linarith
  have hY0 : 0 ≤ (e + 6 * u) * N := by positivity
  obtain ⟨D, hD⟩ : ∃ D, D = (⟨x, y, z⟩ : V3 ℝ) - o.pos := ⟨_, rfl⟩
  rw [← hD] at hpt
  obtain ⟨x0, y0, z0, hsd⟩ := back_cam o hf0 (by linarith) hS1 hpt
  obtain ⟨w, ⟨d', h1, h2, h3, k1, k2, k3⟩, hi⟩ := ho
  obtain ⟨n1, n2, n3, n4, n5, n6, n7, n8, n9⟩ := hR
  have hb := mat_le o
  simp only [Near, sub_zero] at hb
  obtain ⟨b1, b2, b3, b4, b5, b6, b7, b8, b9⟩ := hb
  have he1' : e ≤ 1 / 1000 := by linarith
  have x1 := row_near (d := (⟨x, y, z⟩ : V3 ℝ) - o.pos) hu hu1 he he1' (h1.two hu) (h2.two hu) (h3.two hu) n1 n2 n3 b1 b2 b3 k1
  have x2 := row_near (d := (⟨x, y, z⟩ : V3 ℝ) - o.pos) hu hu1 he he1' (h1.two hu) (h2.two hu) (h3.two hu) n4 n5 n6 b4 b5 b6 k2
  have x3 := row_near (d := (⟨x, y, z⟩ : V3 ℝ) - o.pos) hu hu1 he he1' (h1.two hu) (h2.two hu) (h3.two hu) n7 n8 n9 b7 b8 b9 k3
  rw [← hD] at x1 x2 x3
  have hrow : (e + 6 * u) * size D ≤ f * (31 / 10 * ((e + 6 * u) * N)) := by
    have g1 := mul_le_mul_of_nonneg_left hsd (by positivity : 0 ≤ e + 6 * u)
    have g2 := mul_le_mul_of_nonneg_left hSN (by positivity : 0 ≤ (e + 6 * u) * f)
    linarith
  have hfZ := mul_le_mul_of_nonneg_left hYZ hf0.le
  have tot : ∀ {w c r : ℝ}, |w - c| ≤ (e + 6 * u) * size D → |c - f * r| ≤ 3 * (f * Y) → |w - r * f| ≤ f * Z := by
    intro w c r g1 g2
    have := abs_sub_le w c (r * f)
    rw [mul_comm f r] at g2
    linarith
  have c1 := tot x1 x0
  have c2 := tot x2 y0
  have c3 := tot x3 z0
  have hfz : |(r.mulS f).z| = f * |r.z| := by
    rw [V3.mulS_z, abs_mul, abs_of_pos hf0, mul_comm]
  have hfx' : |(r.mulS f).x| = f * |r.x| := by
    rw [V3.mulS_x, abs_mul, abs_of_pos hf0, mul_comm]
  have hdep : 2 * minDepth ≤ |(r.mulS f).z| := by
    rw [hfz]
    have := mul_le_mul_of_nonneg_right hfl (abs_nonneg r.z)
    linarith
  have hsd8 : 8 * (f * Z) ≤ |(r.mulS f).z| := by
    rw [hfz]
    have := mul_le_mul_of_nonneg_left hside hf0.le
    linarith
  have hcut' : (r.mulS f).z < 0 ∨ f * Z < |(r.mulS f).x| := by
    rw [hfx']
    refine hcut.imp (fun h => ?_) (fun h => mul_lt_mul_of_pos_left h hf0)
    rw [V3.mulS_z]
    exact mul_neg_of_neg_of_pos h hf0
  obtain ⟨q, q0, g1, g2, g3, g4⟩ := pan_point k hk I hu (by linarith) (c := r.mulS f) (v := w) (d := f * Z) c1 c2 c3 hdep hsd8 hcut' hi (V3.is_num _) true
  have hq0 : q0 = p := by
    refine g2.unique ?_
    rw [hrr] at hdep ⊢
    exact pan_ray k hk I hfx hfy p hx hy hf0 (by linarith) true
  have hro : Real.sqrt ((r.mulS f).x ^ 2 + (r.mulS f).z ^ 2) = f := by
    rw [V3.mulS_x, V3.mulS_z, hrr, (pan_depth k hk I p).1, (pan_depth k hk I p).2]
    have := Real.sin_sq_add_cos_sq ((p.x - I.cx) / I.fx)
    rw [show (Real.sin ((p.x - I.cx) / I.fx) * f) ^ 2 + (-Real.cos ((p.x - I.cx) / I.fx) * f) ^ 2 = f ^ 2 * (Real.sin ((p.x - I.cx) / I.fx) ^ 2 + Real.cos ((p.x - I.cx) / I.fx) ^ 2) by ring,
      this, mul_one, Real.sqrt_sq hf0.le]
  have hquo : f * Z / f = Z := by field_simp
  rw [hq0, hro, hquo] at g3 g4
  exact ⟨q, g1, g3, g4⟩

namespace Rounded

open Projection Camera

/-- The computed factor is negative, if the exact one is. -/
theorem factor_neg {u k N w z z' ea ef : ℝ} (hu1 : u ≤ 1 / 100000) (hz : z ≠ 0) (hz' : |z' - z| ≤ k * N)
    (hfar : 2 * k * N ≤ |z|) (hea : |ea - 1| ≤ u) (hef : |ef - 1| ≤ u) (hs : w / z < 0) : w * ea / z' * ef < 0 := by
  have h := factor_le (w := -w) hu1 hz hz' hfar hea hef (by rw [neg_div]; linarith)
  rw [neg_div, show -w * ea / z' * ef = -(w * ea / z' * ef) by ring] at h
  linarith

theorem behind_nan (c : Cam) (p : V2 ℝ) (i : Fin 3) (v : ℝ) {d : V3 ℝ} (hd : (Camera.getRay c p.num).2.Is d)
    (hs : (v - c.orient.pos.get i) / d.get i < 0) : spaceFromImage c p.num (coord i (.fin v)) = .ok V3.nan := by
  have hd0 : d.get i ≠ 0 := by
    intro h
    rw [h, div_zero] at hs
    exact lt_irrefl _ hs
  rw [spaceFromImage_coord]
  have hoff := getRay_offset c p.num false
  rw [pointAt_neg (Num.Is.div (Num.Is.sub (Num.is_fin v) (hoff.get i)) (hd.get i) hd0) hs]

end Rounded

open Projection Rounded Camera in
/-- Rounding errors do not turn a plane behind the camera into one in front of it: where the exact result is NaN, the computed one is NaN. -/
theorem C152_behind (I : Intr) (hfx : I.fx ≠ 0) (hfy : I.fy ≠ 0) (u e : ℝ) (hu : 0 ≤ u) (hu1 : u ≤ 1 / 100000) (he1 : e ≤ 1 / 1000)
    (o : Orient) (Rinv : M3) (hR : Near e Rinv o.mat.Rinv) (p : V2 ℝ) (i : Fin 3) (v : ℝ) (r d : V3 ℝ)
    (hr : (Projection.getRay .rectilinear I p.num).Is r)
    (hd : (Camera.getRay ⟨.rectilinear, I, o, noDistortion⟩ p.num).2.Is d)
    (hfar : 2 * (e + 6 * u) * size r < |d.get i|) (hs : (v - o.pos.get i) / d.get i < 0) (out : V3 Num)
    (ho : SpaceFromImage u I o.pos Rinv p i v out) :
    out = V3.nan ∧ spaceFromImage ⟨.rectilinear, I, o, noDistortion⟩ p.num (coord i (.fin v)) = .ok V3.nan := by
  obtain ⟨dir, a, f, hdir, ha, hf, hq⟩ := ho
  have hrr : r = rayR .rectilinear I p := hr.unique (getRay_is .rectilinear hfx hfy (V2.is_num p))
  have hdd : d = o.mat.Rinv.applyR r := hd.unique (M3.apply_is hr)
  have hn := direction_near I hu hu1 he1 o Rinv hR p dir hdir
  rw [← hrr, ← hdd] at hn
  have hd0 : d.get i ≠ 0 := by
    intro h
    rw [h, div_zero] at hs
    exact lt_irrefl _ hs
  obtain ⟨ea, hea, rfl⟩ := ha.form hu
  obtain ⟨ef, hef, rfl⟩ := hf.form hu
  have hfn := factor_neg hu1 hd0 (hn i).1 hfar.le hea hef hs
  unfold PointAt at hq
  rw [if_pos hfn] at hq
  exact ⟨hq, behind_nan ⟨.rectilinear, I, o, noDistortion⟩ p i v hd hs⟩

open Projection Rounded Camera in
/-- The same for panoramas. -/
theorem C168_behind (k : Kind) (hk : k ≠ .rectilinear) (I : Intr) (hfx : I.fx ≠ 0) (hfy : I.fy ≠ 0) (u e : ℝ) (hu : 0 ≤ u) (hu1 : u ≤ 1 / 100000)
    (he1 : e ≤ 9 / 10000) (o : Orient) (Rinv : M3) (hR : Near e Rinv o.mat.Rinv) (p : V2 ℝ)
    (hp : k = .equirectangular → Real.cos ((p.y - I.cy) / I.fy) ≠ 0) (i : Fin 3) (v : ℝ) (d : V3 ℝ)
    (hd : (Camera.getRay ⟨k, I, o, noDistortion⟩ p.num).2.Is d)
    (hfar : 2 * (e + 8 * u) * panSize k I p < |d.get i|) (hs : (v - o.pos.get i) / d.get i < 0) (out : V3 Num)
    (ho : SpaceFromImagePan u k I o.pos Rinv p i v out) :
    out = V3.nan ∧ spaceFromImage ⟨k, I, o, noDistortion⟩ p.num (coord i (.fin v)) = .ok V3.nan := by
  obtain ⟨dir, a, f, hdir, ha, hf, hq⟩ := ho
  have hdd : d = o.mat.Rinv.applyR (rayR k I p) := hd.unique (M3.apply_is (getRay_is k hfx hfy (V2.is_num p)))
  have hn := direction_pan k hk I hu hu1 (by linarith) o Rinv hR p hp i (by rw [← hdd]; exact hfar.le) dir hdir
  rw [← hdd] at hn
  have hd0 : d.get i ≠ 0 := by
    intro h
    rw [h, div_zero] at hs
    exact lt_irrefl _ hs
  obtain ⟨ea, hea, rfl⟩ := ha.form hu
  obtain ⟨ef, hef, rfl⟩ := hf.form hu
  have hfn := factor_neg hu1 hd0 (hn i).1 hfar.le hea hef hs
  unfold PointAt at hq
  rw [if_pos hfn] at hq
  exact ⟨hq, behind_nan ⟨k, I, o, noDistortion⟩ p i v hd hs⟩

open Projection Rounded Camera in
/-- With doubles, matrices that are accurate up to `1000 * 2 ^ -50` and panoramas of usual size: a pixel returns to itself up to a thousandth of a pixel. -/
theorem C168_double (k : Kind) (hk : k ≠ .rectilinear) (I : Intr) (hfx : I.fx ≠ 0) (hfy : I.fy ≠ 0) (o : Orient) (R Rinv : M3)
    (hR : Near (1000 * (1 / 2 ^ 50)) R o.mat.R) (hRi : Near (1000 * (1 / 2 ^ 50)) Rinv o.mat.Rinv) (p : V2 ℝ)
    (hx : |(p.x - I.cx) / I.fx| < Real.pi) (hy : k = .equirectangular → |(p.y - I.cy) / I.fy| < Real.pi / 2) (hN : panSize k I p ≤ 100)
    (i : Fin 3) (v : ℝ) (r d : V3 ℝ)
    (hr : (Projection.getRay k I p.num).Is r) (hd : (Camera.getRay ⟨k, I, o, noDistortion⟩ p.num).2.Is d)
    (hfar : 1 / 10 ^ 9 < |d.get i|) (s : ℝ) (hs : s * d.get i = v - o.pos.get i) (hs0 : 4 * minDepth ≤ s * |r.z|) (hs1 : size o.pos ≤ 10 ^ 4 * s)
    (hside : 1 / 10 ^ 8 ≤ |r.z|) (hcut : r.z < 0 ∨ 1 / 10 ^ 9 < |r.x|)
    (hf : |I.fx| ≤ 10 ^ 4 ∧ |I.fy| ≤ 10 ^ 4) (hcx : |I.cx| ≤ 10 ^ 5 ∧ |I.cy| ≤ 10 ^ 5)
    (hin : |p.x - I.cx| ≤ 10 ^ 5 ∧ |p.y - I.cy| ≤ 10 ^ 5) (g : V3 Num) (hg : SpaceFromImagePan (1 / 2 ^ 50) k I o.pos Rinv p i v g) :
    ∃ P : V3 ℝ, g.Is P ∧ ∀ out, ImageFromSpacePan (1 / 2 ^ 50) k I o.pos R P out →
    ∃ w : V2 ℝ, out.Is w ∧ |w.x - p.x| ≤ 1 / 10 ^ 3 ∧ |w.y - p.y| ≤ 1 / 10 ^ 3 := by
  have hmp : 0 < minDepth := by norm_num [minDepth]
  have hsp : 0 < s := by
    by_contra h
    have := mul_nonpos_of_nonpos_of_nonneg (not_lt.1 h) (abs_nonneg r.z)
    linarith
  have hq : size o.pos / s ≤ 10 ^ 4 := by rwa [div_le_iff₀ hsp]
  have hq0 : 0 ≤ size o.pos / s := div_nonneg (size_nonneg _) hsp.le
  obtain ⟨x, hx'⟩ : ∃ x, x = size o.pos / s := ⟨_, rfl⟩
  rw [← hx'] at hq hq0
  have e1 : 1 / 2 ^ 50 * size o.pos / s = 1 / 2 ^ 50 * x := by rw [hx']; ring
  obtain ⟨Z, hZ⟩ : ∃ Z, Z = (62 / 10 * (1000 * (1 / 2 ^ 50)) + 52 * (1 / 2 ^ 50)) * panSize k I p + 5 * (1 / 2 ^ 50 * size o.pos / s) := ⟨_, rfl⟩
  have hZ' : Z ≤ 675200 * (1 / 2 ^ 50) := by rw [hZ, e1]; linarith
  obtain ⟨P, h1, h2⟩ := C168_back k hk I hfx hfy (1 / 2 ^ 50) (1000 * (1 / 2 ^ 50)) (by norm_num) (by norm_num) (by norm_num) o R Rinv hR hRi p hx hy i v r d
    hr hd (by linarith) s hs hs0 Z hZ (by linarith) (by linarith) (hcut.imp_right fun h => by linarith) g hg
  refine ⟨P, h1, fun out ho => ?_⟩
  obtain ⟨w, w1, w2, w3⟩ := h2 out ho
  have key : ∀ {a b c : ℝ}, |a| ≤ 10 ^ 4 → |b| ≤ 10 ^ 5 → |c| ≤ 10 ^ 5 →
      (7 * Z + 25 * (1 / 2 ^ 50)) * (|a| + |b|) + 1 / 2 ^ 50 * |c| ≤ (1 : ℝ) / 10 ^ 3 := by
    intro a b c ha hb hc
    have h3 : 7 * Z + 25 * (1 / 2 ^ 50) ≤ (4726425 : ℝ) * (1 / 2 ^ 50) := by linarith
    have h4 := mul_le_mul_of_nonneg_right h3 (by positivity : 0 ≤ |a| + |b|)
    linarith
  exact ⟨w, w1, w2.trans (key hf.1 hin.1 hcx.1), w3.trans (key hf.2 hin.2 hcx.2)⟩

theorem Rounded.SpaceFromImagePan.exists {u : ℝ} (hu : 0 ≤ u) (k : Projection.Kind) (hk : k ≠ .rectilinear) (I : Projection.Intr) (t : V3 ℝ) (Rinv : M3)
    (p : V2 ℝ) (i : Fin 3) (v : ℝ) : ∃ out, Rounded.SpaceFromImagePan u k I t Rinv p i v out := by
  have key : ∀ dir f, ∃ out, Rounded.PointAt u t dir f out := by
    intro dir f
    unfold Rounded.PointAt
    split_ifs
    · exact ⟨_, rfl⟩
    · exact ⟨_, _, _, _, _, _, _, Rd.exact hu _, Rd.exact hu _, Rd.exact hu _, Rd.exact hu _, Rd.exact hu _, Rd.exact hu _, V3.is_num _⟩
  obtain ⟨out, h⟩ := key _ _
  exact ⟨out, Rinv.applyR (Projection.rayR k I p), _, _, ⟨_, RayPan.exact hu k hk I p, Dot.exact hu _ _, Dot.exact hu _ _, Dot.exact hu _ _⟩,
    Rd.exact hu _, Rd.exact hu _, h⟩

namespace Rounded
open Projection Camera

/-- The pixel at the principal point of a panorama that looks down. -/
theorem exPan_ray (k : Kind) (hk : k ≠ .rectilinear) :
    (Projection.getRay k ⟨100, 100, 50, 25, 100, 50⟩ (V2.num ⟨50, 25⟩)).Is ⟨0, 0, -1⟩ ∧
    (Camera.getRay ⟨k, ⟨100, 100, 50, 25, 100, 50⟩, exOrient, noDistortion⟩ (V2.num ⟨50, 25⟩)).2.Is ⟨0, 0, -1⟩ ∧
    panSize k ⟨100, 100, 50, 25, 100, 50⟩ ⟨50, 25⟩ = 2 := by
  have hr : (Projection.getRay k ⟨100, 100, 50, 25, 100, 50⟩ (V2.num ⟨50, 25⟩)).Is ⟨0, 0, -1⟩ := by
    refine (Projection.getRay_is k (by norm_num) (by norm_num) (V2.is_num _)).congr ?_
    cases k with
    | rectilinear => exact absurd rfl hk
    | cylindrical => simp [rayR]
    | equirectangular => simp [rayR]
  refine ⟨hr, ?_, ?_⟩
  · refine V3.Is.congr (M3.apply_is (A := exOrient.mat.Rinv) hr) ?_
    rw [exOrient_mat.2]
    simp [M3.applyR, M3.one, V3.dot]
  · cases k with
    | rectilinear => exact absurd rfl hk
    | cylindrical => simp [panSize]
    | equirectangular => simp [panSize]

end Rounded

open Rounded Camera in
/-- The hypotheses can be met, by both projections. -/
example (k : Projection.Kind) (hk : k ≠ .rectilinear) :
    ∃ g, SpaceFromImagePan (1 / 2 ^ 50) k ⟨100, 100, 50, 25, 100, 50⟩ exOrient.pos exOrient.mat.Rinv ⟨50, 25⟩ 2 0 g ∧
    ∃ P : V3 ℝ, g.Is P ∧ ∃ out, ImageFromSpacePan (1 / 2 ^ 50) k ⟨100, 100, 50, 25, 100, 50⟩ exOrient.pos exOrient.mat.R P out ∧
      ∃ w : V2 ℝ, out.Is w ∧ |w.x - 50| ≤ 1 / 10 ^ 3 := by
  have hpi := Real.pi_pos
  obtain ⟨g, hg⟩ := SpaceFromImagePan.exists (u := 1 / 2 ^ 50) (by norm_num) k hk ⟨100, 100, 50, 25, 100, 50⟩ exOrient.pos exOrient.mat.Rinv ⟨50, 25⟩ 2 0
  obtain ⟨hr, hd, hN⟩ := exPan_ray k hk
  obtain ⟨P, hP, h2⟩ := C168_double k hk _ (by norm_num) (by norm_num) exOrient _ _ (Near.refl (by norm_num) _) (Near.refl (by norm_num) _) _
    (by norm_num; exact hpi) (fun _ => by norm_num; exact hpi) (by rw [hN]; norm_num) 2 0 _ _ hr hd
    (by norm_num [V3.get]) 10 (by norm_num [exOrient, Orient.pos, V3.get])
    (by norm_num [Projection.minDepth]) (by norm_num [size, exOrient, Orient.pos]) (by norm_num) (Or.inl (by norm_num)) (by norm_num) (by norm_num)
    (by norm_num) g hg
  obtain ⟨out, ho⟩ := ImageFromSpacePan.exists (u := 1 / 2 ^ 50) (by norm_num) k ⟨100, 100, 50, 25, 100, 50⟩ exOrient.pos exOrient.mat.R P
  obtain ⟨w, w1, w2, -⟩ := h2 out ho
  exact ⟨g, hg, P, hP, out, ho, w, w1, w2⟩

open Rounded Camera in
example (k : Projection.Kind) (hk : k ≠ .rectilinear) :
    ∃ g, SpaceFromImagePan (1 / 2 ^ 50) k ⟨100, 100, 50, 25, 100, 50⟩ exOrient.pos exOrient.mat.Rinv ⟨50, 25⟩ 2 0 g ∧ ∃ P : V3 ℝ, g.Is P := by
  obtain ⟨g, hg⟩ := SpaceFromImagePan.exists (u := 1 / 2 ^ 50) (by norm_num) k hk ⟨100, 100, 50, 25, 100, 50⟩ exOrient.pos exOrient.mat.Rinv ⟨50, 25⟩ 2 0
  obtain ⟨-, hd, hN⟩ := exPan_ray k hk
  obtain ⟨-, P, -, hP, -⟩ := C168_plane k hk _ (by norm_num) (by norm_num) (1 / 2 ^ 50) 0 (by norm_num) (by norm_num) (by norm_num) exOrient _
    (Near.refl le_rfl _) _ (by norm_num) 2 0 _ hd (by rw [hN]; norm_num [V3.get]) (by norm_num [exOrient, Orient.pos, V3.get]) g hg
  exact ⟨g, hg, P, hP⟩

open Rounded Camera in
/-- A plane above a camera that looks down. -/
example (k : Projection.Kind) (hk : k ≠ .rectilinear) :
    ∃ g, SpaceFromImagePan (1 / 2 ^ 50) k ⟨100, 100, 50, 25, 100, 50⟩ exOrient.pos exOrient.mat.Rinv ⟨50, 25⟩ 2 20 g ∧ g = V3.nan := by
  obtain ⟨g, hg⟩ := SpaceFromImagePan.exists (u := 1 / 2 ^ 50) (by norm_num) k hk ⟨100, 100, 50, 25, 100, 50⟩ exOrient.pos exOrient.mat.Rinv ⟨50, 25⟩ 2 20
  obtain ⟨-, hd, hN⟩ := exPan_ray k hk
  exact ⟨g, hg, (C168_behind k hk _ (by norm_num) (by norm_num) (1 / 2 ^ 50) 0 (by norm_num) (by norm_num) (by norm_num) exOrient _
    (Near.refl le_rfl _) _ (by norm_num) 2 20 _ hd (by rw [hN]; norm_num [V3.get]) (by norm_num [exOrient, Orient.pos, V3.get]) g hg).1⟩

open Rounded Camera in
example : ∃ g, SpaceFromImage (1 / 2 ^ 50) ⟨100, 100, 50, 25, 100, 50⟩ exOrient.pos exOrient.mat.Rinv ⟨60, 45⟩ 2 20 g ∧ g = V3.nan := by
  obtain ⟨g, hg⟩ := SpaceFromImage.exists (u := 1 / 2 ^ 50) (by norm_num) ⟨100, 100, 50, 25, 100, 50⟩ exOrient.pos exOrient.mat.Rinv ⟨60, 45⟩ 2 20
  have hr : (Projection.getRay .rectilinear ⟨100, 100, 50, 25, 100, 50⟩ (V2.num ⟨60, 45⟩)).Is ⟨1 / 10, -(1 / 5), -1⟩ :=
    (Projection.getRay_is .rectilinear (by norm_num) (by norm_num) (V2.is_num _)).congr (by norm_num [Projection.rayR])
  have hd : (Camera.getRay ⟨.rectilinear, ⟨100, 100, 50, 25, 100, 50⟩, exOrient, noDistortion⟩ (V2.num ⟨60, 45⟩)).2.Is ⟨1 / 10, -(1 / 5), -1⟩ := by
    refine V3.Is.congr (M3.apply_is (A := exOrient.mat.Rinv) hr) ?_
    rw [exOrient_mat.2]
    simp [M3.applyR, M3.one, V3.dot]
  exact ⟨g, hg, (C152_behind _ (by norm_num) (by norm_num) (1 / 2 ^ 50) 0 (by norm_num) (by norm_num) (by norm_num) exOrient _
    (Near.refl le_rfl _) _ 2 20 _ _ hr hd (by norm_num [size, V3.get, abs_of_nonneg, abs_of_nonpos]) (by norm_num [exOrient, Orient.pos, V3.get]) g hg).1⟩
