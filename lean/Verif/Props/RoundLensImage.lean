import Verif.Model.RoundedLensImage
import Verif.Props.RoundGpsImage
import Verif.Props.RoundLens

/-! # C189: pixels of points with a lens and rounding errors -/

namespace Rounded

open Projection Camera LensModel

/-- The radius of a pixel that is close to another one. -/
theorem radius_near (s o p w : V2 ℝ) : |LensSpec.radius s o w - LensSpec.radius s o p| ≤ |w.x - p.x| / |s.x| + |w.y - p.y| / |s.y| := by
  have h := norm_sub_le ⟨(w.x - o.x) / s.x, (w.y - o.y) / s.y, 0⟩ ⟨(p.x - o.x) / s.x, (p.y - o.y) / s.y, 0⟩
  have e : ∀ q : V2 ℝ, V3.norm ⟨(q.x - o.x) / s.x, (q.y - o.y) / s.y, 0⟩ = LensSpec.radius s o q := by
    intro q
    unfold V3.norm LensSpec.radius
    congr 1
    simp only [V3.normSq]
    ring
  rw [e, e] at h
  refine h.trans (le_of_eq ?_)
  rw [← abs_div, ← abs_div]
  simp only [sub_self, abs_zero, add_zero]
  congr 2 <;> ring

/-- A polynomial term of a radius. -/
theorem term_lip (k : ℝ) (n : ℕ) {a b m : ℝ} (ha : 0 ≤ a) (hb : 0 ≤ b) (ham : a ≤ m) (hbm : b ≤ m) :
    |k * a ^ (n + 1) - k * b ^ (n + 1)| ≤ (n + 1) * |k| * m ^ n * |a - b| := by
  rw [← mul_sub, abs_mul]
  have h := abs_pow_sub_pow_le a b (n + 1)
  rw [abs_of_nonneg ha, abs_of_nonneg hb] at h
  have hm : max a b ^ (n + 1 - 1) ≤ m ^ n := pow_le_pow_left₀ (le_max_of_le_left ha) (max_le ham hbm) n
  have h2 : |a - b| * ((n + 1 : ℕ) : ℝ) * max a b ^ (n + 1 - 1) ≤ |a - b| * ((n + 1 : ℕ) : ℝ) * m ^ n := mul_le_mul_of_nonneg_left hm (by positivity)
  have h3 := mul_le_mul_of_nonneg_left (h.trans h2) (abs_nonneg k)
  push_cast at h3
  refine h3.trans (le_of_eq (by ring))

/-- The distortion of a pixel that is close to another one. -/
theorem lens_any {u : ℝ} (hu : 0 ≤ u) (hu1 : u ≤ 1 / 100000) {f : ℝ → ℝ → Prop} {G A : ℝ → ℝ} (hm : ∀ r, 0 ≤ r → Multiplies u f r (G r) (A r)) {s o p w : V2 ℝ}
    (hsx : s.x ≠ 0) (hsy : s.y ≠ 0) {δx δy r η ρ B : ℝ} (hx : |w.x - p.x| ≤ δx) (hy : |w.y - p.y| ≤ δy) (hr : r = LensSpec.radius s o p)
    (hη : η = δx / |s.x| + δy / |s.y|) (hρ : ρ = r + η) (hA0 : ∀ a, 0 ≤ a → a ≤ ρ → A a ≤ A ρ) (hGA : ∀ a, 0 ≤ a → |G a| ≤ A a)
    (hB : ∀ a b, 0 ≤ a → 0 ≤ b → a ≤ ρ → b ≤ ρ → |G a - G b| ≤ B * |a - b|) (hB0 : 0 ≤ B) (hfar : η < r) {out : V2 Num} (h : Distorted u f s o w out) :
    ∃ q : V2 ℝ, out.Is q ∧
      |q.x - (G r * (p.x - o.x) + o.x)| ≤ A ρ * (δx + 56 * u * (|p.x - o.x| + δx)) + B * η * |p.x - o.x| + u * |o.x| ∧
      |q.y - (G r * (p.y - o.y) + o.y)| ≤ A ρ * (δy + 56 * u * (|p.y - o.y| + δy)) + B * η * |p.y - o.y| + u * |o.y| := by
  obtain ⟨a, ha⟩ : ∃ a, a = LensSpec.radius s o w := ⟨_, rfl⟩
  have ha0 : 0 ≤ a := by rw [ha]; exact Real.sqrt_nonneg _
  have hr0 : 0 ≤ r := by rw [hr]; exact Real.sqrt_nonneg _
  have hrw : |a - r| ≤ η := by
    rw [ha, hr, hη]
    exact (radius_near s o p w).trans (add_le_add (div_le_div_of_nonneg_right hx (abs_nonneg _)) (div_le_div_of_nonneg_right hy (abs_nonneg _)))
  have hη0 : 0 ≤ η := (abs_nonneg _).trans hrw
  have haρ : a ≤ ρ := by rw [hρ]; linarith [(abs_le.1 hrw).2]
  have hrρ : r ≤ ρ := by rw [hρ]; linarith
  have hapos : 0 < a := by linarith [(abs_le.1 hrw).1]
  have hAa := hA0 a ha0 haρ
  have hGa := (hGA a ha0).trans hAa
  have hAρ : 0 ≤ A ρ := (abs_nonneg _).trans hGa
  have hGG : |G a - G r| ≤ B * η := (hB a r ha0 hr0 haρ hrρ).trans (mul_le_mul_of_nonneg_left hrw hB0)
  rcases distorted_near hu hu1 hsx hsy (ha ▸ hm a ha0) h with ⟨rfl, -⟩ | ⟨-, q, hq, bx, by'⟩
  rotate_left
  rw [← ha] at bx by'
  rotate_left
  · exact absurd (by rw [ha]; simp [LensSpec.radius]) hapos.ne'
  · have key : ∀ {q p w o δ : ℝ}, |w - p| ≤ δ → |q - (G a * (w - o) + o)| ≤ 56 * u * A a * |w - o| + u * |o| →
        |q - (G r * (p - o) + o)| ≤ A ρ * (δ + 56 * u * (|p - o| + δ)) + B * η * |p - o| + u * |o| := by
      intro q p w o δ hd hb
      have h1 : |w - o| ≤ |p - o| + δ := by
        have := abs_add_le (w - p) (p - o)
        rw [show w - p + (p - o) = w - o by ring] at this
        linarith
      have h2 : 56 * u * A a * |w - o| ≤ 56 * u * A ρ * (|p - o| + δ) :=
        mul_le_mul (mul_le_mul_of_nonneg_left hAa (by positivity)) h1 (abs_nonneg _) (by positivity)
      have e : q - (G r * (p - o) + o) = (q - (G a * (w - o) + o)) + (G a * (w - p) + (G a - G r) * (p - o)) := by ring
      have h3 : |G a * (w - p)| ≤ A ρ * δ := by
        rw [abs_mul]
        exact mul_le_mul hGa hd (abs_nonneg _) hAρ
      have h4 : |(G a - G r) * (p - o)| ≤ B * η * |p - o| := by
        rw [abs_mul]
        exact mul_le_mul_of_nonneg_right hGG (abs_nonneg _)
      rw [e]
      have h5 := abs_add_le (q - (G a * (w - o) + o)) (G a * (w - p) + (G a - G r) * (p - o))
      have h6 := abs_add_le (G a * (w - p)) ((G a - G r) * (p - o))
      linarith
    exact ⟨q, hq, key hx bx, key hy by'⟩

theorem inv_T (o : Orient) : o.mat.Rinv = o.mat.R.T := (rigid_mat o).inv

/-- The exact pixel, before the distortion, of a point on the ray of `p`. -/
theorem pixel_exact (c : Cam) (hc : c.Proper) (p : V2 ℝ) (hx : |(p.x - c.intr.cx) / c.intr.fx| < Real.pi ∨ c.kind = .rectilinear)
    (hy : c.kind = .equirectangular → |(p.y - c.intr.cy) / c.intr.fy| < Real.pi / 2) {r : V3 ℝ} (hr : r = rayR c.kind c.intr p) {f : ℝ} (hf : 0 < f)
    (hdep : minDepth ≤ f * |r.z|) {P : V3 ℝ} (hP : P = c.orient.pos + (c.orient.mat.Rinv.applyR r).mulS f) (hide : Bool) :
    (Projection.imageFromCamera c.kind c.intr (Spatial.cameraFromSpace c.orient.mat P.num) hide).Is p := by
  have e : P = (dirR c p).mulS f + c.orient.pos := by
    rw [hP, hr]
    ext <;> simp [dirR, inv_T, add_comm]
  refine image_of_ray_point c hc ?_ (V3.is_num P) hf.le e ⟨r.mulS f, ?_, ?_⟩ hide
  · unfold InRange
    cases hk : c.kind with
    | rectilinear => trivial
    | cylindrical => exact hx.resolve_right (by simp [hk])
    | equirectangular => exact ⟨hx.resolve_right (by simp [hk]), hy hk⟩
  · have := cameraFromSpace_is c (V3.is_num P)
    refine this.congr ?_
    rw [e, camR_on_ray, hr]
  · rw [V3.mulS_z, abs_mul, abs_of_pos hf, mul_comm]
    exact hdep

end Rounded

open LensModel Rounded Projection Camera in
/-- **C189** The pixel of a point with rounding errors when the camera has a Brown lens.  `p` is the pixel without the distortion. -/
theorem C189_brown (spline : Spline) (k : Kind) (I : Intr) (hfx : I.fx ≠ 0) (hfy : I.fy ≠ 0) (k1 k2 k3 u e : ℝ) (hu : 0 ≤ u) (hu1 : u ≤ 1 / 100000)
    (he1 : e ≤ 1 / 1000) (o : Orient) (R : M3) (hR : Near e R o.mat.R) (p : V2 ℝ) (hx : |(p.x - I.cx) / I.fx| < Real.pi ∨ k = .rectilinear)
    (hy : k = .equirectangular → |(p.y - I.cy) / I.fy| < Real.pi / 2) (r d : V3 ℝ) (hr : (Projection.getRay k I p.num).Is r)
    (hd : (Camera.getRay ⟨k, I, o, noDistortion⟩ p.num).2.Is d) (f : ℝ) (hf : 0 < f) (P : V3 ℝ) (hP : P = o.pos + d.mulS f) (hrz : r.z < 0) (Z : ℝ)
    (hZ : Z = 31 / 10 * (e + 6 * u) * size r) (hZ1 : Z ≤ 1 / 80) (hside : 8 * Z ≤ |r.z|) (hdep : 3 * minDepth ≤ f * |r.z|) (δx δy s η ρ A B : ℝ)
    (hδx : δx = (7 * Z + 25 * u) * (|I.fx| + |p.x - I.cx|) + u * |I.cx|) (hδy : δy = (7 * Z + 25 * u) * (|I.fy| + |p.y - I.cy|) + u * |I.cy|)
    (hs : s = Real.sqrt (((p.x - I.cx) / I.fx) ^ 2 + ((p.y - I.cy) / I.fy) ^ 2)) (hη : η = δx / |I.fx| + δy / |I.fy|) (hρ : ρ = s + η) (hfar : η < s)
    (hA : A = 1 + |k1| * ρ ^ 2 + |k2| * ρ ^ 4 + |k3| * ρ ^ 6) (hB : B = 2 * |k1| * ρ + 4 * |k2| * ρ ^ 3 + 6 * |k3| * ρ ^ 5) (out : V2 Num)
    (ho : ImageLens u k I o.pos R (BrownRadius u k1 k2 k3) ⟨I.fx, I.fy⟩ ⟨I.cx, I.cy⟩ P out) :
    ∃ q w : V2 ℝ, (imageFromSpace ⟨k, I, o, (brown spline I k1 k2 k3).lens⟩ P.num).Is q ∧ out.Is w ∧
      |w.x - q.x| ≤ A * (δx + 56 * u * (|p.x - I.cx| + δx)) + B * η * |p.x - I.cx| + u * |I.cx| ∧
      |w.y - q.y| ≤ A * (δy + 56 * u * (|p.y - I.cy| + δy)) + B * η * |p.y - I.cy| + u * |I.cy| := by
  have hrr : r = rayR k I p := hr.unique (getRay_is k hfx hfy (V2.is_num p))
  have hdd : d = o.mat.Rinv.applyR r := by
    rw [hrr]
    exact hd.unique (M3.apply_is (getRay_is k hfx hfy (V2.is_num p)))
  obtain ⟨m, hm, ho⟩ := ho
  obtain ⟨w, hw, wx, wy⟩ := image_any k I hfx hfy hu hu1 he1 o R hR p hx hy hf r hrr hrz (Y := 0) (Z := Z) (by rw [hZ]; exact le_of_eq (by ring)) hZ1 hside hdep P
    (by rw [hP, ← hdd]; intro j; fin_cases j <;> simp [V3.get, mul_comm]) m hm
  rw [← hδx] at wx
  rw [← hδy] at wy
  have hrad : LensSpec.radius ⟨I.fx, I.fy⟩ ⟨I.cx, I.cy⟩ p = s := by rw [hs]; rfl
  rcases ho with ⟨rfl, -⟩ | ⟨w', hw', ho⟩
  · exact absurd hw.1 (by simp [V2.nan, Num.Is])
  have ew := hw'.unique hw
  subst ew
  have hδ0 : 0 ≤ η := by
    rw [hη]
    have := (abs_nonneg _).trans wx
    have := (abs_nonneg _).trans wy
    positivity
  have hs0 : 0 < s := by linarith
  have hρ0 : 0 ≤ ρ := by linarith
  have hmin : minDepth ≤ f * |r.z| := by linarith [(by norm_num [minDepth] : (0 : ℝ) ≤ minDepth)]
  have hpix := pixel_exact ⟨k, I, o, (brown spline I k1 k2 k3).lens⟩ ⟨hfx, hfy⟩ p hx hy hrr hf hmin (hP.trans (by rw [hdd])) true
  have ht := transform_is (L := brown spline I k1 k2 k3) hpix hfx hfy (by show LensSpec.radius ⟨I.fx, I.fy⟩ ⟨I.cx, I.cy⟩ p ≠ 0; rw [hrad]; exact hs0.ne')
    (fun m hm => brownRadius_is (k1 := k1) (k2 := k2) (k3 := k3) hm)
  obtain ⟨v, hv, bx, by'⟩ := lens_any hu hu1 (fun r _ => brown_multiplies hu hu1 k1 k2 k3 r) (s := ⟨I.fx, I.fy⟩) (o := ⟨I.cx, I.cy⟩) hfx hfy wx wy hrad.symm hη hρ (B := B)
    (fun a ha hab => by gcongr)
    (fun a ha => by
      have h1 := abs_add_le (1 + k1 * a ^ 2 + k2 * a ^ 4) (k3 * a ^ 6)
      have h2 := abs_add_le (1 + k1 * a ^ 2) (k2 * a ^ 4)
      have h3 := abs_add_le 1 (k1 * a ^ 2)
      rw [abs_mul k3, abs_of_nonneg (by positivity : 0 ≤ a ^ 6)] at h1
      rw [abs_mul k2, abs_of_nonneg (by positivity : 0 ≤ a ^ 4)] at h2
      rw [abs_mul k1, abs_of_nonneg (by positivity : 0 ≤ a ^ 2), _root_.abs_one] at h3
      linarith)
    (fun a b ha hb ham hbm => by
      have h1 := term_lip k1 1 ha hb ham hbm
      have h2 := term_lip k2 3 ha hb ham hbm
      have h3 := term_lip k3 5 ha hb ham hbm
      norm_num at h1 h2 h3
      have t1 := abs_add_le (k1 * a ^ 2 - k1 * b ^ 2 + (k2 * a ^ 4 - k2 * b ^ 4)) (k3 * a ^ 6 - k3 * b ^ 6)
      have t2 := abs_add_le (k1 * a ^ 2 - k1 * b ^ 2) (k2 * a ^ 4 - k2 * b ^ 4)
      rw [show 1 + k1 * a ^ 2 + k2 * a ^ 4 + k3 * a ^ 6 - (1 + k1 * b ^ 2 + k2 * b ^ 4 + k3 * b ^ 6) =
        k1 * a ^ 2 - k1 * b ^ 2 + (k2 * a ^ 4 - k2 * b ^ 4) + (k3 * a ^ 6 - k3 * b ^ 6) by ring, hB]
      linarith) (by rw [hB]; positivity) hfar ho
  rw [← hA] at bx by'
  refine ⟨_, v, ht, hv, ?_, ?_⟩
  · show |v.x - (LensSpec.brownPoly k1 k2 k3 (LensSpec.radius ⟨I.fx, I.fy⟩ ⟨I.cx, I.cy⟩ p) / LensSpec.radius ⟨I.fx, I.fy⟩ ⟨I.cx, I.cy⟩ p * (p.x - I.cx) + I.cx)| ≤ _
    rw [hrad, LensSpec.brownPoly, mul_div_cancel_left₀ _ hs0.ne']
    exact bx
  · show |v.y - (LensSpec.brownPoly k1 k2 k3 (LensSpec.radius ⟨I.fx, I.fy⟩ ⟨I.cx, I.cy⟩ p) / LensSpec.radius ⟨I.fx, I.fy⟩ ⟨I.cx, I.cy⟩ p * (p.y - I.cy) + I.cy)| ≤ _
    rw [hrad, LensSpec.brownPoly, mul_div_cancel_left₀ _ hs0.ne']
    exact by'

open LensModel Rounded Projection Camera in
/-- **C189** The pixel of a point with rounding errors when the camera has an ABC lens. -/
theorem C189_abc (spline : Spline) (k : Kind) (I : Intr) (hfx : I.fx ≠ 0) (hfy : I.fy ≠ 0) (a b c u e : ℝ) (hu : 0 ≤ u) (hu1 : u ≤ 1 / 100000)
    (he1 : e ≤ 1 / 1000) (o : Orient) (R : M3) (hR : Near e R o.mat.R) (p : V2 ℝ) (hx : |(p.x - I.cx) / I.fx| < Real.pi ∨ k = .rectilinear)
    (hy : k = .equirectangular → |(p.y - I.cy) / I.fy| < Real.pi / 2) (r d : V3 ℝ) (hr : (Projection.getRay k I p.num).Is r)
    (hd : (Camera.getRay ⟨k, I, o, noDistortion⟩ p.num).2.Is d) (f : ℝ) (hf : 0 < f) (P : V3 ℝ) (hP : P = o.pos + d.mulS f) (hrz : r.z < 0) (Z : ℝ)
    (hZ : Z = 31 / 10 * (e + 6 * u) * size r) (hZ1 : Z ≤ 1 / 80) (hside : 8 * Z ≤ |r.z|) (hdep : 3 * minDepth ≤ f * |r.z|) (δx δy l s η ρ A B : ℝ)
    (hδx : δx = (7 * Z + 25 * u) * (|I.fx| + |p.x - I.cx|) + u * |I.cx|) (hδy : δy = (7 * Z + 25 * u) * (|I.fy| + |p.y - I.cy|) + u * |I.cy|)
    (hl : l = min I.w I.h / 2) (hl0 : l ≠ 0)
    (hs : s = Real.sqrt (((p.x - I.cx) / l) ^ 2 + ((p.y - I.cy) / l) ^ 2)) (hη : η = δx / |l| + δy / |l|) (hρ : ρ = s + η) (hfar : η < s)
    (hA : A = 1 + |a| + |b| + |c| + |c| * ρ + |b| * ρ ^ 2 + |a| * ρ ^ 3) (hB : B = |c| + 2 * |b| * ρ + 3 * |a| * ρ ^ 2) (out : V2 Num)
    (ho : ImageLens u k I o.pos R (AbcRadius u a b c) ⟨l, l⟩ ⟨I.cx, I.cy⟩ P out) :
    ∃ q w : V2 ℝ, (imageFromSpace ⟨k, I, o, (abc spline I a b c).lens⟩ P.num).Is q ∧ out.Is w ∧
      |w.x - q.x| ≤ A * (δx + 56 * u * (|p.x - I.cx| + δx)) + B * η * |p.x - I.cx| + u * |I.cx| ∧
      |w.y - q.y| ≤ A * (δy + 56 * u * (|p.y - I.cy| + δy)) + B * η * |p.y - I.cy| + u * |I.cy| := by
  have hrr : r = rayR k I p := hr.unique (getRay_is k hfx hfy (V2.is_num p))
  have hdd : d = o.mat.Rinv.applyR r := by
    rw [hrr]
    exact hd.unique (M3.apply_is (getRay_is k hfx hfy (V2.is_num p)))
  obtain ⟨m, hm, ho⟩ := ho
  obtain ⟨w, hw, wx, wy⟩ := image_any k I hfx hfy hu hu1 he1 o R hR p hx hy hf r hrr hrz (Y := 0) (Z := Z) (by rw [hZ]; exact le_of_eq (by ring)) hZ1 hside hdep P
    (by rw [hP, ← hdd]; intro j; fin_cases j <;> simp [V3.get, mul_comm]) m hm
  rw [← hδx] at wx
  rw [← hδy] at wy
  have hrad : LensSpec.radius ⟨l, l⟩ ⟨I.cx, I.cy⟩ p = s := by rw [hs]; rfl
  rcases ho with ⟨rfl, -⟩ | ⟨w', hw', ho⟩
  · exact absurd hw.1 (by simp [V2.nan, Num.Is])
  have ew := hw'.unique hw
  subst ew
  have hδ0 : 0 ≤ η := by
    rw [hη]
    have := (abs_nonneg _).trans wx
    have := (abs_nonneg _).trans wy
    positivity
  have hs0 : 0 < s := by linarith
  have hρ0 : 0 ≤ ρ := by linarith
  have hmin : minDepth ≤ f * |r.z| := by linarith [(by norm_num [minDepth] : (0 : ℝ) ≤ minDepth)]
  have hpix := pixel_exact ⟨k, I, o, (abc spline I a b c).lens⟩ ⟨hfx, hfy⟩ p hx hy hrr hf hmin (hP.trans (by rw [hdd])) true
  subst hl
  have ht := transform_is (L := abc spline I a b c) hpix hl0 hl0
    (by show LensSpec.radius ⟨min I.w I.h / 2, min I.w I.h / 2⟩ ⟨I.cx, I.cy⟩ p ≠ 0; rw [hrad]; exact hs0.ne')
    (fun m hm => abcRadius_is (a := a) (b := b) (c := c) hm)
  obtain ⟨v, hv, bx, by'⟩ := lens_any hu hu1 (fun r hr => abc_multiplies hu hu1 a b c hr) (s := ⟨min I.w I.h / 2, min I.w I.h / 2⟩) (o := ⟨I.cx, I.cy⟩) hl0 hl0
    wx wy hrad.symm hη hρ (B := B)
    (fun x hx hxy => by gcongr)
    (fun x hx => by
      have h1 := abs_add_le (1 - a - b - c + c * x + b * x ^ 2) (a * x ^ 3)
      have h2 := abs_add_le (1 - a - b - c + c * x) (b * x ^ 2)
      have h3 := abs_add_le (1 - a - b - c) (c * x)
      have h4 := abs_sub (1 - a - b) c
      have h5 := abs_sub (1 - a) b
      have h6 := abs_sub 1 a
      rw [abs_mul a, abs_of_nonneg (by positivity : 0 ≤ x ^ 3)] at h1
      rw [abs_mul b, abs_of_nonneg (by positivity : 0 ≤ x ^ 2)] at h2
      rw [abs_mul c, abs_of_nonneg hx] at h3
      rw [_root_.abs_one] at h6
      linarith)
    (fun x y hx hy hxm hym => by
      have h1 := term_lip c 0 hx hy hxm hym
      have h2 := term_lip b 1 hx hy hxm hym
      have h3 := term_lip a 2 hx hy hxm hym
      norm_num at h1 h2 h3
      have t1 := abs_add_le (c * x - c * y + (b * x ^ 2 - b * y ^ 2)) (a * x ^ 3 - a * y ^ 3)
      have t2 := abs_add_le (c * x - c * y) (b * x ^ 2 - b * y ^ 2)
      rw [show 1 - a - b - c + c * x + b * x ^ 2 + a * x ^ 3 - (1 - a - b - c + c * y + b * y ^ 2 + a * y ^ 3) =
        c * x - c * y + (b * x ^ 2 - b * y ^ 2) + (a * x ^ 3 - a * y ^ 3) by ring, hB]
      linarith) (by rw [hB]; positivity) hfar ho
  rw [← hA] at bx by'
  have hd' : LensSpec.abcPoly a b c s / s = 1 - a - b - c + c * s + b * s ^ 2 + a * s ^ 3 := by
    rw [LensSpec.abcPoly, div_eq_iff hs0.ne']; ring
  refine ⟨_, v, ht, hv, ?_, ?_⟩
  · show |v.x - (LensSpec.abcPoly a b c (LensSpec.radius ⟨min I.w I.h / 2, min I.w I.h / 2⟩ ⟨I.cx, I.cy⟩ p) /
      LensSpec.radius ⟨min I.w I.h / 2, min I.w I.h / 2⟩ ⟨I.cx, I.cy⟩ p * (p.x - I.cx) + I.cx)| ≤ _
    rw [hrad, hd']
    exact bx
  · show |v.y - (LensSpec.abcPoly a b c (LensSpec.radius ⟨min I.w I.h / 2, min I.w I.h / 2⟩ ⟨I.cx, I.cy⟩ p) /
      LensSpec.radius ⟨min I.w I.h / 2, min I.w I.h / 2⟩ ⟨I.cx, I.cy⟩ p * (p.y - I.cy) + I.cy)| ≤ _
    rw [hrad, hd']
    exact by'

namespace Rounded

open Projection

theorem ImageAny.cases {u : ℝ} {k : Kind} {I : Intr} {t : V3 ℝ} {R : M3} {P : V3 ℝ} {m : V2 Num} (h : ImageAny u k I t R P m) : m = V2.nan ∨ ∃ w : V2 ℝ, m.Is w := by
  have pan : ∀ k, ImageFromSpacePan u k I t R P m → m = V2.nan ∨ ∃ w : V2 ℝ, m.Is w := by
    rintro k ⟨q, -, h⟩
    unfold ImagePan at h
    split at h
    · cases k
      · exact .inl h
      · exact .inl h
      · obtain ⟨_, _, _, _, _, _, h⟩ := h
        exact .inr ⟨_, h⟩
    · obtain ⟨_, _, _, _, _, _, _, _, _, _, h⟩ := h
      exact .inr ⟨_, h⟩
  cases k
  · obtain ⟨q, -, h⟩ := h
    unfold ImageRect at h
    split at h
    · exact .inl h
    · aesop
  · exact pan _ h
  · exact pan _ h

theorem ImageLens.exists {u : ℝ} (hu : 0 ≤ u) (k : Kind) (I : Intr) (t : V3 ℝ) (R : M3) {f : ℝ → ℝ → Prop} (hf : ∀ r, ∃ F, f r F) (scale offset : V2 ℝ) (P : V3 ℝ) :
    ∃ out, ImageLens u k I t R f scale offset P out := by
  obtain ⟨m, hm⟩ := ImageAny.exists hu k I t R P
  rcases hm.cases with rfl | ⟨w, hw⟩
  · exact ⟨_, _, hm, .inl ⟨rfl, rfl⟩⟩
  · obtain ⟨out, ho⟩ := Distorted.exists hu hf scale offset w
    exact ⟨out, _, hm, .inr ⟨w, hw, ho⟩⟩

end Rounded

open LensModel Rounded Projection Camera in
/-- A camera 10 m above the ground that looks down, with a Brown lens; the error of the pixel is smaller than a millionth of a pixel. -/
example : ∃ out, ∃ q w : V2 ℝ, ImageLens (1 / 2 ^ 53) .rectilinear ⟨100, 100, 50, 25, 100, 50⟩ exOrient.pos exOrient.mat.R (BrownRadius (1 / 2 ^ 53) (1 / 10) 0 0)
      ⟨100, 100⟩ ⟨50, 25⟩ ⟨1, -2, 0⟩ out ∧
    (imageFromSpace ⟨.rectilinear, ⟨100, 100, 50, 25, 100, 50⟩, exOrient, (brown (fun _ _ => none) ⟨100, 100, 50, 25, 100, 50⟩ (1 / 10) 0 0).lens⟩
      (V3.num ⟨1, -2, 0⟩)).Is q ∧ out.Is w ∧ |w.x - q.x| ≤ 1 / 10 ^ 6 := by
  have hu : (0 : ℝ) ≤ 1 / 2 ^ 53 := by norm_num
  obtain ⟨out, h⟩ := ImageLens.exists hu .rectilinear ⟨100, 100, 50, 25, 100, 50⟩ exOrient.pos exOrient.mat.R (BrownRadius.exists hu (1 / 10) 0 0) ⟨100, 100⟩ ⟨50, 25⟩
    ⟨1, -2, 0⟩
  obtain ⟨s, hs⟩ : ∃ s : ℝ, s = Real.sqrt (((60 - 50) / 100) ^ 2 + ((45 - 25) / 100) ^ 2) := ⟨_, rfl⟩
  have h1 : 1 / 5 ≤ s := by rw [hs]; exact Real.le_sqrt_of_sq_le (by norm_num)
  have h2 : s ≤ 1 / 2 := by rw [hs]; exact Real.sqrt_le_iff.2 (by norm_num)
  have hsz : size ⟨1 / 10, -(1 / 5), -1⟩ = 13 / 10 := by norm_num [size, abs_of_nonneg, abs_of_nonpos]
  obtain ⟨η, hη⟩ : ∃ η : ℝ, η = ((7 * (31 / 10 * (0 + 6 * (1 / 2 ^ 53)) * (13 / 10)) + 25 * (1 / 2 ^ 53)) * (100 + 10) + 1 / 2 ^ 53 * 50) / 100 +
    ((7 * (31 / 10 * (0 + 6 * (1 / 2 ^ 53)) * (13 / 10)) + 25 * (1 / 2 ^ 53)) * (100 + 20) + 1 / 2 ^ 53 * 25) / 100 := ⟨_, rfl⟩
  have hη1 : η ≤ 1 / 10 ^ 12 := by rw [hη]; norm_num
  have hη0 : 0 ≤ η := by rw [hη]; norm_num
  obtain ⟨q, w, hq, hw, hb, -⟩ := C189_brown (fun _ _ => none) .rectilinear ⟨100, 100, 50, 25, 100, 50⟩ (by norm_num) (by norm_num) (1 / 10) 0 0 (1 / 2 ^ 53) 0 hu
    (by norm_num) (by norm_num) exOrient _ (Near.refl le_rfl _) ⟨60, 45⟩ (.inr rfl) (by simp) ⟨1 / 10, -(1 / 5), -1⟩ ⟨1 / 10, -(1 / 5), -1⟩
    ((getRay_is .rectilinear (by norm_num) (by norm_num) (V2.is_num _)).congr (by ext <;> norm_num [rayR])) (exOrient_ray _ _ (by norm_num)) 10 (by norm_num) ⟨1, -2, 0⟩
    (by ext <;> norm_num [exOrient, Camera.Orient.pos]) (by norm_num) (31 / 10 * (0 + 6 * (1 / 2 ^ 53)) * (13 / 10)) (by rw [hsz]) (by norm_num)
    (by norm_num [abs_of_nonneg, abs_of_nonpos]) (by norm_num [minDepth, abs_of_nonneg, abs_of_nonpos]) _ _ s η (s + η) _ _ rfl rfl hs
    (by rw [hη]; norm_num [abs_of_nonneg]) rfl (by linarith) rfl rfl out h
  refine ⟨out, q, w, h, hq, hw, hb.trans ?_⟩
  have hρ : s + η ≤ 1 := by norm_num at hη1; linarith
  have hρ2 : (s + η) ^ 2 ≤ 1 := pow_le_one₀ (by linarith) hρ
  have hBη : 2 * |(1 / 10 : ℝ)| * (s + η) * η ≤ 1 / 10 ^ 12 := by
    rw [abs_of_nonneg (by norm_num : (0 : ℝ) ≤ 1 / 10)]
    have := mul_le_mul hρ hη1 hη0 zero_le_one
    linarith
  norm_num [abs_of_nonneg] at hBη hη1 ⊢
  linarith

open LensModel Rounded Projection Camera in
/-- The same camera with an ABC lens. -/
example : ∃ out, ∃ q w : V2 ℝ, ImageLens (1 / 2 ^ 53) .rectilinear ⟨100, 100, 50, 25, 100, 50⟩ exOrient.pos exOrient.mat.R (AbcRadius (1 / 2 ^ 53) 0 0 (1 / 10))
      ⟨25, 25⟩ ⟨50, 25⟩ ⟨1, -2, 0⟩ out ∧
    (imageFromSpace ⟨.rectilinear, ⟨100, 100, 50, 25, 100, 50⟩, exOrient, (abc (fun _ _ => none) ⟨100, 100, 50, 25, 100, 50⟩ 0 0 (1 / 10)).lens⟩
      (V3.num ⟨1, -2, 0⟩)).Is q ∧ out.Is w ∧ |w.x - q.x| ≤ 1 / 10 ^ 6 := by
  have hu : (0 : ℝ) ≤ 1 / 2 ^ 53 := by norm_num
  obtain ⟨out, h⟩ := ImageLens.exists hu .rectilinear ⟨100, 100, 50, 25, 100, 50⟩ exOrient.pos exOrient.mat.R (AbcRadius.exists hu 0 0 (1 / 10)) ⟨25, 25⟩ ⟨50, 25⟩
    ⟨1, -2, 0⟩
  obtain ⟨s, hs⟩ : ∃ s : ℝ, s = Real.sqrt (((60 - 50) / 25) ^ 2 + ((45 - 25) / 25) ^ 2) := ⟨_, rfl⟩
  have h1 : 1 / 5 ≤ s := by rw [hs]; exact Real.le_sqrt_of_sq_le (by norm_num)
  have h2 : s ≤ 9 / 10 := by rw [hs]; exact Real.sqrt_le_iff.2 (by norm_num)
  have hsz : size ⟨1 / 10, -(1 / 5), -1⟩ = 13 / 10 := by norm_num [size, abs_of_nonneg, abs_of_nonpos]
  obtain ⟨η, hη⟩ : ∃ η : ℝ, η = ((7 * (31 / 10 * (0 + 6 * (1 / 2 ^ 53)) * (13 / 10)) + 25 * (1 / 2 ^ 53)) * (100 + 10) + 1 / 2 ^ 53 * 50) / 25 +
    ((7 * (31 / 10 * (0 + 6 * (1 / 2 ^ 53)) * (13 / 10)) + 25 * (1 / 2 ^ 53)) * (100 + 20) + 1 / 2 ^ 53 * 25) / 25 := ⟨_, rfl⟩
  have hη1 : η ≤ 1 / 10 ^ 11 := by rw [hη]; norm_num
  have hη0 : 0 ≤ η := by rw [hη]; norm_num
  obtain ⟨q, w, hq, hw, hb, -⟩ := C189_abc (fun _ _ => none) .rectilinear ⟨100, 100, 50, 25, 100, 50⟩ (by norm_num) (by norm_num) 0 0 (1 / 10) (1 / 2 ^ 53) 0 hu
    (by norm_num) (by norm_num) exOrient _ (Near.refl le_rfl _) ⟨60, 45⟩ (.inr rfl) (by simp) ⟨1 / 10, -(1 / 5), -1⟩ ⟨1 / 10, -(1 / 5), -1⟩
    ((getRay_is .rectilinear (by norm_num) (by norm_num) (V2.is_num _)).congr (by ext <;> norm_num [rayR])) (exOrient_ray _ _ (by norm_num)) 10 (by norm_num) ⟨1, -2, 0⟩
    (by ext <;> norm_num [exOrient, Camera.Orient.pos]) (by norm_num) (31 / 10 * (0 + 6 * (1 / 2 ^ 53)) * (13 / 10)) (by rw [hsz]) (by norm_num)
    (by norm_num [abs_of_nonneg, abs_of_nonpos]) (by norm_num [minDepth, abs_of_nonneg, abs_of_nonpos]) _ _ 25 s η (s + η) _ _ rfl rfl (by norm_num) (by norm_num) hs
    (by rw [hη]; norm_num [abs_of_nonneg]) rfl (by linarith) rfl rfl out h
  refine ⟨out, q, w, h, hq, hw, hb.trans ?_⟩
  have hρ : s + η ≤ 1 := by norm_num at hη1; linarith
  norm_num [abs_of_nonneg] at hη1 ⊢
  linarith
