import Verif.Props.Rounded

/-! # C154: from the image to space and back with rounding errors -/

namespace Rounded

open Projection Camera

theorem size_nonneg (d : V3 ℝ) : 0 ≤ size d := by unfold size; positivity

/-- A row of a matrix with small entries, applied to a small vector. -/
theorem dot_le {w d : V3 ℝ} {k : ℝ} (b1 : |w.x| ≤ 1) (b2 : |w.y| ≤ 1) (b3 : |w.z| ≤ 1) (h1 : |d.x| ≤ k) (h2 : |d.y| ≤ k) (h3 : |d.z| ≤ k) :
    |d.dot w| ≤ 3 * k := by
  have key : ∀ {a b : ℝ}, |a| ≤ k → |b| ≤ 1 → |a * b| ≤ k := by
    intro a b ha hb
    rw [abs_mul]
    have := mul_le_mul ha hb (abs_nonneg _) ((abs_nonneg _).trans ha)
    linarith
  simp only [V3.dot]
  have := abs_add_three (d.x * w.x) (d.y * w.y) (d.z * w.z)
  have := key h1 b1
  have := key h2 b2
  have := key h3 b3
  linarith

/-- The pixel of a point that is close to the ray of a pixel `f * r`. -/
theorem pixel_near {F f r a z c Z : ℝ} (hf : 0 < f) (hZ : 3 * Z ≤ 1 / 10) (ha : |a - f * r| ≤ 3 * (f * Z)) (hz : |z - f * -1| ≤ 3 * (f * Z)) :
    |-a * F / z + c - (F * r + c)| ≤ 10 / 3 * Z * (|F| + |F * r + c - c|) := by
  have hZ0 : 0 ≤ Z := by
    by_contra h
    have := (abs_nonneg _).trans ha
    nlinarith
  obtain ⟨x, hx⟩ : ∃ x, x = (a - f * r) / f := ⟨_, rfl⟩
  obtain ⟨y, hy⟩ : ∃ y, y = (z - f * -1) / f := ⟨_, rfl⟩
  have ea : a = f * (r + x) := by rw [hx]; field_simp; ring
  have ez : z = -(f * (1 - y)) := by rw [hy]; field_simp; ring
  have hx' : |x| ≤ 3 * Z := by
    rw [hx, abs_div, abs_of_pos hf, div_le_iff₀ hf]
    linarith
  have hy' : |y| ≤ 3 * Z := by
    rw [hy, abs_div, abs_of_pos hf, div_le_iff₀ hf]
    linarith
  have h1 : 9 / 10 ≤ 1 - y := by
    have := (abs_le.1 hy').2
    linarith
  have hpos : 0 < 1 - y := by linarith
  have e1 : -a * F / z + c - (F * r + c) = (F * x + F * r * y) / (1 - y) := by
    rw [ea, ez]
    have hf0 : f ≠ 0 := hf.ne'
    obtain ⟨k, hk⟩ : ∃ k, k = 1 - y := ⟨_, rfl⟩
    have hy1 : y = 1 - k := by rw [hk]; ring
    rw [← hk] at hpos ⊢
    have hk0 : k ≠ 0 := hpos.ne'
    rw [hy1]
    field_simp
    ring
  rw [e1, add_sub_cancel_right, abs_div, abs_of_pos hpos, div_le_iff₀ hpos]
  have h2 : |F * x + F * r * y| ≤ 3 * Z * (|F| + |F * r|) := by
    refine (abs_add_le _ _).trans ?_
    rw [abs_mul, abs_mul (F * r)]
    have := mul_le_mul_of_nonneg_left hx' (abs_nonneg F)
    have := mul_le_mul_of_nonneg_left hy' (abs_nonneg (F * r))
    linarith
  have h3 : 0 ≤ Z * (|F| + |F * r|) := by positivity
  nlinarith

theorem R_Rinv (o : Orient) (r : V3 ℝ) : o.mat.R.applyR (o.mat.Rinv.applyR r) = r := by
  have h : o.mat.Rinv = o.mat.R.T := by cases o <;> exact Spatial.inv_rot _ _ _
  rw [h]
  refine M3.applyR_applyR_T ?_ r
  cases o <;> exact (Spatial.rot_RT _ _ _)

theorem back_far {f k S T A : ℝ} (hf : 0 < f) (hk : 0 ≤ k) (hN : k * S ≤ 1 / 30) (hT : T ≤ f * (31 / 10 * S)) (hA : 9 / 10 * f ≤ A) : 2 * k * T ≤ A := by
  have h1 := mul_le_mul_of_nonneg_left hT (by positivity : 0 ≤ 2 * k)
  have h2 := mul_le_mul_of_nonneg_left hN hf.le
  have e : 2 * k * (f * (31 / 10 * S)) = 62 / 10 * (f * (k * S)) := by ring
  linarith

theorem back_quo {f S T A : ℝ} (hf : 0 < f) (hS : 0 ≤ S) (hT : T ≤ f * (31 / 10 * S)) (hA : 9 / 10 * f ≤ A) : T / A ≤ 69 / 20 * S := by
  rw [div_le_iff₀ (by linarith)]
  have h1 := mul_le_mul_of_nonneg_left hA (by positivity : 0 ≤ 69 / 20 * S)
  have h2 : 0 ≤ f * S := by positivity
  linarith

theorem back_fin {u e Z S K F a b b0 C : ℝ} (hu : 0 ≤ u) (he : 0 ≤ e) (hS : 0 ≤ S) (hK : K ≤ 69 / 20 * S) (hZ : 3 * Z ≤ 1 / 10)
    (k1 : |a - b0| ≤ (2 * e + 17 * u) * K * (|F| + |b0 - C|) + u * |C|) (k2 : |b0 - b| ≤ 10 / 3 * Z * (|F| + |b - C|)) :
    |a - b| ≤ ((8 * e + 67 * u) * S + 10 / 3 * Z) * (|F| + |b - C|) + u * |C| := by
  obtain ⟨G, hG⟩ : ∃ G, G = |F| + |b - C| := ⟨_, rfl⟩
  have hG0 : 0 ≤ G := by rw [hG]; positivity
  rw [← hG] at k2 ⊢
  have t1 := abs_sub_le a b0 b
  have t2 := abs_sub_le b0 b C
  have t3 : |F| + |b0 - C| ≤ 10 / 9 * G := by
    have : Z * G ≤ 1 / 30 * G := mul_le_mul_of_nonneg_right (by linarith) hG0
    linarith
  have t4 : (2 * e + 17 * u) * K * (|F| + |b0 - C|) ≤ (2 * e + 17 * u) * (69 / 20 * S) * (10 / 9 * G) :=
    mul_le_mul (mul_le_mul_of_nonneg_left hK (by positivity)) t3 (by positivity) (by positivity)
  have t5 : (2 * e + 17 * u) * (69 / 20 * S) * (10 / 9 * G) ≤ (8 * e + 67 * u) * S * G := by
    have h1 : 0 ≤ e * (S * G) := by positivity
    have h2 : 0 ≤ u * (S * G) := by positivity
    linarith
  linarith

/-- The camera coordinates of a point close to a ray. -/
theorem back_cam (o : Orient) {D r : V3 ℝ} {f Z : ℝ} (hf0 : 0 < f) (hZ : 3 * Z ≤ 1 / 10) (hS1 : 1 ≤ size r)
    (hq : ∀ j, |D.get j - f * (o.mat.Rinv.applyR r).get j| ≤ f * Z) :
    |(o.mat.R.applyR D).x - f * r.x| ≤ 3 * (f * Z) ∧ |(o.mat.R.applyR D).y - f * r.y| ≤ 3 * (f * Z) ∧
      |(o.mat.R.applyR D).z - f * r.z| ≤ 3 * (f * Z) ∧ size D ≤ f * (31 / 10 * size r) := by
  obtain ⟨d, hd⟩ : ∃ d, d = o.mat.Rinv.applyR r := ⟨_, rfl⟩
  rw [← hd] at hq
  have hdr : o.mat.R.applyR d = r := by rw [hd]; exact R_Rinv o r
  have hb := mat_le o
  simp only [Near, sub_zero] at hb
  obtain ⟨b1, b2, b3, b4, b5, b6, b7, b8, b9⟩ := hb
  have hi := inv_le o
  simp only [Near, sub_zero] at hi
  obtain ⟨i1, i2, i3, i4, i5, i6, i7, i8, i9⟩ := hi
  have q0 : |D.x - f * d.x| ≤ f * Z := hq 0
  have q1 : |D.y - f * d.y| ≤ f * Z := hq 1
  have q2 : |D.z - f * d.z| ≤ f * Z := hq 2
  have row : ∀ w : V3 ℝ, |w.x| ≤ 1 → |w.y| ≤ 1 → |w.z| ≤ 1 → |D.dot w - f * d.dot w| ≤ 3 * (f * Z) := by
    intro w h1 h2 h3
    have := dot_le (w := w) (d := ⟨D.x - f * d.x, D.y - f * d.y, D.z - f * d.z⟩) h1 h2 h3 q0 q1 q2
    rw [show D.dot w - f * d.dot w = V3.dot ⟨D.x - f * d.x, D.y - f * d.y, D.z - f * d.z⟩ w by simp only [V3.dot]; ring]
    exact this
  have rx : d.dot o.mat.R.r0 = r.x := congrArg V3.x hdr
  have ry : d.dot o.mat.R.r1 = r.y := congrArg V3.y hdr
  have rz : d.dot o.mat.R.r2 = r.z := congrArg V3.z hdr
  refine ⟨?_, ?_, ?_, ?_⟩
  · rw [← rx]; exact row _ b1 b2 b3
  · rw [← ry]; exact row _ b4 b5 b6
  · rw [← rz]; exact row _ b7 b8 b9
  · have key : ∀ w : V3 ℝ, |w.x| ≤ 1 → |w.y| ≤ 1 → |w.z| ≤ 1 → |r.dot w| ≤ size r := by
      intro w h1 h2 h3
      simp only [V3.dot, size]
      refine (abs_add_three _ _ _).trans ?_
      rw [abs_mul, abs_mul, abs_mul]
      nlinarith [abs_nonneg r.x, abs_nonneg r.y, abs_nonneg r.z]
    have one : ∀ {a b : ℝ}, |a - f * b| ≤ f * Z → |b| ≤ size r → |a| ≤ f * Z + f * size r := by
      intro a b h1 h2
      have := abs_add_le (a - f * b) (f * b)
      rw [sub_add_cancel, abs_mul, abs_of_pos hf0] at this
      have := mul_le_mul_of_nonneg_left h2 hf0.le
      linarith
    have g0 := one q0 (by rw [hd]; exact key _ i1 i2 i3)
    have g1 := one q1 (by rw [hd]; exact key _ i4 i5 i6)
    have g2 := one q2 (by rw [hd]; exact key _ i7 i8 i9)
    have e : size D = |D.x| + |D.y| + |D.z| := rfl
    have h1 := mul_le_mul_of_nonneg_left hS1 hf0.le
    have h2 := mul_le_mul_of_nonneg_left hZ hf0.le
    linarith

/-- A point close to the ray of a pixel has an image close to the pixel. -/
theorem back (I : Intr) (hfx : I.fx ≠ 0) (hfy : I.fy ≠ 0) {u e : ℝ} (hu : 0 ≤ u) (hu1 : u ≤ 1 / 100000) (he1 : e ≤ 1 / 1000)
    (o : Orient) (R : M3) (hR : Near e R o.mat.R) (p : V2 ℝ) (hide : Bool) {f Z : ℝ} (hf : 3 * minDepth ≤ f)
    (hZ : 3 * Z ≤ 1 / 10) (hN : (e + 6 * u) * size (rayR .rectilinear I p) ≤ 1 / 30) (q : V3 ℝ)
    (hq : ∀ j, |(q - o.pos).get j - f * (o.mat.Rinv.applyR (rayR .rectilinear I p)).get j| ≤ f * Z) (out : V2 Num)
    (ho : ImageFromSpace u I o.pos R q hide out) :
    ∃ w : V2 ℝ, out.Is w ∧
      |w.x - p.x| ≤ ((8 * e + 67 * u) * size (rayR .rectilinear I p) + 10 / 3 * Z) * (|I.fx| + |p.x - I.cx|) + u * |I.cx| ∧
      |w.y - p.y| ≤ ((8 * e + 67 * u) * size (rayR .rectilinear I p) + 10 / 3 * Z) * (|I.fy| + |p.y - I.cy|) + u * |I.cy| := by
  obtain ⟨r, hr⟩ : ∃ r, r = rayR .rectilinear I p := ⟨_, rfl⟩
  rw [← hr] at hN hq ⊢
  have hmp : 0 < minDepth := by norm_num [minDepth]
  have hf0 : 0 < f := by linarith
  have he : 0 ≤ e := (abs_nonneg _).trans hR.1
  have hZ0 : 0 ≤ Z := by
    have := (abs_nonneg _).trans (hq 0)
    exact nonneg_of_mul_nonneg_right this hf0
  have hrz : r.z = -1 := by rw [hr]; simp [rayR]
  have hrx : I.fx * r.x + I.cx = p.x := by rw [hr]; simp [rayR]; field_simp; ring
  have hry : I.fy * -r.y + I.cy = p.y := by rw [hr]; simp [rayR]; field_simp; ring
  have hS1 : 1 ≤ size r := by
    unfold size
    rw [hrz]
    have := abs_nonneg r.x
    have := abs_nonneg r.y
    norm_num
    linarith
  obtain ⟨D, hD⟩ : ∃ D, D = q - o.pos := ⟨_, rfl⟩
  rw [← hD] at hq
  obtain ⟨x0, y0, z0, hsd⟩ := back_cam o hf0 hZ hS1 hq
  have hc := cameraFromSpace_is ⟨.rectilinear, I, o, noDistortion⟩ (V3.is_num q)
  obtain ⟨c, hcc⟩ : ∃ c, c = camR ⟨.rectilinear, I, o, noDistortion⟩ q := ⟨_, rfl⟩
  rw [← hcc] at hc
  have hcD : c = o.mat.R.applyR D := by rw [hcc, hD]; rfl
  rw [← hcD, hrz] at z0
  rw [← hcD] at x0 y0
  have hfZ : 3 * (f * Z) ≤ f / 10 := by nlinarith
  have hcz : c.z ≤ -(9 / 10 * f) := by
    have := (abs_le.1 z0).2
    linarith
  have hcza : 9 / 10 * f ≤ |c.z| := by
    rw [abs_of_neg (by linarith)]
    linarith
  have hczp : 0 < |c.z| := by linarith
  have hfar : 2 * (e + 6 * u) * size D ≤ |c.z| := back_far hf0 (by positivity) hN hsd hcza
  have hquo : size D / |c.z| ≤ 69 / 20 * size r := back_quo hf0 (by linarith) hsd hcza
  rw [hD] at hfar hquo
  obtain ⟨w, w0, h1, h2, h3, h4⟩ := C151_points I u e hu hu1 he1 o R hR q hide c hc (by linarith) hfar out ho
  have hw0 : w0 = ⟨-c.x * I.fx / c.z + I.cx, c.y * I.fy / c.z + I.cy⟩ := by
    refine h2.unique ?_
    simp only [imageFromSpace, noDistortion, id_eq, Projection.imageFromCamera, imageFromCameraRect]
    have hmd : (1 : ℝ) / 10 ^ 10 = minDepth := by norm_num [minDepth]
    rw [snap_far hc (by rw [hmd]; linarith)]
    exact projRect_is hc (by linarith) hide (fun _ => by linarith)
  have n1 : |w0.x - p.x| ≤ 10 / 3 * Z * (|I.fx| + |p.x - I.cx|) := by
    have := pixel_near (F := I.fx) (c := I.cx) hf0 hZ x0 z0
    rw [hrx] at this
    rw [hw0]
    exact this
  have n2 : |w0.y - p.y| ≤ 10 / 3 * Z * (|I.fy| + |p.y - I.cy|) := by
    have := pixel_near (F := I.fy) (c := I.cy) (r := -r.y) (a := -c.y) hf0 hZ
      (by rw [show -c.y - f * -r.y = -(c.y - f * r.y) by ring, abs_neg]; exact y0) z0
    rw [hry, neg_neg] at this
    rw [hw0]
    exact this
  exact ⟨w, h1, back_fin hu he (by linarith) hquo hZ h3 n1, back_fin hu he (by linarith) hquo hZ h4 n2⟩

end Rounded

namespace Rounded

open Projection Camera

/-- The direction of a ray is accurate. -/
theorem direction_near (I : Intr) {u e : ℝ} (hu : 0 ≤ u) (hu1 : u ≤ 1 / 100000) (he1 : e ≤ 1 / 1000) (o : Orient) (Rinv : M3)
    (hR : Near e Rinv o.mat.Rinv) (p : V2 ℝ) (dir : V3 ℝ) (hd : Direction u I Rinv p false dir) (j : Fin 3) :
    |dir.get j - (o.mat.Rinv.applyR (rayR .rectilinear I p)).get j| ≤ (e + 6 * u) * size (rayR .rectilinear I p) ∧
      |(o.mat.Rinv.applyR (rayR .rectilinear I p)).get j| ≤ size (rayR .rectilinear I p) := by
  obtain ⟨r, hr⟩ : ∃ r, r = rayR .rectilinear I p := ⟨_, rfl⟩
  rw [← hr]
  obtain ⟨r', hr', k1, k2, k3⟩ := hd
  obtain ⟨n1, n2, n3, n4, n5, n6, n7, n8, n9⟩ := hR
  have he : 0 ≤ e := (abs_nonneg _).trans n1
  have hb := inv_le o
  simp only [Near, sub_zero] at hb
  obtain ⟨b1, b2, b3, b4, b5, b6, b7, b8, b9⟩ := hb
  obtain ⟨A, B, C, E, g1, g2, g3, g4, g5⟩ := hr'
  simp only [Bool.false_eq_true, if_false] at g5
  obtain ⟨eA, heA, rfl⟩ := g1.form hu
  obtain ⟨eB, heB, rfl⟩ := g2.form hu
  obtain ⟨eC, heC, rfl⟩ := g3.form hu
  obtain ⟨eE, heE, rfl⟩ := g4.form hu
  have sq : (1 + u) ^ 2 = (1 + u) * (1 + u) := sq _
  have r1 : ∃ f, |f - 1| ≤ (1 + u) ^ 2 - 1 ∧ r'.x = r.x * f :=
    ⟨eA * eB, by rw [sq]; exact fac_mul heA heB, by rw [g5, hr]; simp [rayR]; ring⟩
  have r2 : ∃ f, |f - 1| ≤ (1 + u) ^ 2 - 1 ∧ r'.y = r.y * f :=
    ⟨eC * eE, by rw [sq]; exact fac_mul heC heE, by rw [g5, hr]; simp [rayR]; ring⟩
  have r3 : ∃ f, |f - 1| ≤ (1 + u) ^ 2 - 1 ∧ r'.z = r.z * f :=
    ⟨1, by rw [sub_self, abs_zero]; nlinarith, by rw [g5, hr]; simp [rayR]⟩
  have key : ∀ w : V3 ℝ, |w.x| ≤ 1 → |w.y| ≤ 1 → |w.z| ≤ 1 → |r.dot w| ≤ size r := by
    intro w h1 h2 h3
    simp only [V3.dot, size]
    refine (abs_add_three _ _ _).trans ?_
    rw [abs_mul, abs_mul, abs_mul]
    nlinarith [abs_nonneg r.x, abs_nonneg r.y, abs_nonneg r.z]
  fin_cases j
  · exact ⟨row_near hu hu1 he he1 r1 r2 r3 n1 n2 n3 b1 b2 b3 k1, key _ b1 b2 b3⟩
  · exact ⟨row_near hu hu1 he he1 r1 r2 r3 n4 n5 n6 b4 b5 b6 k2, key _ b4 b5 b6⟩
  · exact ⟨row_near hu hu1 he he1 r1 r2 r3 n7 n8 n9 b7 b8 b9 k3, key _ b7 b8 b9⟩

/-- The computed factor is not much smaller than the exact one. -/
theorem factor_le {u k N w z z' ea ef : ℝ} (hu1 : u ≤ 1 / 100000) (hz : z ≠ 0) (hz' : |z' - z| ≤ k * N)
    (hfar : 2 * k * N ≤ |z|) (hea : |ea - 1| ≤ u) (hef : |ef - 1| ≤ u) (hs : 0 ≤ w / z) : 3 / 5 * (w / z) ≤ w * ea / z' * ef := by
  have h4 : 0 < |z| := abs_pos.2 hz
  obtain ⟨y, hy⟩ : ∃ y, y = (z' - z) / z := ⟨_, rfl⟩
  have hy' : |y| ≤ 1 / 2 := by
    rw [hy, abs_div, div_le_iff₀ h4]
    linarith
  have ez : z' = z * (1 + y) := by rw [hy]; field_simp; ring
  have h1 := (abs_le.1 hea).1
  have h2 := (abs_le.1 hef).1
  have h3 := abs_le.1 hy'
  have h5 : 0 < 1 + y := by linarith
  have e : w * ea / z' * ef = w / z * (ea * ef / (1 + y)) := by
    rw [ez]
    field_simp
  rw [e, mul_comm (3 / 5)]
  refine mul_le_mul_of_nonneg_left ?_ hs
  rw [le_div_iff₀ h5]
  nlinarith

theorem point_near {u e N T t f s d d' m q : ℝ} (hu : 0 ≤ u) (hu1 : u ≤ 1 / 100000) (he : 0 ≤ e) (he1 : e ≤ 1 / 1000) (hN : 0 ≤ N) (hs : 0 < s)
    (hT : |t| ≤ T) (hf : 3 / 5 * s ≤ f) (hd' : |d' - d| ≤ (e + 6 * u) * N) (hd : |d| ≤ N) (hm : Rd u (d' * f) m) (hq : Rd u (m + t) q) :
    |q - t - f * d| ≤ f * ((e + 9 * u) * N + 5 / 3 * u * T / s) := by
  obtain ⟨em, hem, rfl⟩ := hm.form hu
  obtain ⟨eq, heq, rfl⟩ := hq.form hu
  have hf0 : 0 < f := by linarith
  have hg := fac_mul hem heq
  obtain ⟨g, hgg⟩ : ∃ g, g = em * eq := ⟨_, rfl⟩
  rw [← hgg] at hg
  have hg' : |g - 1| ≤ 21 / 10 * u := by nlinarith
  have e1 : (d' * f * em + t) * eq - t - f * d = f * ((d' - d) * g + d * (g - 1)) + t * (eq - 1) := by rw [hgg]; ring
  have hga : |g| ≤ 1 + 21 / 10 * u := by
    have := abs_add_le (g - 1) 1
    rw [sub_add_cancel, _root_.abs_one] at this
    linarith
  have h1 : |(d' - d) * g| ≤ (e + 6 * u) * N * (1 + 21 / 10 * u) := by
    rw [abs_mul]
    exact mul_le_mul hd' hga (abs_nonneg _) (by positivity)
  have h2 : |d * (g - 1)| ≤ N * (21 / 10 * u) := by
    rw [abs_mul]
    exact mul_le_mul hd hg' (abs_nonneg _) hN
  have h3 : |t * (eq - 1)| ≤ T * u := by
    rw [abs_mul]
    exact mul_le_mul hT heq (abs_nonneg _) ((abs_nonneg _).trans hT)
  have h4 : |(d' - d) * g + d * (g - 1)| ≤ (e + 9 * u) * N := by
    refine (abs_add_le _ _).trans ((add_le_add h1 h2).trans ?_)
    have : (e + 6 * u) * (1 + 21 / 10 * u) + 21 / 10 * u ≤ e + 9 * u := by nlinarith
    have := mul_le_mul_of_nonneg_right this hN
    linarith
  have h5 : T * u ≤ f * (5 / 3 * u * T / s) := by
    have : 0 ≤ T * u := mul_nonneg ((abs_nonneg _).trans hT) hu
    rw [← mul_div_assoc, le_div_iff₀ hs]
    nlinarith
  rw [e1]
  refine (abs_add_le _ _).trans ?_
  rw [abs_mul f, abs_of_pos hf0, mul_add]
  have := mul_le_mul_of_nonneg_left h4 hf0.le
  linarith

end Rounded

open Projection Rounded Camera in
/-- From a pixel to a plane and back: the computed point on the plane, projected again, is close to the pixel, also where the ray meets the plane at
a flat angle and the point itself is inaccurate. -/
theorem C154_plane (I : Intr) (hfx : I.fx ≠ 0) (hfy : I.fy ≠ 0) (u e : ℝ) (hu : 0 ≤ u) (hu1 : u ≤ 1 / 100000) (he1 : e ≤ 1 / 1000)
    (o : Orient) (R Rinv : M3) (hR : Near e R o.mat.R) (hRi : Near e Rinv o.mat.Rinv) (p : V2 ℝ) (i : Fin 3) (v : ℝ) (hide : Bool) (r d : V3 ℝ)
    (hr : (Projection.getRay .rectilinear I p.num).Is r)
    (hd : (Camera.getRay ⟨.rectilinear, I, o, noDistortion⟩ p.num).2.Is d)
    (hfar : 2 * (e + 6 * u) * size r < |d.get i|) (s : ℝ) (hs : s * d.get i = v - o.pos.get i) (hs0 : 6 * minDepth ≤ s)
    (hsmall : (e + 9 * u) * size r + 5 / 3 * u * size o.pos / s ≤ 1 / 30) (g : V3 Num) (hg : SpaceFromImage u I o.pos Rinv p i v g) :
    ∃ P : V3 ℝ, g.Is P ∧ ∀ out, ImageFromSpace u I o.pos R P hide out →
    ∃ w : V2 ℝ, out.Is w ∧
      |w.x - p.x| ≤ ((12 * e + 97 * u) * size r + 6 * u * size o.pos / s) * (|I.fx| + |p.x - I.cx|) + u * |I.cx| ∧
      |w.y - p.y| ≤ ((12 * e + 97 * u) * size r + 6 * u * size o.pos / s) * (|I.fy| + |p.y - I.cy|) + u * |I.cy| := by
  have he : 0 ≤ e := (abs_nonneg _).trans hR.1
  have hrr : r = rayR .rectilinear I p := hr.unique (getRay_is .rectilinear hfx hfy (V2.is_num p))
  have hdd : d = o.mat.Rinv.applyR r := hd.unique (M3.apply_is hr)
  have hmp : 0 < minDepth := by norm_num [minDepth]
  have hsp : 0 < s := by linarith
  obtain ⟨dir, a, f, hdir, ha, hf, hq⟩ := hg
  have hn := direction_near I hu hu1 he1 o Rinv hRi p dir hdir
  rw [← hrr, ← hdd] at hn
  have hS : 0 ≤ size r := size_nonneg r
  have hd0 : d.get i ≠ 0 := by
    intro h
    rw [h, abs_zero] at hfar
    have : 0 ≤ 2 * (e + 6 * u) * size r := by positivity
    linarith
  have hsq : (v - o.pos.get i) / d.get i = s := by rw [← hs]; field_simp
  obtain ⟨ea, hea, rfl⟩ := ha.form hu
  obtain ⟨ef, hef, rfl⟩ := hf.form hu
  have hle := factor_le hu1 hd0 (hn i).1 hfar.le hea hef (by rw [hsq]; exact hsp.le)
  rw [hsq] at hle
  obtain ⟨f, hff⟩ : ∃ f, f = (v - o.pos.get i) * ea / dir.get i * ef := ⟨_, rfl⟩
  rw [← hff] at hle hq
  unfold PointAt at hq
  rw [if_neg (by linarith)] at hq
  obtain ⟨m1, m2, m3, x, y, z, i1, i2, i3, i4, i5, i6, hq⟩ := hq
  have hT : ∀ j, |o.pos.get j| ≤ size o.pos := by
    intro j
    have h1 := abs_nonneg o.pos.x
    have h2 := abs_nonneg o.pos.y
    have h3 := abs_nonneg o.pos.z
    unfold size
    fin_cases j
    · show |o.pos.x| ≤ _; linarith
    · show |o.pos.y| ≤ _; linarith
    · show |o.pos.z| ≤ _; linarith
  refine ⟨⟨x, y, z⟩, hq, fun out ho => ?_⟩
  have hpt : ∀ j, |((⟨x, y, z⟩ : V3 ℝ) - o.pos).get j - f * d.get j| ≤ f * ((e + 9 * u) * size r + 5 / 3 * u * size o.pos / s) := by
    intro j
    fin_cases j
    · exact point_near hu hu1 he he1 hS hsp (hT 0) hle (hn 0).1 (hn 0).2 i1 i2
    · exact point_near hu hu1 he he1 hS hsp (hT 1) hle (hn 1).1 (hn 1).2 i3 i4
    · exact point_near hu hu1 he he1 hS hsp (hT 2) hle (hn 2).1 (hn 2).2 i5 i6
  rw [hdd, hrr] at hpt
  have hts : 0 ≤ u * size o.pos / s := div_nonneg (mul_nonneg hu (size_nonneg _)) hsp.le
  have hes : (e + 6 * u) * size r ≤ 1 / 30 := by
    have h1 : 0 ≤ u * size r := by positivity
    have e1 : 5 / 3 * u * size o.pos / s = 5 / 3 * (u * size o.pos / s) := by ring
    linarith
  rw [hrr] at hsmall hes ⊢
  obtain ⟨w, w1, w2, w3⟩ := back I hfx hfy hu hu1 he1 o R hR p hide (f := f) (by linarith) (by linarith) hes _ hpt out ho
  have fin : ∀ G : ℝ, 0 ≤ G → ((8 * e + 67 * u) * size (rayR .rectilinear I p) + 10 / 3 * ((e + 9 * u) * size (rayR .rectilinear I p) + 5 / 3 * u * size o.pos / s)) * G ≤
      ((12 * e + 97 * u) * size (rayR .rectilinear I p) + 6 * u * size o.pos / s) * G := by
    intro G hG
    refine mul_le_mul_of_nonneg_right ?_ hG
    rw [← hrr]
    have h1 : 0 ≤ e * size r := by positivity
    have e1 : 5 / 3 * u * size o.pos / s = 5 / 3 * (u * size o.pos / s) := by ring
    have e2 : 6 * u * size o.pos / s = 6 * (u * size o.pos / s) := by ring
    rw [e1, e2]
    linarith
  have f1 := fin (|I.fx| + |p.x - I.cx|) (by positivity)
  have f2 := fin (|I.fy| + |p.y - I.cy|) (by positivity)
  exact ⟨w, w1, by linarith, by linarith⟩

open Projection Rounded Camera in
/-- With doubles, matrices that are accurate up to `1000 * 2 ^ -50` and images of usual size: a pixel returns to itself up to a
thousandth of a pixel, for all points on the plane that are not much closer to the camera than the camera is to the origin. -/
theorem C154_double (I : Intr) (hfx : I.fx ≠ 0) (hfy : I.fy ≠ 0) (o : Orient) (R Rinv : M3) (hR : Near (1000 * (1 / 2 ^ 50)) R o.mat.R)
    (hRi : Near (1000 * (1 / 2 ^ 50)) Rinv o.mat.Rinv) (p : V2 ℝ) (i : Fin 3) (v : ℝ) (hide : Bool) (r d : V3 ℝ)
    (hr : (Projection.getRay .rectilinear I p.num).Is r)
    (hd : (Camera.getRay ⟨.rectilinear, I, o, noDistortion⟩ p.num).2.Is d) (hr1 : size r ≤ 10)
    (hfar : 1 / 10 ^ 10 < |d.get i|) (s : ℝ) (hs : s * d.get i = v - o.pos.get i) (hs0 : 6 * minDepth ≤ s) (hs1 : size o.pos ≤ 10 ^ 4 * s)
    (hf : |I.fx| ≤ 10 ^ 5 ∧ |I.fy| ≤ 10 ^ 5) (hcx : |I.cx| ≤ 10 ^ 5 ∧ |I.cy| ≤ 10 ^ 5)
    (hin : |p.x - I.cx| ≤ 10 ^ 5 ∧ |p.y - I.cy| ≤ 10 ^ 5) (g : V3 Num) (hg : SpaceFromImage (1 / 2 ^ 50) I o.pos Rinv p i v g) :
    ∃ P : V3 ℝ, g.Is P ∧ ∀ out, ImageFromSpace (1 / 2 ^ 50) I o.pos R P hide out →
    ∃ w : V2 ℝ, out.Is w ∧ |w.x - p.x| ≤ 1 / 10 ^ 3 ∧ |w.y - p.y| ≤ 1 / 10 ^ 3 := by
  have hmp : 0 < minDepth := by norm_num [minDepth]
  have hsp : 0 < s := by linarith
  have hq : size o.pos / s ≤ 10 ^ 4 := by rwa [div_le_iff₀ hsp]
  obtain ⟨x, hx⟩ : ∃ x, x = size o.pos / s := ⟨_, rfl⟩
  have e1 : ∀ k : ℝ, k * (1 / 2 ^ 50) * size o.pos / s = k * (1 / 2 ^ 50) * x := by intro k; rw [hx]; ring
  rw [← hx] at hq
  have h := C154_plane I hfx hfy (1 / 2 ^ 50) (1000 * (1 / 2 ^ 50)) (by norm_num) (by norm_num) (by norm_num) o R Rinv hR hRi p i v hide r d
    hr hd (by linarith) s hs hs0 (by rw [e1]; linarith) g hg
  obtain ⟨P, h1, h2⟩ := h
  refine ⟨P, h1, fun out ho => ?_⟩
  obtain ⟨w, w1, w2, w3⟩ := h2 out ho
  rw [e1] at w2 w3
  have key : ∀ {a b c : ℝ}, |a| ≤ 10 ^ 5 → |b| ≤ 10 ^ 5 → |c| ≤ 10 ^ 5 →
      ((12 * (1000 * (1 / 2 ^ 50)) + 97 * (1 / 2 ^ 50)) * size r + 6 * (1 / 2 ^ 50) * x) * (|a| + |b|) + 1 / 2 ^ 50 * |c| ≤ (1 : ℝ) / 10 ^ 3 := by
    intro a b c ha hb hc
    have h3 : (12 * (1000 * (1 / 2 ^ 50)) + 97 * (1 / 2 ^ 50)) * size r + 6 * (1 / 2 ^ 50) * x ≤ (181000 : ℝ) * (1 / 2 ^ 50) := by linarith
    have h4 := mul_le_mul_of_nonneg_right h3 (by positivity : 0 ≤ |a| + |b|)
    linarith
  exact ⟨w, w1, w2.trans (key hf.1 hin.1 hcx.1), w3.trans (key hf.2 hin.2 hcx.2)⟩

open Rounded Camera in
/-- The hypotheses can be met. -/
example : ∃ g, SpaceFromImage (1 / 2 ^ 50) ⟨100, 100, 50, 25, 100, 50⟩ exOrient.pos exOrient.mat.Rinv ⟨60, 45⟩ 2 0 g ∧
    ∃ P : V3 ℝ, g.Is P ∧ ∃ out, ImageFromSpace (1 / 2 ^ 50) ⟨100, 100, 50, 25, 100, 50⟩ exOrient.pos exOrient.mat.R P true out ∧
      ∃ w : V2 ℝ, out.Is w ∧ |w.x - 60| ≤ 1 / 10 ^ 3 := by
  obtain ⟨g, hg⟩ := SpaceFromImage.exists (u := 1 / 2 ^ 50) (by norm_num) ⟨100, 100, 50, 25, 100, 50⟩ exOrient.pos exOrient.mat.Rinv ⟨60, 45⟩ 2 0
  have hr : (Projection.getRay .rectilinear ⟨100, 100, 50, 25, 100, 50⟩ (V2.num ⟨60, 45⟩)).Is ⟨1 / 10, -(1 / 5), -1⟩ :=
    (Projection.getRay_is .rectilinear (by norm_num) (by norm_num) (V2.is_num _)).congr (by norm_num [Projection.rayR])
  have hd : (Camera.getRay ⟨.rectilinear, ⟨100, 100, 50, 25, 100, 50⟩, exOrient, noDistortion⟩ (V2.num ⟨60, 45⟩)).2.Is ⟨1 / 10, -(1 / 5), -1⟩ := by
    have h1 := M3.apply_is (A := exOrient.mat.Rinv) hr
    refine V3.Is.congr h1 ?_
    rw [exOrient_mat.2]
    simp [M3.applyR, M3.one, V3.dot]
  obtain ⟨P, hP, h2⟩ := C154_double _ (by norm_num) (by norm_num) exOrient _ _ (Near.refl (by norm_num) _) (Near.refl (by norm_num) _) _ 2 0 true _ _ hr hd
    (by norm_num [size, abs_of_nonneg, abs_of_nonpos]) (by norm_num [V3.get]) 10 (by norm_num [exOrient, Orient.pos, V3.get])
    (by norm_num [Projection.minDepth]) (by norm_num [size, exOrient, Orient.pos]) (by norm_num) (by norm_num) (by norm_num) g hg
  obtain ⟨out, ho⟩ := ImageFromSpace.exists (u := 1 / 2 ^ 50) (by norm_num) ⟨100, 100, 50, 25, 100, 50⟩ exOrient.pos exOrient.mat.R P true
  obtain ⟨w, w1, w2, -⟩ := h2 out ho
  exact ⟨g, hg, P, hP, out, ho, w, w1, w2⟩
