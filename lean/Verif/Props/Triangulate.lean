import Verif.Props.Stereo
import Verif.Props.Lines
import Verif.Props.Epipolar

/-! # How far errors in the images move a triangulated point: C172 -/

open Classical Num Camera Stereo Projection

/-- The cosine of the angle between two lines, without sign. -/
noncomputable def Triangle.cosine (V W : V3 ℝ) : ℝ := |V.dot W| / (V.norm * W.norm)

/-- The projections of a vector onto two directions. -/
theorem Triangle.shadow {y V W : V3 ℝ} (hV : 0 < V.norm) (hW : 0 < W.norm) :
    (y.dot V) ^ 2 / V.normSq + (y.dot W) ^ 2 / W.normSq ≤ (1 + Triangle.cosine V W) * y.normSq := by
  have a := V3.norm_sq V
  have b := V3.norm_sq W
  rw [← a, ← b]
  set N := V.norm
  set M := W.norm
  set p := y.dot V / N with hp
  set q := y.dot W / M with hq
  set g := V.dot W / (N * M) with hg
  have hγ : Triangle.cosine V W = |g| := by
    unfold Triangle.cosine; rw [hg, abs_div, abs_of_pos (mul_pos hV hW)]
  have hS : (y.dot V) ^ 2 / N ^ 2 + (y.dot W) ^ 2 / M ^ 2 = p ^ 2 + q ^ 2 := by rw [hp, hq, div_pow, div_pow]
  rw [hγ, hS]
  set k := 1 + |g| with hk
  have hk0 : 0 < k := by positivity
  have key : 0 ≤ (y - (V.mulS (p / N) + W.mulS (q / M)).mulS (1 / k)).normSq := by
    simp only [V3.normSq]; positivity
  have ex : (y - (V.mulS (p / N) + W.mulS (q / M)).mulS (1 / k)).normSq
      = y.normSq - 2 * (1 / k) * (p / N * y.dot V + q / M * y.dot W)
        + (1 / k) ^ 2 * ((p / N) ^ 2 * V.normSq + (q / M) ^ 2 * W.normSq + 2 * (p / N) * (q / M) * V.dot W) := by
    simp only [V3.normSq, V3.dot, V3.sub_x, V3.sub_y, V3.sub_z, V3.mulS_x, V3.mulS_y, V3.mulS_z, V3.add_x, V3.add_y, V3.add_z]; ring
  have e1 : p / N * y.dot V = p ^ 2 := by rw [hp]; field_simp
  have e2 : q / M * y.dot W = q ^ 2 := by rw [hq]; field_simp
  have e3 : (p / N) ^ 2 * V.normSq = p ^ 2 := by rw [← a]; field_simp
  have e4 : (q / M) ^ 2 * W.normSq = q ^ 2 := by rw [← b]; field_simp
  have e5 : 2 * (p / N) * (q / M) * V.dot W = 2 * p * q * g := by rw [hg]; field_simp
  rw [ex, e1, e2, e3, e4, e5] at key
  have h6 : p ^ 2 + q ^ 2 + 2 * p * q * g ≤ k * (p ^ 2 + q ^ 2) := by
    have h7 : 2 * p * q * g ≤ |2 * p * q| * |g| := by rw [← abs_mul]; exact le_abs_self _
    have h8 : |2 * p * q| ≤ p ^ 2 + q ^ 2 := abs_le.2 ⟨by nlinarith [sq_nonneg (p + q)], by nlinarith [sq_nonneg (p - q)]⟩
    nlinarith [mul_le_mul_of_nonneg_right h8 (abs_nonneg g)]
  have h9 : (1 / k) ^ 2 * (p ^ 2 + q ^ 2 + 2 * p * q * g) ≤ (1 / k) * (p ^ 2 + q ^ 2) := by
    calc (1 / k) ^ 2 * (p ^ 2 + q ^ 2 + 2 * p * q * g) ≤ (1 / k) ^ 2 * (k * (p ^ 2 + q ^ 2)) :=
          mul_le_mul_of_nonneg_left h6 (by positivity)
      _ = (1 / k) * (p ^ 2 + q ^ 2) := by field_simp
  have h10 : (1 / k) * (p ^ 2 + q ^ 2) ≤ y.normSq := by linarith
  rw [one_div, inv_mul_le_iff₀ hk0] at h10
  exact h10

/-- No point of a line is nearer than the foot of the perpendicular. -/
theorem Triangle.beyond {V : V3 ℝ} (hV : 0 < V.norm) (z : V3 ℝ) (r : ℝ) :
    z.normSq - (z.dot V) ^ 2 / V.normSq ≤ (z - V.mulS r).normSq := by
  have a : 0 < V.normSq := by rw [← V3.norm_sq]; positivity
  have e : (z - V.mulS r).normSq - (z.normSq - (z.dot V) ^ 2 / V.normSq) = V.normSq * (r - z.dot V / V.normSq) ^ 2 := by
    have : (z - V.mulS r).normSq = z.normSq - 2 * r * z.dot V + r ^ 2 * V.normSq := by simp [V3.normSq, V3.dot]; ring
    rw [this]; field_simp; ring
  nlinarith [mul_nonneg a.le (sq_nonneg (r - z.dot V / V.normSq))]

theorem Triangle.perp {m V : V3 ℝ} (hV : 0 < V.norm) (h : ∀ r : ℝ, m.normSq ≤ (m + V.mulS r).normSq) : m.dot V = 0 := by
  have a : 0 < V.normSq := by rw [← V3.norm_sq]; positivity
  have h1 := h (-(m.dot V) / V.normSq)
  have e : (m + V.mulS (-(m.dot V) / V.normSq)).normSq = m.normSq - (m.dot V) ^ 2 / V.normSq := by
    have : ∀ r, (m + V.mulS r).normSq = m.normSq + 2 * r * m.dot V + r ^ 2 * V.normSq := by
      intro r; simp [V3.normSq, V3.dot]; ring
    rw [this]; field_simp; ring
  rw [e] at h1
  have h2 : (m.dot V) ^ 2 / V.normSq ≤ 0 := by linarith
  by_contra h3
  have : 0 < (m.dot V) ^ 2 / V.normSq := by positivity
  linarith

/-- The bound for points and directions that may have negative zeros. -/
theorem Triangle.lines {p1 v1 p2 v2 : V3 Num} {P1 V1 P2 V2 : V3 ℝ} (hp1 : p1.Is P1) (hv1 : v1.Is V1)
    (hp2 : p2.Is P2) (hv2 : v2.Is V2) (h : V1.cross V2 ≠ ⟨0, 0, 0⟩) :
    ∃ Y, (Ray.intersectionSingle p1 v1 p2 v2).Is Y ∧ ∀ X r1 r2,
      (1 - Triangle.cosine V1 V2) * V3.dist Y X ^ 2 ≤ V3.dist X (Geo.at' P1 V1 r1) ^ 2 + V3.dist X (Geo.at' P2 V2 r2) ^ 2 := by
  obtain ⟨s, t, hmin, hY, -⟩ := Ray.intersection_spec hp1 hv1 hp2 hv2 h
  have n1 : 0 < V1.norm := V3.norm_pos fun h0 => h (by rw [h0]; simp [V3.cross])
  have n2 : 0 < V2.norm := V3.norm_pos fun h0 => h (by rw [h0]; simp [V3.cross])
  refine ⟨_, hY, fun X r1 r2 => ?_⟩
  set A := Geo.at' P1 V1 s with hA
  set B := Geo.at' P2 V2 t with hB
  have o1 : (A - B).dot V1 = 0 := by
    refine Triangle.perp n1 fun r => V3.norm_le_iff.1 ?_
    have := hmin (s + r) t
    unfold V3.dist at this
    convert this using 2
    ext <;> simp [hA, hB, Geo.at'] <;> ring
  have o2 : (A - B).dot V2 = 0 := by
    refine Triangle.perp n2 fun r => V3.norm_le_iff.1 ?_
    have := hmin s (t - r)
    unfold V3.dist at this
    convert this using 2
    ext <;> simp [hA, hB, Geo.at'] <;> ring
  unfold V3.dist
  rw [V3.norm_sq, V3.norm_sq, V3.norm_sq]
  have b1 := Triangle.beyond n1 (X - A) (r1 - s)
  have b2 := Triangle.beyond n2 (X - B) (r2 - t)
  have e1 : X - A - V1.mulS (r1 - s) = X - Geo.at' P1 V1 r1 := by ext <;> simp [hA, Geo.at'] <;> ring
  have e2 : X - B - V2.mulS (r2 - t) = X - Geo.at' P2 V2 r2 := by ext <;> simp [hB, Geo.at'] <;> ring
  rw [e1] at b1
  rw [e2] at b2
  set M := (A + B).divS 2 with hM
  have d1 : (X - A).dot V1 = -(M - X).dot V1 := by
    have : (X - A).dot V1 = -(M - X).dot V1 - (A - B).dot V1 / 2 := by simp [V3.dot, hM]; ring
    rw [this, o1]; ring
  have d2 : (X - B).dot V2 = -(M - X).dot V2 := by
    have : (X - B).dot V2 = -(M - X).dot V2 + (A - B).dot V2 / 2 := by simp [V3.dot, hM]; ring
    rw [this, o2]; ring
  have sum : (X - A).normSq + (X - B).normSq = 2 * (M - X).normSq + (A - B).normSq / 2 := by
    simp [V3.normSq, hM]; ring
  have pos : 0 ≤ (A - B).normSq := by simp only [V3.normSq]; positivity
  rw [d1, neg_sq] at b1
  rw [d2, neg_sq] at b2
  have := Triangle.shadow (y := M - X) n1 n2
  linarith

/-- **C172** The point found for two lines that are not parallel is near every point that is near both lines: its squared
distance times 1 minus the cosine of the angle of the lines is at most the sum of the squared distances to any points of
the lines. -/
theorem C172_lines (P1 V1 P2 V2 : V3 ℝ) (h : V1.cross V2 ≠ ⟨0, 0, 0⟩) :
    ∃ Y, (Ray.intersectionSingle P1.num V1.num P2.num V2.num).Is Y ∧ ∀ X R1 R2, Geo.OnLine P1 V1 R1 → Geo.OnLine P2 V2 R2 →
      (1 - |V1.dot V2| / (V1.norm * V2.norm)) * V3.dist Y X ^ 2 ≤ V3.dist X R1 ^ 2 + V3.dist X R2 ^ 2 := by
  obtain ⟨Y, hY, hX⟩ := Triangle.lines (V3.is_num P1) (V3.is_num V1) (V3.is_num P2) (V3.is_num V2) h
  refine ⟨Y, hY, ?_⟩
  rintro X R1 R2 ⟨r1, x1, y1, z1⟩ ⟨r2, x2, y2, z2⟩
  have e1 : Geo.at' P1 V1 r1 = R1 := by ext <;> simp [Geo.at', *]
  have e2 : Geo.at' P2 V2 r2 = R2 := by ext <;> simp [Geo.at', *]
  rw [← e1, ← e2]
  exact hX X r1 r2

/-- **C172** The bound is best possible: for every two lines through a point that are not parallel there is another point
and points of the lines for which it is an equality. -/
theorem C172_sharp (P V1 V2 : V3 ℝ) (h : V1.cross V2 ≠ ⟨0, 0, 0⟩) :
    (Ray.intersectionSingle P.num V1.num P.num V2.num).Is P ∧ ∃ X R1 R2, X ≠ P ∧ Geo.OnLine P V1 R1 ∧ Geo.OnLine P V2 R2 ∧
      (1 - |V1.dot V2| / (V1.norm * V2.norm)) * V3.dist P X ^ 2 = V3.dist X R1 ^ 2 + V3.dist X R2 ^ 2 := by
  have n1 : 0 < V1.norm := V3.norm_pos fun h0 => h (by rw [h0]; simp [V3.cross])
  have n2 : 0 < V2.norm := V3.norm_pos fun h0 => h (by rw [h0]; simp [V3.cross])
  refine ⟨?_, ?_⟩
  · obtain ⟨s, t, -, -, h3⟩ := (C31_intersection_of_two_lines P V1 P V2).1 h
    exact h3 P ⟨0, by simp, by simp, by simp⟩ ⟨0, by simp, by simp, by simp⟩
  have a := V3.norm_sq V1
  have b := V3.norm_sq V2
  set N := V1.norm
  set M := V2.norm
  set g := V1.dot V2 / (N * M) with hg
  have hγ : |V1.dot V2| / (N * M) = |g| := by rw [hg, abs_div, abs_of_pos (mul_pos n1 n2)]
  have hgd : V1.dot V2 = g * (N * M) := by rw [hg]; field_simp
  obtain ⟨σ, hσ, hσg⟩ : ∃ σ : ℝ, σ ^ 2 = 1 ∧ σ * g = |g| := by
    rcases le_total 0 g with h0 | h0
    · exact ⟨1, by norm_num, by rw [abs_of_nonneg h0, one_mul]⟩
    · exact ⟨-1, by norm_num, by rw [abs_of_nonpos h0]; ring⟩
  have hgσ : g = σ * |g| := by rw [← hσg]; linear_combination (-g) * hσ
  set k := 1 + |g| with hk
  have hk0 : 0 < k := by positivity
  set y := V1.mulS (1 / N) + V2.mulS (σ / M) with hy
  have comb : ∀ α β : ℝ, (V1.mulS α + V2.mulS β).normSq = α ^ 2 * V1.normSq + β ^ 2 * V2.normSq + 2 * α * β * V1.dot V2 := by
    intro α β
    simp only [V3.normSq, V3.dot, V3.mulS_x, V3.mulS_y, V3.mulS_z, V3.add_x, V3.add_y, V3.add_z]; ring
  have hyn : y.normSq = 2 * k := by
    rw [hy, comb, ← a, ← b, hgd]
    have : (1 / N) ^ 2 * N ^ 2 + (σ / M) ^ 2 * M ^ 2 + 2 * (1 / N) * (σ / M) * (g * (N * M)) = 1 + σ ^ 2 + 2 * (σ * g) := by
      field_simp
    rw [this, hσ, hσg, hk]; ring
  have r1 : (y - V1.mulS (k / N)).normSq = k * (1 - |g|) := by
    have e : y - V1.mulS (k / N) = V1.mulS (1 / N - k / N) + V2.mulS (σ / M) := by ext <;> simp [hy] <;> ring
    rw [e, comb, ← a, ← b, hgd]
    have : (1 / N - k / N) ^ 2 * N ^ 2 + (σ / M) ^ 2 * M ^ 2 + 2 * (1 / N - k / N) * (σ / M) * (g * (N * M))
        = (1 - k) ^ 2 + σ ^ 2 + 2 * (1 - k) * (σ * g) := by
      field_simp
    rw [this, hσ, hσg, hk]; ring
  have r2 : (y - V2.mulS (σ * k / M)).normSq = k * (1 - |g|) := by
    have e : y - V2.mulS (σ * k / M) = V1.mulS (1 / N) + V2.mulS (σ / M - σ * k / M) := by ext <;> simp [hy] <;> ring
    rw [e, comb, ← a, ← b, hgd]
    have : (1 / N) ^ 2 * N ^ 2 + (σ / M - σ * k / M) ^ 2 * M ^ 2 + 2 * (1 / N) * (σ / M - σ * k / M) * (g * (N * M))
        = 1 + σ ^ 2 * (1 - k) ^ 2 + 2 * (1 - k) * (σ * g) := by
      field_simp
    rw [this, hσ, hσg, hk]; ring
  refine ⟨P + y, P + V1.mulS (k / N), P + V2.mulS (σ * k / M), ?_, ⟨k / N, by simp [mul_comm], by simp [mul_comm], by simp [mul_comm]⟩,
    ⟨σ * k / M, by simp [mul_comm], by simp [mul_comm], by simp [mul_comm]⟩, ?_⟩
  · intro h0
    have : y = ⟨0, 0, 0⟩ := by
      ext
      · simpa using congrArg V3.x h0
      · simpa using congrArg V3.y h0
      · simpa using congrArg V3.z h0
    rw [this] at hyn
    simp [V3.normSq] at hyn
    linarith
  · unfold V3.dist
    rw [V3.norm_sq, V3.norm_sq, V3.norm_sq, hγ]
    have e0 : (P - (P + y)).normSq = y.normSq := by simp [V3.normSq]
    have e1 : P + y - (P + V1.mulS (k / N)) = y - V1.mulS (k / N) := by ext <;> simp
    have e2 : P + y - (P + V2.mulS (σ * k / M)) = y - V2.mulS (σ * k / M) := by ext <;> simp
    rw [e0, e1, e2, hyn, r1, r2]; ring

/-- The point of the ray of a pixel beside the image of a point, at the depth of the point. -/
theorem Triangle.beside (c : Cam) (hk : c.kind = .rectilinear) (hl : c.lens = noDistortion) (hfx : c.intr.fx ≠ 0) (hfy : c.intr.fy ≠ 0)
    (X : V3 ℝ) {p : V2 ℝ} {hide : Bool} (hp : (imageFromSpace c X.num hide).Is p) (q : V2 ℝ) :
    ∃ d, (getRay c q.num).2.Is d ∧
      V3.dist X (Geo.at' c.orient.pos d (-(camR c X).z)) ^ 2
        = (camR c X).z ^ 2 * (((q.x - p.x) / c.intr.fx) ^ 2 + ((q.y - p.y) / c.intr.fy) ^ 2) := by
  obtain ⟨-, -, hz, rfl⟩ := Lines.image_inv c hk hl X hide hp
  have hq : (c.lens.imageFromDistorted q.num).Is q := by rw [hl]; exact V2.is_num q
  obtain ⟨s, -, hs, -, hd⟩ := getRay_dir c hfx hfy hq false
  rw [hs rfl] at hd
  refine ⟨_, hd, ?_⟩
  have e : V3.dist X (Geo.at' c.orient.pos ((dirR c q).mulS 1) (-(camR c X).z)) ^ 2
      = (camR c X - (rayR c.kind c.intr q).mulS (-(camR c X).z)).normSq := by
    unfold V3.dist
    rw [V3.norm_sq, ← camR_on_ray c q, ← M3.normSq_applyR (A := c.orient.mat.R) (rigid_mat c.orient).TR]
    congr 1
    unfold camR
    rw [← M3.applyR_sub]
    congr 1
    ext <;> simp [Geo.at'] <;> ring
  rw [e]
  set Q := camR c X
  rw [hk]
  simp only [rayR, V3.normSq, V3.sub_x, V3.sub_y, V3.sub_z, V3.mulS_x, V3.mulS_y, V3.mulS_z]
  field_simp
  ring

/-- **C172** Triangulation from images that are not exact: for two rectilinear cameras without distortion, a point `X`
with the images `p1` and `p2` and any pixels `q1` and `q2` whose rays are not parallel, the triangulated point `Y` satisfies
(1 - |cos|)·|Y - X|² ≤ z1²·((Δx1/fx1)² + (Δy1/fy1)²) + z2²·((Δx2/fx2)² + (Δy2/fy2)²) with the depths z1, z2 of `X` in the
two cameras and the angle of the two rays. -/
theorem C172_stereo (c1 c2 : Cam) (k1 : c1.kind = .rectilinear) (k2 : c2.kind = .rectilinear) (l1 : c1.lens = noDistortion)
    (l2 : c2.lens = noDistortion) (fx1 : c1.intr.fx ≠ 0) (fy1 : c1.intr.fy ≠ 0) (fx2 : c2.intr.fx ≠ 0) (fy2 : c2.intr.fy ≠ 0)
    (X : V3 ℝ) {p1 p2 : V2 ℝ} (hp1 : (imageFromSpace c1 X.num).Is p1) (hp2 : (imageFromSpace c2 X.num).Is p2) (q1 q2 : V2 ℝ)
    {C1 C2 d1 d2 : V3 ℝ} (hC1 : (Spatial.cameraFromSpace c1.orient.mat X.num).Is C1)
    (hC2 : (Spatial.cameraFromSpace c2.orient.mat X.num).Is C2)
    (hd1 : (getRay c1 q1.num).2.Is d1) (hd2 : (getRay c2 q2.num).2.Is d2) (hd : d1.cross d2 ≠ ⟨0, 0, 0⟩) :
    ∃ Y, (spaceFromImages c1 c2 q1.num q2.num).Is Y ∧
      (1 - |d1.dot d2| / (d1.norm * d2.norm)) * V3.dist Y X ^ 2
        ≤ C1.z ^ 2 * (((q1.x - p1.x) / c1.intr.fx) ^ 2 + ((q1.y - p1.y) / c1.intr.fy) ^ 2)
          + C2.z ^ 2 * (((q2.x - p2.x) / c2.intr.fx) ^ 2 + ((q2.y - p2.y) / c2.intr.fy) ^ 2) := by
  obtain ⟨Y, hY, hX⟩ := Triangle.lines (getRay_offset c1 q1.num false) hd1 (getRay_offset c2 q2.num false) hd2 hd
  refine ⟨Y, hY, ?_⟩
  obtain ⟨e1, i1, j1⟩ := Triangle.beside c1 k1 l1 fx1 fy1 X hp1 q1
  obtain ⟨e2, i2, j2⟩ := Triangle.beside c2 k2 l2 fx2 fy2 X hp2 q2
  cases i1.unique hd1
  cases i2.unique hd2
  rw [hC1.unique (cameraFromSpace_is c1 (V3.is_num X)), hC2.unique (cameraFromSpace_is c2 (V3.is_num X)), ← j1, ← j2]
  exact hX X _ _

/-- The hypotheses can be met: two cameras looking down, the point (1, 2, 3) and the pixels (50, 25) and (60, 25). -/
example : ∃ p1 p2 : V2 ℝ, ∃ C1 C2 d1 d2 : V3 ℝ, (imageFromSpace exampleCam (V3.num ⟨1, 2, 3⟩)).Is p1 ∧
    (imageFromSpace exampleCam2 (V3.num ⟨1, 2, 3⟩)).Is p2 ∧ (Spatial.cameraFromSpace exampleCam.orient.mat (V3.num ⟨1, 2, 3⟩)).Is C1 ∧
    (Spatial.cameraFromSpace exampleCam2.orient.mat (V3.num ⟨1, 2, 3⟩)).Is C2 ∧ (getRay exampleCam (V2.num ⟨50, 25⟩)).2.Is d1 ∧
    (getRay exampleCam2 (V2.num ⟨60, 25⟩)).2.Is d2 ∧ d1.cross d2 ≠ ⟨0, 0, 0⟩ := by
  have i1 := Lines.image_of exampleCam rfl rfl ⟨1, 2, 3⟩ true (by rw [exampleCam_camR]; norm_num [minDepth]) (fun _ => by rw [exampleCam_camR]; norm_num)
  have i2 := Lines.image_of exampleCam2 rfl rfl ⟨1, 2, 3⟩ true (by rw [exampleCam2_camR]; norm_num [minDepth]) (fun _ => by rw [exampleCam2_camR]; norm_num)
  have h1 := getRay_real exampleCam exampleCam_proper (n := V2.num ⟨50, 25⟩) (p := ⟨50, 25⟩) (V2.is_num _)
  have h2 := getRay_real exampleCam2 (by constructor <;> simp [exampleCam2]) (n := V2.num ⟨60, 25⟩) (p := ⟨60, 25⟩) (V2.is_num _)
  have e2 : dirR exampleCam2 ⟨60, 25⟩ = ⟨1 / 10, 0, -1⟩ := by
    have h := camR_on_ray exampleCam2 ⟨60, 25⟩ 1
    rw [exampleCam2_camR] at h
    have hx := congrArg V3.x h
    have hy := congrArg V3.y h
    have hz := congrArg V3.z h
    simp [exampleCam2, Projection.rayR, Orient.pos] at hx hy hz
    ext <;> simp only [exampleCam2]
    · rw [hx]; norm_num
    · exact hy
    · exact hz
  rw [example_dir] at h1
  rw [e2] at h2
  refine ⟨_, _, _, _, _, _, i1, i2, cameraFromSpace_is _ (V3.is_num _), cameraFromSpace_is _ (V3.is_num _), h1, h2, fun h => ?_⟩
  have := congrArg V3.y h
  norm_num [V3.cross] at this
