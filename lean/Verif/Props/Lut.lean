import Verif.Spec.Lut
import Verif.Proofs.View
import Verif.Props.Camera
import Verif.Props.Ray

/-! # Properties of `generateLUT` (C85) -/

open Classical Num Camera View

theorem Camera.shows_unique {c : Cam} {q : V2 ℝ} {Q Q' : V3 ℝ} (hs : Steep c q) (h : Shows c q Q) (h' : Shows c q Q') :
    Q = Q' := by
  obtain ⟨d, hd, hz⟩ := hs
  obtain ⟨d1, hd1, z1, t, ht, x1, y1, w1⟩ := h
  obtain ⟨d2, hd2, z2, u, hu, x2, y2, w2⟩ := h'
  have e1 := hd1.unique hd
  have e2 := hd2.unique hd
  subst e1 e2
  have : t = u := by
    have : (t - u) * d2.z = 0 := by linear_combination z1 - z2 - w1 + w2
    rcases mul_eq_zero.mp this with h | h
    · linarith
    · exact absurd h hz
  subst this
  ext
  · rw [x1, x2]
  · rw [y1, y2]
  · rw [z1, z2]

/-- The point `spaceFromImage` finds on the ground for an image point. -/
theorem Camera.ground_point {c : Cam} {q : V2 ℝ} (hs : Steep c q) :
    (∃ P Q, spaceFromImage c q.num { Z := some (fin 0) } = .ok P ∧ P.Is Q ∧ Shows c q Q) ∨
    (spaceFromImage c q.num { Z := some (fin 0) } = .ok V3.nan ∧ ¬ ∃ Q, Shows c q Q) := by
  obtain ⟨d, hd, hz⟩ := hs
  have ho := getRay_offset c q.num false
  have hf : Num.Is ((fin 0 - (getRay c q.num).1.get 2) / (getRay c q.num).2.get 2) ((0 - c.orient.pos.z) / d.z) :=
    ((is_fin 0).sub ho.2.2).div hd.2.2 hz
  have e : spaceFromImage c q.num { Z := some (fin 0) } = .ok (pointAt (getRay c q.num).1 (getRay c q.num).2
      ((fin 0 - (getRay c q.num).1.get 2) / (getRay c q.num).2.get 2)) := rfl
  rw [e]
  by_cases h : (0 - c.orient.pos.z) / d.z < 0
  · refine Or.inr ⟨by rw [pointAt_neg hf h], ?_⟩
    rintro ⟨Q, d', hd', z, t, ht, -, -, w⟩
    have := hd'.unique hd
    subst this
    have : (0 - c.orient.pos.z) / d'.z = t := by rw [div_eq_iff hz]; linarith
    linarith
  · refine Or.inl ⟨_, _, rfl, pointAt_is hd ho hf (not_lt.mp h), d, hd, ?_, _, not_lt.mp h, ?_, ?_, ?_⟩
    · show d.z * ((0 - c.orient.pos.z) / d.z) + c.orient.pos.z = 0
      field_simp; ring
    · simp; ring
    · simp; ring
    · simp; ring

theorem View.area_is {A B C D : V2 Num} {a b c d : V2 ℝ} (hA : A.Is a) (hB : B.Is b) (hC : C.Is c) (hD : D.Is d) :
    Num.Is (Ray.areaOfQuadrilateral A B C D) (|Geo.shoelace a b c d| / 2) := by
  have h := (is_fin (1 / 2)).mul (((hA.2.sub hC.2).mul (hD.1.sub hB.1)).add
    ((hB.2.sub hD.2).mul (hA.1.sub hC.1))).abs
  refine h.congr ?_
  have : (a.y - c.y) * (d.x - b.x) + (b.y - d.y) * (a.x - c.x) = Geo.shoelace a b c d := by
    unfold Geo.shoelace; ring
  rw [this]; ring

theorem View.pixel_area (c : Cam) (x y : ℝ) (v : Num) (hs : SteepPixel c x y) :
    ∃ A, squareArea c (square ⟨x, y⟩) = .ok A ∧ PixelArea c x y v (undef v A) := by
  obtain ⟨sA, sB, sC, sD⟩ := hs
  have sq : square ⟨x, y⟩ = [⟨x - 1 / 2, y - 1 / 2⟩, ⟨x + 1 / 2, y - 1 / 2⟩, ⟨x + 1 / 2, y + 1 / 2⟩,
      ⟨x - 1 / 2, y + 1 / 2⟩] := by simp [square, sub_eq_add_neg]
  have val : ∀ PA PB PC PD : V3 Num,
      spaceFromImage c (V2.num ⟨x - 1 / 2, y - 1 / 2⟩) { Z := some (fin 0) } = .ok PA →
      spaceFromImage c (V2.num ⟨x + 1 / 2, y - 1 / 2⟩) { Z := some (fin 0) } = .ok PB →
      spaceFromImage c (V2.num ⟨x + 1 / 2, y + 1 / 2⟩) { Z := some (fin 0) } = .ok PC →
      spaceFromImage c (V2.num ⟨x - 1 / 2, y + 1 / 2⟩) { Z := some (fin 0) } = .ok PD →
      squareArea c (square ⟨x, y⟩) =
        .ok (Ray.areaOfQuadrilateral ⟨PA.x, PA.y⟩ ⟨PB.x, PB.y⟩ ⟨PC.x, PC.y⟩ ⟨PD.x, PD.y⟩) := by
    intro PA PB PC PD e1 e2 e3 e4
    rw [sq]
    simp only [squareArea, List.mapM_cons, List.mapM_nil, e1, e2, e3, e4, bind, Except.bind, pure, Except.pure]
  have nanA : ∀ B C D : V2 Num, Ray.areaOfQuadrilateral ⟨nan, nan⟩ B C D = nan := by
    intro B C D; simp [Ray.areaOfQuadrilateral, Num.abs]
  have nanB : ∀ A C D : V2 Num, Ray.areaOfQuadrilateral A ⟨nan, nan⟩ C D = nan := by
    intro B C D; simp [Ray.areaOfQuadrilateral, Num.abs]
  have nanC : ∀ A B D : V2 Num, Ray.areaOfQuadrilateral A B ⟨nan, nan⟩ D = nan := by
    intro B C D; simp [Ray.areaOfQuadrilateral, Num.abs]
  have nanD : ∀ A B C : V2 Num, Ray.areaOfQuadrilateral A B C ⟨nan, nan⟩ = nan := by
    intro B C D; simp [Ray.areaOfQuadrilateral, Num.abs]
  have res : ∀ {q}, Steep c q → ∃ P, spaceFromImage c (V2.num q) { Z := some (fin 0) } = .ok P ∧
      ((∃ Q, P.Is Q ∧ Shows c q Q) ∨ (P = V3.nan ∧ ¬ ∃ Q, Shows c q Q)) := by
    intro q h
    rcases ground_point h with ⟨P, Q, h1, h2, h3⟩ | ⟨h1, h2⟩
    · exact ⟨P, h1, Or.inl ⟨Q, h2, h3⟩⟩
    · exact ⟨_, h1, Or.inr ⟨rfl, h2⟩⟩
  obtain ⟨PA, eA, rA⟩ := res sA
  obtain ⟨PB, eB, rB⟩ := res sB
  obtain ⟨PC, eC, rC⟩ := res sC
  obtain ⟨PD, eD, rD⟩ := res sD
  refine ⟨_, val _ _ _ _ eA eB eC eD, ?_⟩
  rcases rA with ⟨QA, iA, hA⟩ | ⟨rfl, hA⟩
  · rcases rB with ⟨QB, iB, hB⟩ | ⟨rfl, hB⟩
    · rcases rC with ⟨QC, iC, hC⟩ | ⟨rfl, hC⟩
      · rcases rD with ⟨QD, iD, hD⟩ | ⟨rfl, hD⟩
        · have key : Num.Is (Ray.areaOfQuadrilateral ⟨PA.x, PA.y⟩ ⟨PB.x, PB.y⟩ ⟨PC.x, PC.y⟩ ⟨PD.x, PD.y⟩)
              (groundArea QA QB QC QD) := area_is (a := ⟨QA.x, QA.y⟩) (b := ⟨QB.x, QB.y⟩) (c := ⟨QC.x, QC.y⟩)
              (d := ⟨QD.x, QD.y⟩) ⟨iA.1, iA.2.1⟩ ⟨iB.1, iB.2.1⟩ ⟨iC.1, iC.2.1⟩ ⟨iD.1, iD.2.1⟩
          refine ⟨?_, ?_⟩
          · intro A B C D a b c d
            rw [undef, if_neg key.ne_nan, shows_unique sA a hA, shows_unique sB b hB, shows_unique sC c hC,
              shows_unique sD d hD]
            exact key
          · rintro (h | h | h | h)
            · exact absurd ⟨_, hA⟩ h
            · exact absurd ⟨_, hB⟩ h
            · exact absurd ⟨_, hC⟩ h
            · exact absurd ⟨_, hD⟩ h
        · exact ⟨fun A B C D _ _ _ d => absurd ⟨D, d⟩ hD, fun _ => by
            simp only [V3.nan, nanD, undef, if_true]⟩
      · exact ⟨fun A B C D _ _ d _ => absurd ⟨C, d⟩ hC, fun _ => by
          simp only [V3.nan, nanC, undef, if_true]⟩
    · exact ⟨fun A B C D _ d _ _ => absurd ⟨B, d⟩ hB, fun _ => by
        simp only [V3.nan, nanB, undef, if_true]⟩
  · exact ⟨fun A B C D d _ _ _ => absurd ⟨A, d⟩ hA, fun _ => by
      simp only [V3.nan, nanA, undef, if_true]⟩

theorem View.squareArea_ok (c : Cam) (p : V2 ℝ) : ∃ A, squareArea c (square p) = .ok A := by
  have h : ∀ q : V2 ℝ, ∃ P, spaceFromImage c q.num { Z := some (fin 0) } = .ok P := fun q => ⟨_, rfl⟩
  choose P hP using h
  simp only [square, squareArea, List.mapM_cons, List.mapM_nil, hP, bind, Except.bind, pure, Except.pure]
  exact ⟨_, rfl⟩

/-- **C85 (partial)** The table for the whole image has one row per image row and one entry per pixel; the
entry of the pixel (x, y) is in row y and column x, and is the area the pixel covers on the ground, or the
value for undefined positions if a corner does not show the ground.  Missing: pixels with a corner whose ray
is exactly parallel to the ground. -/
theorem C85_lut_image_partial (c : Cam) (w h : ℕ) (v : Num) :
    ∃ L, lutImage c w h v = .ok L ∧ L.length = h ∧ (∀ r ∈ L, r.length = w) ∧
      ∀ x y : ℕ, x < w → y < h → SteepPixel c x y →
        ∃ r a, L[y]? = some r ∧ r[x]? = some a ∧ PixelArea c x y v a := by
  choose A hA using squareArea_ok c
  refine ⟨(List.range h).map fun (y : ℕ) => (List.range w).map fun (x : ℕ) => undef v (A ⟨x, y⟩), ?_, ?_, ?_, ?_⟩
  · unfold lutImage
    simp only [bind, Except.bind, pure, Except.pure]
    rw [mapM_ok (fun p : V2 ℝ => squareArea c (square p)) A _ fun p _ => hA p]
    simp only [List.map_flatMap, List.map_map, Function.comp_def]
    rw [reshape_flatten h w fun y x => A ⟨x, y⟩]
    simp [List.map_map, Function.comp_def]
  · simp
  · intro r hr; obtain ⟨y, -, rfl⟩ := List.mem_map.mp hr; simp
  · intro x y hx hy hs
    obtain ⟨a, h1, h2⟩ := pixel_area c x y v hs
    refine ⟨_, undef v (A ⟨x, y⟩), by rw [List.getElem?_map, List.getElem?_range hy]; rfl,
      by rw [List.getElem?_map, List.getElem?_range hx]; rfl, ?_⟩
    rw [hA] at h1
    cases h1
    exact h2

/-- **C85 (partial)** The slice has one entry per image row, for the pixel in the middle column.  Missing as
above. -/
theorem C85_lut_slice_partial (c : Cam) (v : Num) :
    ∃ L, lutSlice c v = .ok L ∧ L.length = ⌈c.intr.h⌉₊ ∧
      ∀ y : ℕ, y < ⌈c.intr.h⌉₊ → SteepPixel c (c.intr.w / 2) y →
        ∃ a, L[y]? = some a ∧ PixelArea c (c.intr.w / 2) y v a := by
  choose A hA using squareArea_ok c
  refine ⟨(List.range ⌈c.intr.h⌉₊).map fun (y : ℕ) => undef v (A ⟨c.intr.w / 2, y⟩), ?_, by simp, ?_⟩
  · unfold lutSlice
    simp only [bind, Except.bind, pure, Except.pure]
    rw [mapM_ok (fun p : V2 ℝ => squareArea c (square p)) A _ fun p _ => hA p]
    simp [List.map_map, Function.comp_def]
  · intro y hy hs
    obtain ⟨a, h1, h2⟩ := pixel_area c (c.intr.w / 2) y v hs
    refine ⟨undef v (A ⟨c.intr.w / 2, y⟩), by rw [List.getElem?_map, List.getElem?_range hy]; rfl, ?_⟩
    rw [hA] at h1
    cases h1
    exact h2

theorem Camera.triple_rot (A : M3) (hA : A.det = 1) (u v w : V3 ℝ) :
    Geo.triple (A.applyR u) (A.applyR v) (A.applyR w) = Geo.triple u v w := by
  have : Geo.triple (A.applyR u) (A.applyR v) (A.applyR w) = A.det * Geo.triple u v w := by
    simp only [Geo.triple, M3.applyR, M3.det, V3.dot, V3.cross]; ring
  rw [this, hA, one_mul]

theorem Camera.shows_camR {c : Cam} (hc : c.Proper) (hl : c.lens = noDistortion) {q : V2 ℝ} {Q : V3 ℝ} (h : Shows c q Q) :
    ∃ t, 0 ≤ t ∧ camR c Q = (Projection.rayR c.kind c.intr q).mulS t := by
  obtain ⟨d, hd, -, t, ht, h1, h2, h3⟩ := h
  have hp : (c.lens.imageFromDistorted q.num).Is q := by rw [hl]; exact V2.is_num q
  have := hd.unique (getRay_real c hc hp)
  subst this
  refine ⟨t, ht, ?_⟩
  rw [← camR_on_ray]
  congr 1
  ext
  · simp [h1]; ring
  · simp [h2]; ring
  · simp [h3]; ring

theorem Camera.area2_triple (c : Cam) {A B C : V3 ℝ} (hA : A.z = 0) (hB : B.z = 0) (hC : C.z = 0) :
    -c.orient.pos.z * Geo.area2 ⟨A.x, A.y⟩ ⟨B.x, B.y⟩ ⟨C.x, C.y⟩ = Geo.triple (camR c A) (camR c B) (camR c C) := by
  unfold camR
  rw [triple_rot _ (rigid_mat c.orient).det]
  simp only [Geo.triple, Geo.area2, V3.sub_x, V3.sub_y, V3.sub_z, hA, hB, hC]
  ring

/-- **C85** For a rectilinear camera without lens distortion the ground quadrilateral of a pixel is not folded:
both triangles cut off by a diagonal have the same orientation, so that the entry is the sum of the areas of
the two triangles. -/
theorem C85_true_area (c : Cam) (hc : c.Proper) (hl : c.lens = noDistortion) (hk : c.kind = .rectilinear) (x y : ℝ)
    (he : c.orient.pos.z ≠ 0) (A B C D : V3 ℝ) (hA : Shows c ⟨x - 1 / 2, y - 1 / 2⟩ A)
    (hB : Shows c ⟨x + 1 / 2, y - 1 / 2⟩ B) (hC : Shows c ⟨x + 1 / 2, y + 1 / 2⟩ C)
    (hD : Shows c ⟨x - 1 / 2, y + 1 / 2⟩ D) :
    groundArea A B C D = |Geo.area2 ⟨A.x, A.y⟩ ⟨B.x, B.y⟩ ⟨C.x, C.y⟩| / 2 +
      |Geo.area2 ⟨A.x, A.y⟩ ⟨C.x, C.y⟩ ⟨D.x, D.y⟩| / 2 := by
  have h1 := area2_triple c (by obtain ⟨_, _, h, _⟩ := hA; exact h) (by obtain ⟨_, _, h, _⟩ := hB; exact h)
    (by obtain ⟨_, _, h, _⟩ := hC; exact h)
  have h2 := area2_triple c (by obtain ⟨_, _, h, _⟩ := hA; exact h) (by obtain ⟨_, _, h, _⟩ := hC; exact h)
    (by obtain ⟨_, _, h, _⟩ := hD; exact h)
  obtain ⟨a, ha, eA⟩ := shows_camR hc hl hA
  obtain ⟨b, hb, eB⟩ := shows_camR hc hl hB
  obtain ⟨g, hg, eC⟩ := shows_camR hc hl hC
  obtain ⟨d, hd, eD⟩ := shows_camR hc hl hD
  rw [eA, eB, eC] at h1
  rw [eA, eC, eD] at h2
  obtain ⟨fx, fy⟩ := hc
  simp only [hk, Projection.rayR, Geo.triple, V3.mulS_x, V3.mulS_y, V3.mulS_z] at h1 h2
  set S := Geo.area2 ⟨A.x, A.y⟩ ⟨B.x, B.y⟩ ⟨C.x, C.y⟩
  set T := Geo.area2 ⟨A.x, A.y⟩ ⟨C.x, C.y⟩ ⟨D.x, D.y⟩
  have k1 : -c.orient.pos.z * S = (a * b * g) * (1 / (c.intr.fx * c.intr.fy)) := by
    rw [h1]; field_simp; ring
  have k2 : -c.orient.pos.z * T = (a * g * d) * (1 / (c.intr.fx * c.intr.fy)) := by
    rw [h2]; field_simp; ring
  have k3 : 0 ≤ S * T := by
    have e1 : c.orient.pos.z ^ 2 * (S * T) = (a * g) ^ 2 * (b * d) * (1 / (c.intr.fx * c.intr.fy)) ^ 2 := by
      calc c.orient.pos.z ^ 2 * (S * T) = (-c.orient.pos.z * S) * (-c.orient.pos.z * T) := by ring
        _ = _ := by rw [k1, k2]; ring
    have e2 : 0 ≤ c.orient.pos.z ^ 2 * (S * T) := by rw [e1]; positivity
    have e3 : 0 < c.orient.pos.z ^ 2 := by positivity
    by_contra hn
    exact absurd e2 (not_le.mpr (mul_neg_of_pos_of_neg e3 (not_le.mp hn)))
  have k4 : Geo.shoelace ⟨A.x, A.y⟩ ⟨B.x, B.y⟩ ⟨C.x, C.y⟩ ⟨D.x, D.y⟩ = S + T := by
    simp only [S, T, Geo.shoelace, Geo.area2]; ring
  unfold groundArea
  rw [k4]
  have : |S + T| = |S| + |T| := by
    rw [abs_add_eq_add_abs_iff]
    rcases mul_nonneg_iff.mp k3 with h | h
    · exact Or.inl h
    · exact Or.inr h
  rw [this]; ring

theorem Camera.exampleCam_dirR (p : V2 ℝ) : dirR exampleCam p = ⟨(p.x - 50) / 100, -((p.y - 25) / 100), -1⟩ := by
  have hw : Spatial.wrap360 0 = 0 := by simp [Spatial.wrap360]
  have hr : Spatial.rad 0 = 0 := by simp [Spatial.rad]
  ext <;> simp [dirR, exampleCam, Orient.mat, Spatial.initCameraMatrix, Spatial.matrices, hw, hr, Projection.rayR,
    M3.applyR, V3.dot, Spatial.rotation, M3.mul, M3.rowMul, M3.T, Spatial.R_roll, Spatial.R_tilt, Spatial.R_head]

theorem Camera.exampleCam_steep (q : V2 ℝ) : Steep exampleCam q :=
  ⟨_, getRay_real exampleCam exampleCam_proper (V2.is_num q), by rw [exampleCam_dirR]; simp⟩

theorem Camera.exampleCam_shows (q : V2 ℝ) : Shows exampleCam q ⟨(q.x - 50) / 10, -((q.y - 25) / 10), 0⟩ := by
  refine ⟨_, getRay_real exampleCam exampleCam_proper (V2.is_num q), rfl, 10, by norm_num, ?_, ?_, ?_⟩ <;>
    rw [exampleCam_dirR] <;> simp [exampleCam, Orient.pos] <;> ring

example : ∃ L, lutImage exampleCam 100 50 (fin 0) = .ok L ∧ ∃ r a, L[7]? = some r ∧ r[3]? = some a ∧
    PixelArea exampleCam (3 : ℕ) (7 : ℕ) (fin 0) a := by
  obtain ⟨L, h1, -, -, h2⟩ := C85_lut_image_partial exampleCam 100 50 (fin 0)
  exact ⟨L, h1, h2 3 7 (by norm_num) (by norm_num) ⟨exampleCam_steep _, exampleCam_steep _, exampleCam_steep _,
    exampleCam_steep _⟩⟩

example : ∃ A B C D, groundArea A B C D = |Geo.area2 ⟨A.x, A.y⟩ ⟨B.x, B.y⟩ ⟨C.x, C.y⟩| / 2 +
      |Geo.area2 ⟨A.x, A.y⟩ ⟨C.x, C.y⟩ ⟨D.x, D.y⟩| / 2 :=
  ⟨_, _, _, _, C85_true_area exampleCam exampleCam_proper rfl rfl 3 7 (by simp [exampleCam, Orient.pos])
    _ _ _ _ (exampleCam_shows _) (exampleCam_shows _) (exampleCam_shows _) (exampleCam_shows _)⟩
