import Verif.Props.Lut

/-! # The area of pixels with a corner exactly on the horizon (C85) -/

open Classical Num Camera View

namespace Num

theorem not_finite_add {x y : Num} (h : ¬ Finite x ∨ ¬ Finite y) : ¬ Finite (x + y) := by
  rintro ⟨r, hr⟩
  cases x <;> cases y <;> simp_all [Finite, HAdd.hAdd, Add.add, Num.add]

theorem not_finite_neg {x : Num} (h : ¬ Finite x) : ¬ Finite (-x) := by
  rintro ⟨r, hr⟩
  have := hr.neg
  cases x <;> simp_all [Finite, Neg.neg, Num.neg]

theorem not_finite_sub {x y : Num} (h : ¬ Finite x ∨ ¬ Finite y) : ¬ Finite (x - y) := by
  rcases h with h | h
  · exact not_finite_add (Or.inl h)
  · exact not_finite_add (Or.inr (not_finite_neg h))

theorem not_finite_iff {x : Num} : ¬ Finite x ↔ x = nan ∨ IsInf x := by
  cases x <;> simp [Finite, IsInf]

theorem not_finite_mul {x y : Num} (h : ¬ Finite x ∨ ¬ Finite y) : ¬ Finite (x * y) := by
  rw [not_finite_iff, not_finite_iff] at h
  show ¬ Finite (Num.mul x y)
  unfold Num.mul
  split_ifs with h1 h2 h3
  · exact not_finite_nan
  · exact not_finite_nan
  · unfold signedInf
    split_ifs
    · exact not_finite_ninf
    · exact not_finite_pinf
  · tauto

end Num

namespace View

/-- The ray of the image point is exactly parallel to the ground. -/
def Parallel (c : Cam) (q : V2 ℝ) : Prop := ∃ d, (getRay c q.num).2.Is d ∧ d.z = 0

/-- An image point on the horizon gives a point that is infinite or nan in x and in y. -/
theorem parallel_point {c : Cam} {q : V2 ℝ} (h : Parallel c q) :
    ∃ P, spaceFromImage c q.num { Z := some (fin 0) } = .ok P ∧ ¬ Finite P.x ∧ ¬ Finite P.y := by
  obtain ⟨d, hd, hz⟩ := h
  have ho := getRay_offset c q.num false
  refine ⟨pointAt (getRay c q.num).1 (getRay c q.num).2 ((fin 0 - (getRay c q.num).1.get 2) / (getRay c q.num).2.get 2), rfl, ?_⟩
  have hf : ¬ Finite ((fin 0 - (getRay c q.num).1.get 2) / (getRay c q.num).2.get 2) := by
    have h0 : Num.Is (fin 0 - (getRay c q.num).1.get 2) (0 - c.orient.pos.z) := (is_fin 0).sub ho.2.2
    have h1 : Num.Is ((getRay c q.num).2.get 2) 0 := hz ▸ hd.2.2
    rw [not_finite_iff]
    by_cases he : 0 - c.orient.pos.z = 0
    · rw [he] at h0; exact Or.inl (zero_div_zero h0 h1)
    · exact Or.inr (div_zero_inf h0 he h1)
  unfold pointAt
  split_ifs
  · exact ⟨not_finite_nan, not_finite_nan⟩
  · exact ⟨not_finite_add (Or.inl (not_finite_mul (Or.inr hf))), not_finite_add (Or.inl (not_finite_mul (Or.inr hf)))⟩

theorem area_not_finite {A B C D : V2 Num} (h : (¬ Finite A.y ∨ ¬ Finite C.y) ∨ (¬ Finite D.x ∨ ¬ Finite B.x)) :
    Ray.areaOfQuadrilateral A B C D = nan ∨ Ray.areaOfQuadrilateral A B C D = pinf := by
  unfold Ray.areaOfQuadrilateral
  have h1 : ¬ Finite ((A.y - C.y) * (D.x - B.x) + (B.y - D.y) * (A.x - C.x)) := by
    apply not_finite_add
    left
    apply not_finite_mul
    rcases h with h | h
    · exact Or.inl (not_finite_sub h)
    · exact Or.inr (not_finite_sub h)
  rw [not_finite_iff] at h1
  have h2 : Num.abs ((A.y - C.y) * (D.x - B.x) + (B.y - D.y) * (A.x - C.x)) = nan ∨
      Num.abs ((A.y - C.y) * (D.x - B.x) + (B.y - D.y) * (A.x - C.x)) = pinf := by
    rcases h1 with h1 | h1
    · rw [h1]; exact Or.inl rfl
    · revert h1
      cases ((A.y - C.y) * (D.x - B.x) + (B.y - D.y) * (A.x - C.x)) <;> simp [IsInf, Num.abs]
  rcases h2 with h2 | h2
  · left; rw [h2, mul_nan]
  · right
    rw [h2]
    show Num.mul (fin (1 / 2)) pinf = pinf
    simp [Num.mul, IsInf, IsZero, signedInf, signbit]

/-- A pixel with a corner on the horizon has no finite entry. -/
theorem pixel_parallel (c : Cam) (x y : ℝ) (v : Num)
    (h : Parallel c ⟨x - 1 / 2, y - 1 / 2⟩ ∨ Parallel c ⟨x + 1 / 2, y - 1 / 2⟩ ∨ Parallel c ⟨x + 1 / 2, y + 1 / 2⟩ ∨ Parallel c ⟨x - 1 / 2, y + 1 / 2⟩) :
    ∃ A, squareArea c (square ⟨x, y⟩) = .ok A ∧ (undef v A = v ∨ undef v A = pinf) := by
  have sq : square ⟨x, y⟩ = [⟨x - 1 / 2, y - 1 / 2⟩, ⟨x + 1 / 2, y - 1 / 2⟩, ⟨x + 1 / 2, y + 1 / 2⟩,
      ⟨x - 1 / 2, y + 1 / 2⟩] := by simp [square, sub_eq_add_neg]
  have hok : ∀ q : V2 ℝ, ∃ P, spaceFromImage c q.num { Z := some (fin 0) } = .ok P := fun q => ⟨_, rfl⟩
  choose P hP using hok
  have hn : ∀ q, Parallel c q → ¬ Finite (P q).x ∧ ¬ Finite (P q).y := by
    intro q hq
    obtain ⟨Q, h1, h2⟩ := parallel_point hq
    rw [hP] at h1
    cases h1
    exact h2
  refine ⟨_, by rw [sq]; simp only [squareArea, List.mapM_cons, List.mapM_nil, hP, bind, Except.bind, pure, Except.pure]; rfl, ?_⟩
  have key : ∀ a, a = nan ∨ a = pinf → undef v a = v ∨ undef v a = pinf := by
    rintro a (rfl | rfl)
    · exact Or.inl (by simp [undef])
    · exact Or.inr (by simp [undef])
  apply key
  apply area_not_finite
  rcases h with h | h | h | h
  · exact Or.inl (Or.inl (hn _ h).2)
  · exact Or.inr (Or.inr (hn _ h).1)
  · exact Or.inl (Or.inr (hn _ h).2)
  · exact Or.inr (Or.inl (hn _ h).1)

/-- Some corner of the pixel is exactly on the horizon. -/
def ParallelPixel (c : Cam) (x y : ℝ) : Prop :=
  Parallel c ⟨x - 1 / 2, y - 1 / 2⟩ ∨ Parallel c ⟨x + 1 / 2, y - 1 / 2⟩ ∨ Parallel c ⟨x + 1 / 2, y + 1 / 2⟩ ∨ Parallel c ⟨x - 1 / 2, y + 1 / 2⟩

end View

/-- **C85** A pixel with a corner whose ray is exactly parallel to the ground gets the value for undefined positions or infinity, never a
finite area; if the camera is not itself on the ground, such a corner shows no point of the ground.  Missing: which of the two (it
depends on the sign of a zero). -/
theorem C85_parallel_partial (c : Cam) (w h : ℕ) (v : Num) :
    (∀ q, Parallel c q → c.orient.pos.z ≠ 0 → ¬ ∃ Q, Shows c q Q) ∧
    (∃ L, lutImage c w h v = .ok L ∧ ∀ x y : ℕ, x < w → y < h → ParallelPixel c x y →
      ∃ r a, L[y]? = some r ∧ r[x]? = some a ∧ (a = v ∨ a = pinf)) ∧
    ∃ L, lutSlice c v = .ok L ∧ ∀ y : ℕ, y < ⌈c.intr.h⌉₊ → ParallelPixel c (c.intr.w / 2) y → ∃ a, L[y]? = some a ∧ (a = v ∨ a = pinf) := by
  choose A hA using squareArea_ok c
  refine ⟨?_, ⟨(List.range h).map fun (y : ℕ) => (List.range w).map fun (x : ℕ) => undef v (A ⟨x, y⟩), ?_, ?_⟩,
    (List.range ⌈c.intr.h⌉₊).map fun (y : ℕ) => undef v (A ⟨c.intr.w / 2, y⟩), ?_, ?_⟩
  · rintro q ⟨d, hd, hz⟩ hc ⟨Q, d', hd', h0, t, -, -, -, e⟩
    have := hd'.unique hd
    subst this
    rw [h0, hz] at e
    apply hc
    linarith
  · unfold lutImage
    simp only [bind, Except.bind, pure, Except.pure]
    rw [mapM_ok (fun p : V2 ℝ => squareArea c (square p)) A _ fun p _ => hA p]
    simp only [List.map_flatMap, List.map_map, Function.comp_def]
    rw [reshape_flatten h w fun y x => A ⟨x, y⟩]
    simp [List.map_map, Function.comp_def]
  · intro x y hx hy hs
    obtain ⟨a, h1, h2⟩ := pixel_parallel c x y v hs
    refine ⟨_, undef v (A ⟨x, y⟩), by rw [List.getElem?_map, List.getElem?_range hy]; rfl,
      by rw [List.getElem?_map, List.getElem?_range hx]; rfl, ?_⟩
    rw [hA] at h1
    cases h1
    exact h2
  · unfold lutSlice
    simp only [bind, Except.bind, pure, Except.pure]
    rw [mapM_ok (fun p : V2 ℝ => squareArea c (square p)) A _ fun p _ => hA p]
    simp [List.map_map, Function.comp_def]
  · intro y hy hs
    obtain ⟨a, h1, h2⟩ := pixel_parallel c (c.intr.w / 2) y v hs
    refine ⟨undef v (A ⟨c.intr.w / 2, y⟩), by rw [List.getElem?_map, List.getElem?_range hy]; rfl, ?_⟩
    rw [hA] at h1
    cases h1
    exact h2

/-- A camera that looks horizontally. -/
noncomputable def View.levelCam : Cam :=
  { kind := .rectilinear, intr := ⟨100, 100, 50, 51 / 2, 100, 50⟩, orient := .thr ⟨10, 90, 0, 0, 0, 0⟩, lens := noDistortion }

theorem View.levelCam_parallel (x : ℝ) : Parallel levelCam ⟨x, 51 / 2⟩ := by
  refine ⟨_, getRay_real levelCam ⟨by simp [levelCam], by simp [levelCam]⟩ (V2.is_num _), ?_⟩
  have hw : Spatial.wrap360 0 = 0 := by simp [Spatial.wrap360]
  have hr : Spatial.rad 0 = 0 := by simp [Spatial.rad]
  have h9 : Spatial.rad 90 = Real.pi / 2 := by simp only [Spatial.rad]; ring
  simp [dirR, levelCam, Orient.mat, Spatial.initCameraMatrix, Spatial.matrices, hw, hr, h9, Projection.rayR,
    M3.applyR, V3.dot, Spatial.rotation, M3.mul, M3.rowMul, M3.T, Spatial.R_roll, Spatial.R_tilt, Spatial.R_head]

example : ∃ L, lutImage levelCam 100 50 (fin 0) = .ok L ∧ ∃ r a, L[25]? = some r ∧ r[3]? = some a ∧ (a = fin 0 ∨ a = pinf) := by
  obtain ⟨-, ⟨L, h1, h2⟩, -⟩ := C85_parallel_partial levelCam 100 50 (fin 0)
  refine ⟨L, h1, h2 3 25 (by norm_num) (by norm_num) (Or.inr (Or.inr (Or.inl ?_)))⟩
  have := levelCam_parallel (3 + 1 / 2)
  norm_num at this ⊢
  exact this
