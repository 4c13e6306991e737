import Verif.Proofs.Projection

/-! # Properties of the field of view functions (C16, C17) -/

open Classical Num Projection

theorem Projection.tan_half_two_arctan {r : ℝ} : Real.tan (2 * Real.arctan r * (180 / Real.pi) * (Real.pi / 180) / 2) = r := by
  have hpi := Real.pi_ne_zero
  have : 2 * Real.arctan r * (180 / Real.pi) * (Real.pi / 180) / 2 = Real.arctan r := by field_simp
  rw [this, Real.tan_arctan]

theorem Projection.arctan_is (s f : ℝ) (hf : f ≠ 0) :
    Num.Is (Num.rad2deg (.fin 2 * Num.arctan (.fin s / (.fin 2 * .fin f))))
      (2 * Real.arctan (s / (2 * f)) * (180 / Real.pi)) :=
  ((is_fin 2).mul (((is_fin s).div ((is_fin 2).mul (is_fin f)) (by positivity)).arctan)).rad2deg

theorem Projection.tanF_is (s : ℝ) {v : Num} {a : ℝ} (h : Num.Is v a) (h0 : Real.tan (a * (Real.pi / 180) / 2) ≠ 0) :
    Num.Is (.fin s / (.fin 2 * Num.tan (Num.deg2rad v / .fin 2))) (s / (2 * Real.tan (a * (Real.pi / 180) / 2))) :=
  (is_fin s).div ((is_fin 2).mul ((h.deg2rad.div (is_fin 2) two_ne_zero).tan)) (by positivity)

theorem Projection.linF_is (s : ℝ) {v : Num} {a : ℝ} (h : Num.Is v a) (h0 : a ≠ 0) :
    Num.Is (.fin s / Num.deg2rad v) (s / (a * (Real.pi / 180))) :=
  (is_fin s).div h.deg2rad (by have := Real.pi_ne_zero; positivity)

theorem Projection.linView_is (s f : ℝ) (hf : f ≠ 0) :
    Num.Is (Num.rad2deg (.fin s / .fin f)) (s / f * (180 / Real.pi)) := ((is_fin s).div (is_fin f) hf).rad2deg

/-- **C16** For each projection: the focal lengths are recovered from the reported field of view.  (In x
from the horizontal angle, in y from the vertical angle alone.) -/
theorem C16_focal_length_from_fov (k : Kind) (I : Intr) (hfx : 0 < I.fx) (hfy : 0 < I.fy) (hw : 0 < I.w)
    (hh : 0 < I.h) :
    ∃ a b : Num, focallengthFromFOV k I.w I.h (some (getFieldOfView k I).1) none = some a ∧ Num.Is a I.fx ∧
      focallengthFromFOV k I.w I.h none (some (getFieldOfView k I).2) = some b ∧ Num.Is b I.fy := by
  have hpi := Real.pi_pos
  have T : ∀ s f : ℝ, 0 < s → 0 < f → Num.Is (.fin s / (.fin 2 * Num.tan (Num.deg2rad
      (Num.rad2deg (.fin 2 * Num.arctan (.fin s / (.fin 2 * .fin f)))) / .fin 2))) f := by
    intro s f hs hf
    have h1 := arctan_is s f hf.ne'
    have h2 := tanF_is s h1 (by rw [tan_half_two_arctan]; positivity)
    rw [tan_half_two_arctan] at h2
    exact h2.congr (by field_simp)
  have L : ∀ s f : ℝ, 0 < s → 0 < f → Num.Is (.fin s / Num.deg2rad (Num.rad2deg (.fin s / .fin f))) f := by
    intro s f hs hf
    have h2 := linF_is s (linView_is s f hf.ne') (by positivity)
    exact h2.congr (by field_simp)
  cases k
  · exact ⟨_, _, rfl, T _ _ hw hfx, rfl, T _ _ hh hfy⟩
  · exact ⟨_, _, rfl, L _ _ hw hfx, rfl, T _ _ hh hfy⟩
  · exact ⟨_, _, rfl, L _ _ hw hfx, rfl, L _ _ hh hfy⟩

/-- The admissible angles: below 180 degrees where the projection is perspective in that axis. -/
def Projection.Admissible (k : Kind) (horizontal : Bool) (v : ℝ) : Prop :=
  0 < v ∧ (k = .rectilinear ∨ (k = .cylindrical ∧ horizontal = false) → v < 180)

/-- **C16**, other direction: a projection with the focal lengths computed from an admissible field of view
reports this field of view.  (The constructor uses one focal length `f` for both axes if only one angle is
given; each angle determines the focal length of its own axis.) -/
theorem C16_fov_from_focal_length (k : Kind) (I : Intr) (hw : 0 < I.w) (hh : 0 < I.h) (vx vy : ℝ)
    (hx : Admissible k true vx) (hy : Admissible k false vy) :
    ∃ (a b : Num) (fx fy : ℝ),
      focallengthFromFOV k I.w I.h (some (fin vx)) none = some a ∧ Num.Is a fx ∧ 0 < fx ∧
      focallengthFromFOV k I.w I.h none (some (fin vy)) = some b ∧ Num.Is b fy ∧ 0 < fy ∧
      Num.Is (getFieldOfView k { I with fx := fx, fy := fy }).1 vx ∧
      Num.Is (getFieldOfView k { I with fx := fx, fy := fy }).2 vy := by
  have hpi := Real.pi_pos
  have tpos : ∀ v : ℝ, 0 < v → v < 180 → 0 < Real.tan (v * (Real.pi / 180) / 2) := by
    intro v h1 h2
    apply Real.tan_pos_of_pos_of_lt_pi_div_two
    · positivity
    · rw [div_lt_div_iff_of_pos_right (by norm_num)]
      calc v * (Real.pi / 180) < 180 * (Real.pi / 180) := by
            apply mul_lt_mul_of_pos_right h2; positivity
        _ = Real.pi := by ring
  have T : ∀ s v : ℝ, 0 < s → 0 < v → v < 180 → ∃ f : ℝ, 0 < f ∧
      Num.Is (.fin s / (.fin 2 * Num.tan (Num.deg2rad (fin v) / .fin 2))) f ∧
      Num.Is (Num.rad2deg (.fin 2 * Num.arctan (.fin s / (.fin 2 * .fin f)))) v := by
    intro s v hs h1 h2
    have ht := tpos v h1 h2
    refine ⟨_, by positivity, tanF_is s (is_fin v) ht.ne', ?_⟩
    have h3 := arctan_is s (s / (2 * Real.tan (v * (Real.pi / 180) / 2))) (by positivity)
    refine h3.congr ?_
    have e : s / (2 * (s / (2 * Real.tan (v * (Real.pi / 180) / 2)))) = Real.tan (v * (Real.pi / 180) / 2) := by
      field_simp
    rw [e, Real.arctan_tan]
    · field_simp
    · have : 0 < v * (Real.pi / 180) / 2 := by positivity
      linarith
    · rw [div_lt_div_iff_of_pos_right (by norm_num)]
      calc v * (Real.pi / 180) < 180 * (Real.pi / 180) := by
            apply mul_lt_mul_of_pos_right h2; positivity
        _ = Real.pi := by ring
  have L : ∀ s v : ℝ, 0 < s → 0 < v → ∃ f : ℝ, 0 < f ∧ Num.Is (.fin s / Num.deg2rad (fin v)) f ∧
      Num.Is (Num.rad2deg (.fin s / .fin f)) v := by
    intro s v hs h1
    refine ⟨_, by positivity, linF_is s (is_fin v) h1.ne', ?_⟩
    exact (linView_is s (s / (v * (Real.pi / 180))) (by positivity)).congr (by field_simp)
  cases k with
  | rectilinear =>
    obtain ⟨f, h1, h2, h3⟩ := T I.w vx hw hx.1 (hx.2 (Or.inl rfl))
    obtain ⟨g, h4, h5, h6⟩ := T I.h vy hh hy.1 (hy.2 (Or.inl rfl))
    exact ⟨_, _, f, g, rfl, h2, h1, rfl, h5, h4, h3, h6⟩
  | cylindrical =>
    obtain ⟨f, h1, h2, h3⟩ := L I.w vx hw hx.1
    obtain ⟨g, h4, h5, h6⟩ := T I.h vy hh hy.1 (hy.2 (Or.inr ⟨rfl, rfl⟩))
    exact ⟨_, _, f, g, rfl, h2, h1, rfl, h5, h4, h3, h6⟩
  | equirectangular =>
    obtain ⟨f, h1, h2, h3⟩ := L I.w vx hw hx.1
    obtain ⟨g, h4, h5, h6⟩ := L I.h vy hh hy.1
    exact ⟨_, _, f, g, rfl, h2, h1, rfl, h5, h4, h3, h6⟩

example : Admissible .rectilinear true 61.617 ∧ Admissible .equirectangular true 360 := by
  constructor
  · exact ⟨by norm_num, fun _ => by norm_num⟩
  · refine ⟨by norm_num, fun h => ?_⟩
    rcases h with h | ⟨h, -⟩ <;> cases h

/-- **C17** For each projection the image size is recovered from the reported field of view. -/
theorem C17_image_size_from_fov (k : Kind) (I : Intr) (hfx : 0 < I.fx) (hfy : 0 < I.fy) :
    ∃ a b : Num, imageFromFOV k I (some (getFieldOfView k I).1) none = some a ∧ Num.Is a I.w ∧
      imageFromFOV k I none (some (getFieldOfView k I).2) = some b ∧ Num.Is b I.h := by
  have hpi := Real.pi_pos
  have T : ∀ s f : ℝ, 0 < f → Num.Is (.fin f * (.fin 2 * Num.tan (Num.deg2rad
      (Num.rad2deg (.fin 2 * Num.arctan (.fin s / (.fin 2 * .fin f)))) / .fin 2))) s := by
    intro s f hf
    have h1 := arctan_is s f hf.ne'
    have h2 := (is_fin f).mul ((is_fin 2).mul ((h1.deg2rad.div (is_fin 2) two_ne_zero).tan))
    rw [tan_half_two_arctan] at h2
    exact h2.congr (by field_simp)
  have L : ∀ s f : ℝ, 0 < f → Num.Is (.fin f * Num.deg2rad (Num.rad2deg (.fin s / .fin f))) s := by
    intro s f hf
    exact ((is_fin f).mul (linView_is s f hf.ne').deg2rad).congr (by field_simp)
  cases k
  · exact ⟨_, _, rfl, T _ _ hfx, rfl, T _ _ hfy⟩
  · exact ⟨_, _, rfl, L _ _ hfx, rfl, T _ _ hfy⟩
  · exact ⟨_, _, rfl, L _ _ hfx, rfl, L _ _ hfy⟩
