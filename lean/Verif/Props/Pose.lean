import Verif.Spec.Pose
import Verif.Proofs.Camera
import Verif.Proofs.Gps
import Mathlib.Analysis.SpecialFunctions.Trigonometric.Angle
import Mathlib.Tactic.LinearCombination

/-! # The camera parameters from point correspondences (C113) -/

open Classical Num Pose

namespace Pose

theorem angle_eq {a b : ℝ} (h1 : Real.cos a = Real.cos b) (h2 : Real.sin a = Real.sin b) :
    ∃ k : ℤ, a = b + 2 * Real.pi * k := by
  have := Real.Angle.cos_sin_inj h1 h2
  rw [Real.Angle.angle_eq_iff_two_pi_dvd_sub] at this
  obtain ⟨k, hk⟩ := this
  exact ⟨k, by linarith⟩

/-- The rotation of a camera without rotation. -/
theorem rotation_zero : Spatial.rotation (Spatial.rad 0) (Spatial.rad 0) (Spatial.rad 0) = ⟨⟨1, 0, 0⟩, ⟨0, 1, 0⟩, ⟨0, 0, 1⟩⟩ := by
  have hr : Spatial.rad 0 = 0 := by simp [Spatial.rad]
  simp [hr, Spatial.rotation, M3.mul, M3.rowMul, M3.T, V3.dot, Spatial.R_roll, Spatial.R_tilt, Spatial.R_head]

/-- The rotation found by cv2 is the rotation of the second camera in other coordinates, and the translation is the
position of the first camera seen from the second one. -/
theorem recovered_iff {R2 : M3} {p1 p2 : V3 ℝ} {rot : M3} {t : V3 ℝ} {b : ℝ}
    (h : Recovered ⟨⟨1, 0, 0⟩, ⟨0, 1, 0⟩, ⟨0, 0, 1⟩⟩ R2 p1 p2 rot t b) :
    rot = ⟨⟨R2.r0.x, -R2.r0.y, -R2.r0.z⟩, ⟨-R2.r1.x, R2.r1.y, R2.r1.z⟩, ⟨-R2.r2.x, R2.r2.y, R2.r2.z⟩⟩ ∧
      t.mulS b = flip (R2.applyR (p1 - p2)) := by
  have h0 := h p1
  have hx := h (p1 + ⟨1, 0, 0⟩)
  have hy := h (p1 + ⟨0, 1, 0⟩)
  have hz := h (p1 + ⟨0, 0, 1⟩)
  have ht : t.mulS b = flip (R2.applyR (p1 - p2)) := by
    rw [h0]
    ext <;> simp [flip, M3.applyR, V3.dot]
  rw [ht] at hx hy hz
  refine ⟨?_, ht⟩
  have ex := fun f : V3 ℝ → ℝ => congrArg f hx
  have ey := fun f : V3 ℝ → ℝ => congrArg f hy
  have ez := fun f : V3 ℝ → ℝ => congrArg f hz
  have x1 := ex V3.x; have x2 := ex V3.y; have x3 := ex V3.z
  have y1 := ey V3.x; have y2 := ey V3.y; have y3 := ey V3.z
  have z1 := ez V3.x; have z2 := ez V3.y; have z3 := ez V3.z
  simp [flip, M3.applyR, V3.dot] at x1 x2 x3 y1 y2 y3 z1 z2 z3
  ext <;> simp only <;> linarith

end Pose

/-- **C113** (partial: the tilt and the roll) For two cameras, the first one without rotation and the second one with any
roll and heading and a tilt between 0 and 180 degrees, the tilt and the roll are recovered.

**C113 violated** The heading is recovered with the wrong sign. -/
theorem C113_angles_violated (cam1 : Spatial.Params) (roll tilt heading : ℝ) (h1 : 0 < tilt) (h2 : tilt < 180) (p2 : V3 ℝ)
    (rot : M3) (t : V3 ℝ) (b : ℝ)
    (h : Recovered (Spatial.rotation (Spatial.rad 0) (Spatial.rad 0) (Spatial.rad 0))
      (Spatial.rotation (Spatial.rad roll) (Spatial.rad tilt) (Spatial.rad heading))
      ⟨cam1.pos_x_m, cam1.pos_y_m, cam1.elevation_m⟩ p2 rot t b) :
    ∃ r g : ℝ, Num.Is (setCameras cam1 rot t b).2.roll r ∧ Num.Is (setCameras cam1 rot t b).2.tilt tilt ∧
      Num.Is (setCameras cam1 rot t b).2.heading g ∧ (∃ k : ℤ, r = roll + 360 * k) ∧ (∃ k : ℤ, g = -heading + 360 * k) ∧
      (Spatial.rotation (Spatial.rad r) (Spatial.rad tilt) (Spatial.rad g) =
        Spatial.rotation (Spatial.rad roll) (Spatial.rad tilt) (Spatial.rad heading) ↔ Real.sin (Spatial.rad heading) = 0) := by
  rw [rotation_zero] at h
  obtain ⟨hR, -⟩ := recovered_iff h
  have hpi := Real.pi_pos
  have ht0 : 0 < Spatial.rad tilt := by unfold Spatial.rad; positivity
  have ht1 : Spatial.rad tilt < Real.pi := by
    unfold Spatial.rad
    have : tilt * (Real.pi / 180) < 180 * (Real.pi / 180) := by gcongr
    linarith
  have hst := Real.sin_pos_of_pos_of_lt_pi ht0 ht1
  set r := Spatial.rad roll with hr
  set τ := Spatial.rad tilt with hτ
  set θ := Spatial.rad heading with hθ
  have e02 : rot.r0.z = -(Real.sin r * Real.sin τ) := by
    rw [hR]; simp [Spatial.rotation, M3.mul, M3.rowMul, M3.T, V3.dot, Spatial.R_roll, Spatial.R_tilt, Spatial.R_head]
  have e12 : rot.r1.z = Real.cos r * Real.sin τ := by
    rw [hR]; simp [Spatial.rotation, M3.mul, M3.rowMul, M3.T, V3.dot, Spatial.R_roll, Spatial.R_tilt, Spatial.R_head]
  have e22 : rot.r2.z = Real.cos τ := by
    rw [hR]; simp [Spatial.rotation, M3.mul, M3.rowMul, M3.T, V3.dot, Spatial.R_roll, Spatial.R_tilt, Spatial.R_head]
  have e20 : rot.r2.x = Real.sin τ * Real.sin θ := by
    rw [hR]; simp [Spatial.rotation, M3.mul, M3.rowMul, M3.T, V3.dot, Spatial.R_roll, Spatial.R_tilt, Spatial.R_head]
  have e21 : rot.r2.y = -(Real.sin τ * Real.cos θ) := by
    rw [hR]; simp [Spatial.rotation, M3.mul, M3.rowMul, M3.T, V3.dot, Spatial.R_roll, Spatial.R_tilt, Spatial.R_head]
  have scr := Real.sin_sq_add_cos_sq r
  have sct := Real.sin_sq_add_cos_sq θ
  have n1 : (-(Real.cos r * Real.sin τ)) ^ 2 + (-(Real.sin r * Real.sin τ)) ^ 2 = Real.sin τ ^ 2 := by
    linear_combination Real.sin τ ^ 2 * scr
  have n2 : (-(Real.sin τ * Real.cos θ)) ^ 2 + (Real.sin τ * Real.sin θ) ^ 2 = Real.sin τ ^ 2 := by
    linear_combination Real.sin τ ^ 2 * sct
  obtain ⟨a, ha, -, a1, a2⟩ := Projection.arctan2_spec (y := .fin rot.r0.z) (x := -(.fin rot.r1.z)) (b := -(Real.sin r * Real.sin τ))
    (a := -(Real.cos r * Real.sin τ)) ((is_fin _).congr e02) ((is_fin rot.r1.z).neg.congr (by rw [e12]))
    (by rw [n1]; positivity)
  obtain ⟨g, hg, -, g1, g2⟩ := Projection.arctan2_spec (y := .fin rot.r2.x) (x := .fin rot.r2.y) (b := Real.sin τ * Real.sin θ)
    (a := -(Real.sin τ * Real.cos θ)) ((is_fin _).congr e20) ((is_fin _).congr e21) (by rw [n2]; positivity)
  rw [n1, Real.sqrt_sq hst.le] at a1 a2
  rw [n2, Real.sqrt_sq hst.le] at g1 g2
  have ca : Real.cos (a + Real.pi) = Real.cos r := by
    rw [Real.cos_add_pi]
    exact mul_left_cancel₀ hst.ne' (by linear_combination -a1)
  have sa : Real.sin (a + Real.pi) = Real.sin r := by
    rw [Real.sin_add_pi]
    exact mul_left_cancel₀ hst.ne' (by linear_combination -a2)
  have cg : Real.cos (g + Real.pi) = Real.cos (-θ) := by
    rw [Real.cos_add_pi, Real.cos_neg]
    exact mul_left_cancel₀ hst.ne' (by linear_combination -g1)
  have sg : Real.sin (g + Real.pi) = Real.sin (-θ) := by
    rw [Real.sin_add_pi, Real.sin_neg]
    exact mul_left_cancel₀ hst.ne' (by linear_combination -g2)
  have hdeg : ∀ x : ℝ, Spatial.rad (180 + x * (180 / Real.pi)) = x + Real.pi := by
    intro x; unfold Spatial.rad; field_simp; ring
  have hturn : ∀ (x y : ℝ) (k : ℤ), x + Real.pi = Spatial.rad y + 2 * Real.pi * k → 180 + x * (180 / Real.pi) = y + 360 * k := by
    intro x y k hk
    have : x = Spatial.rad y + 2 * Real.pi * k - Real.pi := by linarith
    rw [this]; unfold Spatial.rad; field_simp; ring
  refine ⟨180 + a * (180 / Real.pi), 180 + g * (180 / Real.pi), (is_fin 180).add ha.rad2deg, ?_, (is_fin 180).add hg.rad2deg, ?_,
    ?_, ?_⟩
  · have := ((is_fin rot.r2.z).congr e22).arccos (Real.neg_one_le_cos _) (Real.cos_le_one _)
    rw [Real.arccos_cos ht0.le ht1.le] at this
    refine this.rad2deg.congr ?_
    rw [hτ]; unfold Spatial.rad; field_simp
  · obtain ⟨k, hk⟩ := angle_eq ca sa
    exact ⟨k, hturn _ _ _ hk⟩
  · obtain ⟨k, hk⟩ := angle_eq cg sg
    refine ⟨k, hturn _ _ _ ?_⟩
    rw [hk, hθ]; unfold Spatial.rad; ring
  · rw [hdeg, hdeg]
    have key : Spatial.rotation (a + Real.pi) τ (g + Real.pi) = Spatial.rotation r τ (-θ) := by
      unfold Spatial.rotation Spatial.R_roll Spatial.R_head
      rw [ca, sa, cg, sg]
    rw [key]
    constructor
    · intro he
      have := congrArg (fun M : M3 => M.r2.x) he
      simp [Spatial.rotation, M3.mul, M3.rowMul, M3.T, V3.dot, Spatial.R_roll, Spatial.R_tilt, Spatial.R_head] at this
      have h3 : Real.sin τ * Real.sin θ = 0 := by linarith
      rcases mul_eq_zero.1 h3 with h | h
      · exact absurd h hst.ne'
      · exact h
    · intro hs
      unfold Spatial.rotation Spatial.R_head
      simp [hs]

/-- **C113** (the position) The second camera is put at the mirrored and rotated offset instead of its place: this is its
place only if turning the offset by the second camera's rotation and mirroring it in x gives the offset. -/
theorem C113_position_violated (cam1 : Spatial.Params) (R2 : M3) (p2 : V3 ℝ) (rot : M3) (t : V3 ℝ) (b : ℝ)
    (h : Recovered (Spatial.rotation (Spatial.rad 0) (Spatial.rad 0) (Spatial.rad 0)) R2
      ⟨cam1.pos_x_m, cam1.pos_y_m, cam1.elevation_m⟩ p2 rot t b) :
    (setCameras cam1 rot t b).2.pos = ⟨cam1.pos_x_m, cam1.pos_y_m, cam1.elevation_m⟩ -
        Pose.flip (R2.applyR (p2 - ⟨cam1.pos_x_m, cam1.pos_y_m, cam1.elevation_m⟩)) ∧
      ((setCameras cam1 rot t b).2.pos = p2 ↔
        Pose.flip (R2.applyR (p2 - ⟨cam1.pos_x_m, cam1.pos_y_m, cam1.elevation_m⟩)) =
          ⟨cam1.pos_x_m - p2.x, cam1.pos_y_m - p2.y, cam1.elevation_m - p2.z⟩) := by
  rw [rotation_zero] at h
  obtain ⟨-, ht⟩ := recovered_iff h
  have tx := congrArg V3.x ht
  have ty := congrArg V3.y ht
  have tz := congrArg V3.z ht
  simp [Pose.flip, M3.applyR, V3.dot] at tx ty tz
  have hp : (setCameras cam1 rot t b).2.pos = ⟨cam1.pos_x_m, cam1.pos_y_m, cam1.elevation_m⟩ -
      Pose.flip (R2.applyR (p2 - ⟨cam1.pos_x_m, cam1.pos_y_m, cam1.elevation_m⟩)) := by
    ext <;> simp [setCameras, Pose.flip, M3.applyR, V3.dot] <;> linarith
  refine ⟨hp, ?_⟩
  rw [hp]
  generalize Pose.flip (R2.applyR (p2 - ⟨cam1.pos_x_m, cam1.pos_y_m, cam1.elevation_m⟩)) = q
  constructor
  · intro he
    have ex := congrArg V3.x he
    have ey := congrArg V3.y he
    have ez := congrArg V3.z he
    simp at ex ey ez
    ext <;> simp <;> linarith
  · intro he
    rw [he]
    ext <;> simp

/-- **C113 violated** Two cameras side by side without any rotation: the second camera is turned by half a turn and its
position is mirrored in x (for the rotation matrix with positive zeros). -/
theorem C113_parallel_violated (cam1 : Spatial.Params) (p2 : V3 ℝ) (rot : M3) (t : V3 ℝ) (b : ℝ)
    (h : Recovered (Spatial.rotation (Spatial.rad 0) (Spatial.rad 0) (Spatial.rad 0))
      (Spatial.rotation (Spatial.rad 0) (Spatial.rad 0) (Spatial.rad 0))
      ⟨cam1.pos_x_m, cam1.pos_y_m, cam1.elevation_m⟩ p2 rot t b) :
    Num.Is (setCameras cam1 rot t b).2.roll 360 ∧ Num.Is (setCameras cam1 rot t b).2.tilt 0 ∧
      Num.Is (setCameras cam1 rot t b).2.heading 180 ∧
      (setCameras cam1 rot t b).2.pos = ⟨2 * cam1.pos_x_m - p2.x, p2.y, p2.z⟩ := by
  have hpos := (C113_position_violated cam1 _ p2 rot t b h).1
  rw [rotation_zero] at h hpos
  obtain ⟨hR, -⟩ := recovered_iff h
  simp only [neg_zero] at hR
  subst hR
  have hpi := Real.pi_ne_zero
  have e1 : Num.arctan2 (.fin 0) (-(.fin 0)) = .fin Real.pi := by
    have : -(Num.fin 0) = .nzero := by show Num.neg _ = _; simp [Num.neg]
    rw [this]
    simp [Num.arctan2, Num.IsInf, Num.IsZero, Num.signbit, Num.sgn, Num.Is]
  have e2 : Num.arctan2 (.fin 0) (.fin 0) = .fin 0 := by
    simp [Num.arctan2, Num.IsInf, Num.IsZero, Num.signbit, Num.Is, Num.signed]
  refine ⟨?_, ?_, ?_, ?_⟩
  · show Num.Is (.fin 180 + Num.rad2deg (Num.arctan2 (.fin 0) (-(.fin 0)))) 360
    rw [e1]
    exact ((is_fin 180).add (is_fin Real.pi).rad2deg).congr (by field_simp; norm_num)
  · show Num.Is (Num.rad2deg (Num.arccos (.fin 1))) 0
    exact ((is_fin 1).arccos (by norm_num) le_rfl).rad2deg.congr (by simp)
  · show Num.Is (.fin 180 + Num.rad2deg (Num.arctan2 (.fin 0) (.fin 0))) 180
    rw [e2]
    exact ((is_fin 180).add (is_fin 0).rad2deg).congr (by simp)
  · rw [hpos]
    ext <;> simp [Pose.flip, M3.applyR, V3.dot] <;> ring

/-- The first camera keeps its position and loses its rotation. -/
theorem C113_first_camera (cam1 : Spatial.Params) (rot : M3) (t : V3 ℝ) (b : ℝ) :
    let c := (setCameras cam1 rot t b).1
    c.heading_deg = 0 ∧ c.tilt_deg = 0 ∧ c.roll_deg = 0 ∧ c.pos_x_m = cam1.pos_x_m ∧ c.pos_y_m = cam1.pos_y_m ∧
      c.elevation_m = cam1.elevation_m := ⟨rfl, rfl, rfl, rfl, rfl, rfl⟩

/-- For any two cameras there is such a result of cv2. -/
example (R2 : M3) (p1 p2 : V3 ℝ) (b : ℝ) (hb : b ≠ 0) :
    ∃ (rot : M3) (t : V3 ℝ), Recovered (Spatial.rotation (Spatial.rad 0) (Spatial.rad 0) (Spatial.rad 0)) R2 p1 p2 rot t b := by
  rw [rotation_zero]
  refine ⟨⟨⟨R2.r0.x, -R2.r0.y, -R2.r0.z⟩, ⟨-R2.r1.x, R2.r1.y, R2.r1.z⟩, ⟨-R2.r2.x, R2.r2.y, R2.r2.z⟩⟩,
    (Pose.flip (R2.applyR (p1 - p2))).mulS (1 / b), ?_⟩
  intro P
  ext <;> simp [Pose.flip, M3.applyR, V3.dot] <;> field_simp <;> ring
