import Mathlib.Analysis.SpecialFunctions.Trigonometric.Angle
import Verif.Spec.Turned
import Verif.Props.Lines
import Verif.Proofs.Lens

/-! # Turning, zooming and shifting the camera turns, scales and shifts the picture (C158) -/

open Classical Camera Projection LensModel LensSpec Turned

namespace Turned

theorem finite_of_add {x y : Num} {r : ℝ} (hy : Num.Is y r) (h : (x + y).Finite) : x.Finite := by
  cases x with
  | fin r => exact ⟨r, rfl⟩
  | nzero => exact ⟨0, rfl⟩
  | nan => rw [Num.nan_add] at h; exact absurd h Num.not_finite_nan
  | pinf => exact absurd h (not_finite_of_inf (inf_add trivial hy))
  | ninf => exact absurd h (not_finite_of_inf (inf_add trivial hy))

theorem finite_of_mul {x d : Num} {r : ℝ} (hd : Num.Is d r) (h : (d * x).Finite) : x.Finite := by
  have : ∀ {x : Num}, Num.IsInf x → ¬ (d * x).Finite := fun {x} hx hf => by
    by_cases h0 : r = 0
    · rw [inf_mul_zero hx (h0 ▸ hd)] at hf; exact Num.not_finite_nan hf
    · exact not_finite_of_inf (inf_mul_nonzero hx hd h0) hf
  cases x with
  | fin r => exact ⟨r, rfl⟩
  | nzero => exact ⟨0, rfl⟩
  | nan => rw [Num.mul_nan] at h; exact absurd h Num.not_finite_nan
  | pinf => exact absurd h (this trivial)
  | ninf => exact absurd h (this trivial)

theorem mul_comm' (x y : Num) : x * y = y * x := by
  show Num.mul x y = Num.mul y x
  unfold Num.mul
  have e : Xor (Num.signbit x) (Num.signbit y) = Xor (Num.signbit y) (Num.signbit x) := xor_comm _ _
  have e1 : (x = .nan ∨ y = .nan) = (y = .nan ∨ x = .nan) := propext or_comm
  have e2 : (Num.IsInf x ∨ Num.IsInf y) = (Num.IsInf y ∨ Num.IsInf x) := propext or_comm
  have e3 : (Num.IsZero x ∨ Num.IsZero y) = (Num.IsZero y ∨ Num.IsZero x) := propext or_comm
  simp only [e, e1, e2, e3, mul_comm (Num.rv x)]

/-- What a radial lens does at one place, it does at all places with the same radius, with every scale and offset. -/
theorem transform_same {L : Radial} {f : Num → Num} {n : V2 Num} {p q : V2 ℝ} (hn : n.Is p) (hx : L.scale.x ≠ 0) (hy : L.scale.y ≠ 0)
    (hq : (transform L f n).Is q) :
    ∃ κ : ℝ, q = ⟨κ * (p.x - L.offset.x) + L.offset.x, κ * (p.y - L.offset.y) + L.offset.y⟩ ∧
      ∀ (L' : Radial) (n' : V2 Num) (p' : V2 ℝ), n'.Is p' → L'.scale.x ≠ 0 → L'.scale.y ≠ 0 →
        radius L'.scale L'.offset p' = radius L.scale L.offset p →
        (transform L' f n').Is ⟨κ * (p'.x - L'.offset.x) + L'.offset.x, κ * (p'.y - L'.offset.y) + L'.offset.y⟩ := by
  by_cases hr : radius L.scale L.offset p = 0
  · exfalso
    have h0 : ((p.x - L.offset.x) / L.scale.x) ^ 2 + ((p.y - L.offset.y) / L.scale.y) ^ 2 = 0 := by
      unfold radius at hr
      rwa [Real.sqrt_eq_zero (by positivity)] at hr
    have h1 : (p.x - L.offset.x) / L.scale.x = 0 := by nlinarith [sq_nonneg ((p.x - L.offset.x) / L.scale.x), sq_nonneg ((p.y - L.offset.y) / L.scale.y)]
    have h2 : (p.y - L.offset.y) / L.scale.y = 0 := by nlinarith [sq_nonneg ((p.x - L.offset.x) / L.scale.x), sq_nonneg ((p.y - L.offset.y) / L.scale.y)]
    rw [div_eq_zero_iff, or_iff_left hx, sub_eq_zero] at h1
    rw [div_eq_zero_iff, or_iff_left hy, sub_eq_zero] at h2
    have : p = L.offset := by ext <;> assumption
    subst this
    rw [transform_centre hn hx hy] at hq
    exact V2.not_is_nan _ hq
  · have hfin : (f (.fin (radius L.scale L.offset p))).Finite := by
      have qx := (hn.1.sub (Num.is_fin L.offset.x)).div (Num.is_fin L.scale.x) hx
      have qy := (hn.2.sub (Num.is_fin L.offset.y)).div (Num.is_fin L.scale.y) hy
      have hr' := ((qx.mul qx).add (qy.mul qy)).sqrt (add_nonneg (mul_self_nonneg _) (mul_self_nonneg _))
      have er : Real.sqrt ((p.x - L.offset.x) / L.scale.x * ((p.x - L.offset.x) / L.scale.x) +
          (p.y - L.offset.y) / L.scale.y * ((p.y - L.offset.y) / L.scale.y)) = radius L.scale L.offset p := by
        unfold radius; congr 1; ring
      rw [er] at hr'
      have h1 := finite_of_add (Num.is_fin L.offset.x) hq.1.finite
      rw [mul_comm'] at h1
      have h2 := finite_of_mul (qx.div hr' hr) (finite_of_mul (Num.is_fin L.scale.x) h1)
      rwa [hr'.fin_of_ne hr] at h2
    obtain ⟨R, hR⟩ := hfin
    have hf : ∀ m, Num.Is m (radius L.scale L.offset p) → Num.Is (f m) R := fun m hm => by rw [hm.fin_of_ne hr]; exact hR
    refine ⟨R / radius L.scale L.offset p, hq.unique (transform_is hn hx hy hr hf), fun L' n' p' hn' hx' hy' e => ?_⟩
    rw [← e] at hf hr ⊢
    exact transform_is hn' hx' hy' hr hf

theorem transform_nan (L : Radial) (f : Num → Num) (q : V2 ℝ) : ¬ (transform L f V2.nan).Is q := by
  rintro ⟨h, -⟩
  simp [transform, V2.nan] at h

/-- The radius a lens uses, in the picture with the intrinsic parameters `I`. -/
noncomputable def Choice.radius (I : Intr) (p : V2 ℝ) : Choice → ℝ
  | .none => 0
  | .brown _ _ _ => LensSpec.radius ⟨I.fx, I.fy⟩ ⟨I.cx, I.cy⟩ p
  | .abc _ _ _ => LensSpec.radius ⟨min I.w I.h / 2, min I.w I.h / 2⟩ ⟨I.cx, I.cy⟩ p

theorem lens_same {spline : Spline} (L : Choice) {I : Intr} (hI : L.Usable I) {n : V2 Num} (hn : n = V2.nan ∨ ∃ p, n.Is p) {q : V2 ℝ}
    (hq : ((L.lens spline I).distortedFromImage n).Is q) :
    ∃ (p : V2 ℝ) (κ : ℝ), n.Is p ∧ q = ⟨κ * (p.x - I.cx) + I.cx, κ * (p.y - I.cy) + I.cy⟩ ∧
      ∀ (I' : Intr) (n' : V2 Num) (p' : V2 ℝ), L.Usable I' → n'.Is p' → L.radius I' p' = L.radius I p →
        ((L.lens spline I').distortedFromImage n').Is ⟨κ * (p'.x - I'.cx) + I'.cx, κ * (p'.y - I'.cy) + I'.cy⟩ := by
  obtain rfl | ⟨p, hp⟩ := hn
  · exfalso
    cases L with
    | none => exact V2.not_is_nan _ hq
    | brown => exact transform_nan _ _ _ hq
    | abc => exact transform_nan _ _ _ hq
  · refine ⟨p, ?_⟩
    cases L with
    | none =>
      refine ⟨1, hp, ?_, ?_⟩
      · rw [V2.Is.unique hq hp]
        ext <;> simp
      · intro I' n' p' _ hn' _
        refine V2.Is.congr hn' ?_
        ext <;> simp
    | brown =>
      obtain ⟨κ, h1, h2⟩ := transform_same hp hI.1 hI.2 hq
      exact ⟨κ, hp, h1, fun I' n' p' hI' hn' hr => h2 (LensModel.brown spline I' _ _ _) n' p' hn' hI'.1 hI'.2 hr⟩
    | abc =>
      have hm : ∀ {J : Intr}, 0 < J.w ∧ 0 < J.h → min J.w J.h / 2 ≠ 0 := fun h => (half_pos (lt_min h.1 h.2)).ne'
      obtain ⟨κ, h1, h2⟩ := transform_same hp (hm hI) (hm hI) hq
      exact ⟨κ, hp, h1, fun I' n' p' hI' hn' hr => h2 (LensModel.abc spline I' _ _ _) n' p' hn' (hm hI') (hm hI') hr⟩

theorem rect_cases (I : Intr) (o : Orient) (P : V3 ℝ) (hide : Bool) :
    imageFromSpace ⟨.rectilinear, I, o, noDistortion⟩ P.num hide = V2.nan ∨
      ∃ p, (imageFromSpace ⟨.rectilinear, I, o, noDistortion⟩ P.num hide).Is p := by
  have h := cameraFromSpace_is ⟨.rectilinear, I, o, noDistortion⟩ (V3.is_num P)
  by_cases hz : minDepth ≤ |(camR ⟨.rectilinear, I, o, noDistortion⟩ P).z|
  · by_cases hf : hide = true → (camR ⟨.rectilinear, I, o, noDistortion⟩ P).z < 0
    · exact Or.inr ⟨_, Lines.image_of _ rfl rfl P hide hz hf⟩
    · refine Or.inl ?_
      push Not at hf
      have hpos : 0 < (camR ⟨.rectilinear, I, o, noDistortion⟩ P).z := by
        refine lt_of_le_of_ne hf.2 fun e => ?_
        rw [← e] at hz
        norm_num [minDepth] at hz
      simp only [imageFromSpace, noDistortion, id, imageFromCamera, imageFromCameraRect, projRect]
      rw [snap_far h hz, if_pos ⟨hf.1, ((Num.is_fin 0).lt_iff h.2.2).2 hpos⟩]
  · refine Or.inl ?_
    have hs := snap_near h.2.2 (not_le.1 hz)
    have h1 : Num.Is (-(Num.fin 0) * Num.fin I.fx) 0 := ((Num.is_fin 0).neg.mul (Num.is_fin _)).congr (by ring)
    have h2 : Num.Is (Num.fin 0 * Num.fin I.fy) 0 := ((Num.is_fin 0).mul (Num.is_fin _)).congr (by ring)
    simp only [imageFromSpace, noDistortion, id, imageFromCamera, imageFromCameraRect, projRect]
    rw [hs]
    simp only [Num.zero_div_zero h1 (Num.is_fin 0), Num.zero_div_zero h2 (Num.is_fin 0), Num.nan_add]
    split_ifs <;> rfl

theorem camR_rolled (k : Kind) (I : Intr) (o : Orient) (d : ℝ) (L : Lens) (P : V3 ℝ) :
    camR ⟨k, I, rolled d o, L⟩ P =
      ⟨Real.cos (angle d o) * (camR ⟨k, I, o, L⟩ P).x + Real.sin (angle d o) * (camR ⟨k, I, o, L⟩ P).y,
        -Real.sin (angle d o) * (camR ⟨k, I, o, L⟩ P).x + Real.cos (angle d o) * (camR ⟨k, I, o, L⟩ P).y, (camR ⟨k, I, o, L⟩ P).z⟩ := by
  have e1 : ∀ x : ℝ, Spatial.rad x = x * Real.pi / 180 := fun x => by unfold Spatial.rad; ring
  cases o with
  | thr p =>
    have a : (p.roll_deg + d) * Real.pi / 180 = p.roll_deg * Real.pi / 180 + d * Real.pi / 180 := by ring
    ext <;> simp [camR, rolled, angle, Orient.mat, Orient.pos, Spatial.initCameraMatrix, Spatial.matrices, e1, a, Real.cos_add, Real.sin_add, M3.applyR, V3.dot,
      Spatial.rotation, M3.mul, M3.rowMul, M3.T, Spatial.R_roll, Spatial.R_tilt, Spatial.R_head] <;> ring
  | ypr p =>
    have a : (p.roll_deg + d) * Real.pi / 180 = p.roll_deg * Real.pi / 180 + d * Real.pi / 180 := by ring
    ext <;> simp [camR, rolled, angle, Orient.mat, Orient.pos, Spatial.initCameraMatrixYPR, Spatial.matricesYPR, e1, a, Real.cos_add, Real.sin_add, M3.applyR, V3.dot,
      Spatial.rotation, M3.mul, M3.rowMul, M3.T, Spatial.R_roll, Spatial.R_tilt, Spatial.R_head] <;> ring

theorem roll_one (spline : Spline) (L : Choice) (I : Intr) (hI : L.Usable I) (hf : I.fx = I.fy) (o : Orient) (d : ℝ) (P : V3 ℝ) (hide : Bool) (q : V2 ℝ)
    (hq : (imageFromSpace ⟨.rectilinear, I, o, L.lens spline I⟩ P.num hide).Is q) :
    (imageFromSpace ⟨.rectilinear, I, rolled d o, L.lens spline I⟩ P.num hide).Is (turn ⟨I.cx, I.cy⟩ (angle d o) q) := by
  obtain ⟨p, κ, hp, rfl, h⟩ := lens_same L hI (rect_cases I o P hide) hq
  obtain ⟨h1, h2, h3, h4⟩ := Lines.image_inv ⟨.rectilinear, I, o, noDistortion⟩ rfl rfl P hide hp
  have hz : (camR ⟨.rectilinear, I, rolled d o, noDistortion⟩ P).z = (camR ⟨.rectilinear, I, o, noDistortion⟩ P).z := by rw [camR_rolled]
  have hp' := Lines.image_of ⟨.rectilinear, I, rolled d o, noDistortion⟩ rfl rfl P hide (by rw [hz]; exact h1) (by rw [hz]; exact h2)
  rw [camR_rolled] at hp'
  simp only at h4
  generalize camR ⟨.rectilinear, I, o, noDistortion⟩ P = C at *
  simp only at hp'
  generalize angle d o = a at *
  have hp'' := hp'.congr (q' := turn ⟨I.cx, I.cy⟩ a p) (by
    rw [h4, ← hf]
    ext <;> simp [turn] <;> field_simp <;> ring)
  refine (h I _ _ hI hp'' ?_).congr ?_
  · have key : (Real.cos a * (p.x - I.cx) - Real.sin a * (p.y - I.cy)) ^ 2 + (Real.sin a * (p.x - I.cx) + Real.cos a * (p.y - I.cy)) ^ 2 =
        (p.x - I.cx) ^ 2 + (p.y - I.cy) ^ 2 := by
      linear_combination ((p.x - I.cx) ^ 2 + (p.y - I.cy) ^ 2) * Real.sin_sq_add_cos_sq a
    have key' : ∀ s : ℝ, LensSpec.radius ⟨s, s⟩ ⟨I.cx, I.cy⟩ (turn ⟨I.cx, I.cy⟩ a p) = LensSpec.radius ⟨s, s⟩ ⟨I.cx, I.cy⟩ p := by
      intro s
      simp only [LensSpec.radius, div_pow, ← add_div, ← key]
      congr 3
      · simp only [turn]; ring
      · simp only [turn]; ring
    cases L with
    | none => rfl
    | brown => simp only [Choice.radius, ← hf]; exact key' _
    | abc => exact key' _
  · ext <;> simp [turn] <;> ring

end Turned

/-- **C158** Rolling a rectilinear camera with square pixels turns the picture around the principal point. -/
theorem C158_roll (spline : Spline) (L : Choice) (I : Intr) (hI : L.Usable I) (hf : I.fx = I.fy) (o : Orient) (d : ℝ) (P : V3 ℝ) (hide : Bool) (q : V2 ℝ) :
    (imageFromSpace ⟨.rectilinear, I, o, L.lens spline I⟩ P.num hide).Is q ↔
      (imageFromSpace ⟨.rectilinear, I, rolled d o, L.lens spline I⟩ P.num hide).Is (turn ⟨I.cx, I.cy⟩ (angle d o) q) := by
  refine ⟨roll_one spline L I hI hf o d P hide q, fun h => ?_⟩
  have h' := roll_one spline L I hI hf _ (-d) P hide _ h
  have e1 : rolled (-d) (rolled d o) = o := by cases o <;> simp [rolled]
  have e2 : angle (-d) (rolled d o) = -angle d o := by cases o <;> simp [rolled, angle] <;> ring
  rw [e1, e2] at h'
  refine h'.congr ?_
  have hs := Real.sin_sq_add_cos_sq (angle d o)
  ext <;> simp only [turn, Real.cos_neg, Real.sin_neg]
  · linear_combination (q.x - I.cx) * hs
  · linear_combination (q.y - I.cy) * hs

namespace Turned

/-- The depth of a snapped point is 0 only at the origin. -/
theorem snap_is {n : V3 Num} {C : V3 ℝ} (h : n.Is C) : ∃ S : V3 ℝ, (snap n).Is S ∧ (S.z = 0 → S = ⟨0, 0, 0⟩) := by
  by_cases hz : |C.z| < 1 / 10 ^ 10
  · rw [snap_near h.2.2 hz]
    exact ⟨⟨0, 0, 0⟩, ⟨rfl, rfl, rfl⟩, fun _ => rfl⟩
  · rw [snap_far h (not_lt.1 hz)]
    refine ⟨C, h, fun e => ?_⟩
    rw [e] at hz
    norm_num at hz

/-- The picture with other focal lengths and another centre. -/
theorem image_intr (k : Kind) (I I' : Intr) (lx ly : ℝ) (h1 : I'.fx = lx * I.fx) (h2 : I'.fy = ly * I.fy) {n : V3 Num} {C : V3 ℝ} (h : n.Is C) (hide : Bool) :
    (Projection.imageFromCamera k I n hide = V2.nan ∧ Projection.imageFromCamera k I' n hide = V2.nan) ∨
    ∃ p : V2 ℝ, (Projection.imageFromCamera k I n hide).Is p ∧
      (Projection.imageFromCamera k I' n hide).Is ⟨I'.cx + lx * (p.x - I.cx), I'.cy + ly * (p.y - I.cy)⟩ := by
  obtain ⟨S, hS, hS0⟩ := snap_is h
  cases k with
  | rectilinear =>
    simp only [Projection.imageFromCamera, imageFromCameraRect, projRect]
    split_ifs with hh
    · exact Or.inl ⟨rfl, rfl⟩
    · by_cases hz : S.z = 0
      · left
        have e := hS0 hz
        rw [e] at hS
        have a : ∀ f : ℝ, Num.Is (-(snap n).x * Num.fin f) 0 := fun f => (hS.1.neg.mul (Num.is_fin f)).congr (by simp)
        have b : ∀ f : ℝ, Num.Is ((snap n).y * Num.fin f) 0 := fun f => (hS.2.1.mul (Num.is_fin f)).congr (by simp)
        simp only [Num.zero_div_zero (a _) hS.2.2, Num.zero_div_zero (b _) hS.2.2, Num.nan_add]
        exact ⟨rfl, rfl⟩
      · right
        refine ⟨⟨-S.x * I.fx / S.z + I.cx, S.y * I.fy / S.z + I.cy⟩, ⟨((hS.1.neg.mul (Num.is_fin I.fx)).div hS.2.2 hz).add (Num.is_fin I.cx), ((hS.2.1.mul (Num.is_fin I.fy)).div hS.2.2 hz).add (Num.is_fin I.cy)⟩,
          (((hS.1.neg.mul (Num.is_fin I'.fx)).div hS.2.2 hz).add (Num.is_fin I'.cx)).congr ?_,
          (((hS.2.1.mul (Num.is_fin I'.fy)).div hS.2.2 hz).add (Num.is_fin I'.cy)).congr ?_⟩
        · simp only [h1]; ring
        · simp only [h2]; ring
  | cylindrical =>
    simp only [Projection.imageFromCamera, imageFromCameraCyl, projCyl]
    obtain ⟨θ, hθ⟩ := hS.1.neg.arctan2_finite hS.2.2.neg
    have hr := ((hS.1.npow 2).add (hS.2.2.npow 2)).sqrt (by positivity)
    by_cases hz : S.z = 0
    · left
      have e := hS0 hz
      rw [e] at hS hr
      have hr' := hr.congr (b := 0) (by simp)
      have b : ∀ f : ℝ, Num.Is (-(Num.fin f) * (snap n).y) 0 := fun f => ((Num.is_fin f).neg.mul hS.2.1).congr (by simp)
      simp only [Num.zero_div_zero (b _) hr', Num.nan_add]
      exact ⟨rfl, rfl⟩
    · right
      have hr0 : Real.sqrt (S.x ^ 2 + S.z ^ 2) ≠ 0 := by
        have : 0 < S.z ^ 2 := by positivity
        exact (Real.sqrt_pos.2 (by nlinarith [sq_nonneg S.x])).ne'
      have y : ∀ J : Intr, Num.Is (-(Num.fin J.fy) * (snap n).y / Num.sqrt ((snap n).x.npow 2 + (snap n).z.npow 2) + Num.fin J.cy)
          (-J.fy * S.y / Real.sqrt (S.x ^ 2 + S.z ^ 2) + J.cy) := fun J => (((Num.is_fin J.fy).neg.mul hS.2.1).div hr hr0).add (Num.is_fin J.cy)
      have x : ∀ J : Intr, Num.Is (-(Num.fin J.fx) * Num.arctan2 (-(snap n).x) (-(snap n).z) + Num.fin J.cx) (-J.fx * θ + J.cx) := fun J =>
        ((Num.is_fin J.fx).neg.mul hθ).add (Num.is_fin J.cx)
      rw [if_neg (y I).ne_nan, if_neg (y I').ne_nan]
      refine ⟨⟨-I.fx * θ + I.cx, -I.fy * S.y / Real.sqrt (S.x ^ 2 + S.z ^ 2) + I.cy⟩, ⟨x I, y I⟩, (x I').congr ?_, (y I').congr ?_⟩
      · simp only [h1]; ring
      · simp only [h2]; ring
  | equirectangular =>
    right
    simp only [Projection.imageFromCamera, imageFromCameraEqui, projEqui]
    obtain ⟨θ, hθ⟩ := hS.1.neg.arctan2_finite hS.2.2.neg
    have hr := ((hS.1.npow 2).add (hS.2.2.npow 2)).sqrt (by positivity)
    obtain ⟨φ, hφ⟩ := hS.2.1.arctan2_finite hr
    refine ⟨⟨-I.fx * θ + I.cx, -I.fy * φ + I.cy⟩, ⟨((Num.is_fin I.fx).neg.mul hθ).add (Num.is_fin I.cx), ((Num.is_fin I.fy).neg.mul hφ).add (Num.is_fin I.cy)⟩,
      (((Num.is_fin I'.fx).neg.mul hθ).add (Num.is_fin I'.cx)).congr ?_, (((Num.is_fin I'.fy).neg.mul hφ).add (Num.is_fin I'.cy)).congr ?_⟩
    · simp only [h1]; ring
    · simp only [h2]; ring

theorem intr_one (spline : Spline) (L : Choice) (k : Kind) (I I' : Intr) (hI : L.Usable I) (hI' : L.Usable I') (lx ly : ℝ) (h1 : I'.fx = lx * I.fx)
    (h2 : I'.fy = ly * I.fy) (hL : ∀ p : V2 ℝ, L.radius I' ⟨I'.cx + lx * (p.x - I.cx), I'.cy + ly * (p.y - I.cy)⟩ = L.radius I p) (o : Orient) (P : V3 ℝ)
    (hide : Bool) (q : V2 ℝ) (hq : (imageFromSpace ⟨k, I, o, L.lens spline I⟩ P.num hide).Is q) :
    (imageFromSpace ⟨k, I', o, L.lens spline I'⟩ P.num hide).Is ⟨I'.cx + lx * (q.x - I.cx), I'.cy + ly * (q.y - I.cy)⟩ := by
  have hi := image_intr k I I' lx ly h1 h2 (cameraFromSpace_is ⟨k, I, o, noDistortion⟩ (V3.is_num P)) hide
  obtain ⟨p, κ, hp, rfl, h⟩ := lens_same L hI (hi.imp And.left fun ⟨p, hp, _⟩ => ⟨p, hp⟩) hq
  obtain ⟨h0, -⟩ | ⟨p', hp', hi⟩ := hi
  · simp only at hp h0
    rw [h0] at hp
    exact absurd hp (V2.not_is_nan _)
  · obtain rfl := V2.Is.unique hp' hp
    refine (h I' _ _ hI' hi (hL _)).congr ?_
    ext <;> simp <;> ring

end Turned

/-- **C158** Other focal lengths scale the picture, another principal point shifts it (without distortion and with a Brown lens). -/
theorem C158_zoom (spline : Spline) (L : Choice) (hL : ∀ a b c, L ≠ .abc a b c) (k : Kind) (I I' : Intr) (hI : L.Usable I) (lx ly : ℝ) (hx : lx ≠ 0)
    (hy : ly ≠ 0) (h1 : I'.fx = lx * I.fx) (h2 : I'.fy = ly * I.fy) (o : Orient) (P : V3 ℝ) (hide : Bool) (q : V2 ℝ) :
    (imageFromSpace ⟨k, I, o, L.lens spline I⟩ P.num hide).Is q ↔
      (imageFromSpace ⟨k, I', o, L.lens spline I'⟩ P.num hide).Is ⟨I'.cx + lx * (q.x - I.cx), I'.cy + ly * (q.y - I.cy)⟩ := by
  have hI' : L.Usable I' := by
    cases L with
    | none => trivial
    | brown => exact ⟨by rw [h1]; exact mul_ne_zero hx hI.1, by rw [h2]; exact mul_ne_zero hy hI.2⟩
    | abc => exact absurd rfl (hL _ _ _)
  have hr : ∀ {J J' : Intr} {l m : ℝ}, l ≠ 0 → m ≠ 0 → J'.fx = l * J.fx → J'.fy = m * J.fy → ∀ p : V2 ℝ,
      L.radius J' ⟨J'.cx + l * (p.x - J.cx), J'.cy + m * (p.y - J.cy)⟩ = L.radius J p := by
    intro J J' l m hl hm e1 e2 p
    cases L with
    | none => rfl
    | brown =>
      simp only [Choice.radius, radius, e1, e2, add_sub_cancel_left]
      rw [mul_div_mul_left _ _ hl, mul_div_mul_left _ _ hm]
    | abc => exact absurd rfl (hL _ _ _)
  refine ⟨intr_one spline L k I I' hI hI' lx ly h1 h2 (hr hx hy h1 h2) o P hide q, fun h => ?_⟩
  have e1 : I.fx = lx⁻¹ * I'.fx := by rw [h1]; field_simp
  have e2 : I.fy = ly⁻¹ * I'.fy := by rw [h2]; field_simp
  refine (intr_one spline L k I' I hI' hI lx⁻¹ ly⁻¹ e1 e2 (hr (inv_ne_zero hx) (inv_ne_zero hy) e1 e2) o P hide _ h).congr ?_
  ext <;> simp [hx, hy]

/-- **C158** A camera for a picture of another size, with all intrinsic parameters scaled, sees the scaled picture, with all lenses. -/
theorem C158_resize (spline : Spline) (L : Choice) (k : Kind) (I : Intr) (hI : L.Usable I) (l : ℝ) (hl : 0 < l) (o : Orient) (P : V3 ℝ) (hide : Bool) (q : V2 ℝ) :
    (imageFromSpace ⟨k, I, o, L.lens spline I⟩ P.num hide).Is q ↔
      (imageFromSpace ⟨k, ⟨l * I.fx, l * I.fy, l * I.cx, l * I.cy, l * I.w, l * I.h⟩, o,
        L.lens spline ⟨l * I.fx, l * I.fy, l * I.cx, l * I.cy, l * I.w, l * I.h⟩⟩ P.num hide).Is ⟨l * q.x, l * q.y⟩ := by
  have us : ∀ {J : Intr} {m : ℝ}, 0 < m → L.Usable J → L.Usable ⟨m * J.fx, m * J.fy, m * J.cx, m * J.cy, m * J.w, m * J.h⟩ := by
    intro J m hm hJ
    cases L with
    | none => trivial
    | brown => exact ⟨mul_ne_zero hm.ne' hJ.1, mul_ne_zero hm.ne' hJ.2⟩
    | abc => exact ⟨mul_pos hm hJ.1, mul_pos hm hJ.2⟩
  have one : ∀ {J : Intr} {m : ℝ}, 0 < m → L.Usable J → ∀ q : V2 ℝ, (imageFromSpace ⟨k, J, o, L.lens spline J⟩ P.num hide).Is q →
      (imageFromSpace ⟨k, ⟨m * J.fx, m * J.fy, m * J.cx, m * J.cy, m * J.w, m * J.h⟩, o,
        L.lens spline ⟨m * J.fx, m * J.fy, m * J.cx, m * J.cy, m * J.w, m * J.h⟩⟩ P.num hide).Is ⟨m * q.x, m * q.y⟩ := by
    intro J m hm hJ q hq
    refine (intr_one spline L k J _ hJ (us hm hJ) m m rfl rfl (fun p => ?_) o P hide q hq).congr ?_
    · cases L with
      | none => rfl
      | brown =>
        simp only [Choice.radius, radius, add_sub_cancel_left]
        rw [mul_div_mul_left _ _ hm.ne', mul_div_mul_left _ _ hm.ne']
      | abc =>
        simp only [Choice.radius, radius, add_sub_cancel_left]
        rw [← mul_min_of_nonneg _ _ hm.le, mul_div_assoc m (min J.w J.h), mul_div_mul_left _ _ hm.ne', mul_div_mul_left _ _ hm.ne']
    · ext <;> simp <;> ring
  refine ⟨one hl hI q, fun h => ?_⟩
  have h' := one (inv_pos.2 hl) (us hl hI) _ h
  simp only [inv_mul_cancel_left₀ hl.ne'] at h'
  exact h'

/-- **C158** Another principal point shifts the picture, with all lenses. -/
theorem C158_centre (spline : Spline) (L : Choice) (k : Kind) (I : Intr) (hI : L.Usable I) (d : V2 ℝ) (o : Orient) (P : V3 ℝ) (hide : Bool) (q : V2 ℝ) :
    (imageFromSpace ⟨k, I, o, L.lens spline I⟩ P.num hide).Is q ↔
      (imageFromSpace ⟨k, { I with cx := I.cx + d.x, cy := I.cy + d.y }, o, L.lens spline { I with cx := I.cx + d.x, cy := I.cy + d.y }⟩ P.num hide).Is
        ⟨q.x + d.x, q.y + d.y⟩ := by
  have one : ∀ (J : Intr) (d : V2 ℝ), L.Usable J → ∀ q : V2 ℝ, (imageFromSpace ⟨k, J, o, L.lens spline J⟩ P.num hide).Is q →
      (imageFromSpace ⟨k, { J with cx := J.cx + d.x, cy := J.cy + d.y }, o, L.lens spline { J with cx := J.cx + d.x, cy := J.cy + d.y }⟩ P.num hide).Is
        ⟨q.x + d.x, q.y + d.y⟩ := by
    intro J d hJ q hq
    have hJ' : L.Usable { J with cx := J.cx + d.x, cy := J.cy + d.y } := by cases L <;> exact hJ
    refine (intr_one spline L k J _ hJ hJ' 1 1 (one_mul _).symm (one_mul _).symm (fun p => ?_) o P hide q hq).congr ?_
    · cases L with
      | none => rfl
      | brown => simp only [Choice.radius, radius, add_sub_cancel_left, one_mul]
      | abc => simp only [Choice.radius, radius, add_sub_cancel_left, one_mul]
    · ext <;> simp <;> ring
  refine ⟨one I d hI q, fun h => ?_⟩
  have h' := one _ ⟨-d.x, -d.y⟩ (by cases L <;> exact hI) _ h
  simpa using h'

namespace Turned

/-- The image of a panorama, also for points straight behind the camera. -/
theorem pan_any (k : Kind) (hk : k ≠ .rectilinear) (I : Intr) {n : V3 Num} {C : V3 ℝ} (h : n.Is C) (hz : minDepth ≤ |C.z|) (hide : Bool) :
    ∃ θ : ℝ, |θ| ≤ Real.pi ∧ Real.sqrt (C.x ^ 2 + C.z ^ 2) * Real.cos θ = -C.z ∧ Real.sqrt (C.x ^ 2 + C.z ^ 2) * Real.sin θ = -C.x ∧
      (Projection.imageFromCamera k I n hide).Is ⟨-I.fx * θ + I.cx,
        -I.fy * (match k with | .equirectangular => Complex.arg ⟨Real.sqrt (C.x ^ 2 + C.z ^ 2), C.y⟩ | _ => C.y / Real.sqrt (C.x ^ 2 + C.z ^ 2)) + I.cy⟩ := by
  have hs := snap_far h hz
  have hz0 : C.z ≠ 0 := by
    intro e; rw [e] at hz; norm_num [minDepth] at hz
  have hpos : 0 < (-C.z) ^ 2 + (-C.x) ^ 2 := by
    have : 0 < C.z ^ 2 := by positivity
    nlinarith [sq_nonneg C.x]
  have e : (-C.z) ^ 2 + (-C.x) ^ 2 = C.x ^ 2 + C.z ^ 2 := by ring
  obtain ⟨θ, t1, t2, t3, t4⟩ := arctan2_spec h.1.neg h.2.2.neg hpos.ne'
  rw [e] at t3 t4 hpos
  have hr : 0 < Real.sqrt (C.x ^ 2 + C.z ^ 2) := Real.sqrt_pos.2 hpos
  have hsq := ((h.1.npow 2).add (h.2.2.npow 2)).sqrt hpos.le
  refine ⟨θ, t2, t3, t4, ?_⟩
  cases k with
  | rectilinear => exact absurd rfl hk
  | cylindrical =>
    have y : Num.Is (-(Num.fin I.fy) * n.y / Num.sqrt (n.x.npow 2 + n.z.npow 2) + Num.fin I.cy) (-I.fy * (C.y / Real.sqrt (C.x ^ 2 + C.z ^ 2)) + I.cy) :=
      ((((Num.is_fin I.fy).neg.mul h.2.1).div hsq hr.ne').add (Num.is_fin I.cy)).congr (by ring)
    simp only [Projection.imageFromCamera, imageFromCameraCyl, projCyl, hs]
    rw [if_neg y.ne_nan]
    exact ⟨((Num.is_fin I.fx).neg.mul t1).add (Num.is_fin I.cx), y⟩
  | equirectangular =>
    simp only [Projection.imageFromCamera, imageFromCameraEqui, projEqui, hs]
    exact ⟨((Num.is_fin I.fx).neg.mul t1).add (Num.is_fin I.cx), ((Num.is_fin I.fy).neg.mul (h.2.1.arctan2 hsq (Or.inr hr))).add (Num.is_fin I.cy)⟩

/-- The camera coordinates after a turn of a level camera. -/
theorem camR_panned (k : Kind) (I : Intr) (o : Orient) (ho : Level o) (d : ℝ) (L : Lens) (P : V3 ℝ) :
    camR ⟨k, I, panned d o, L⟩ P =
      ⟨Real.cos (d * Real.pi / 180) * (camR ⟨k, I, o, L⟩ P).x + Real.sin (d * Real.pi / 180) * (camR ⟨k, I, o, L⟩ P).z, (camR ⟨k, I, o, L⟩ P).y,
        -Real.sin (d * Real.pi / 180) * (camR ⟨k, I, o, L⟩ P).x + Real.cos (d * Real.pi / 180) * (camR ⟨k, I, o, L⟩ P).z⟩ := by
  have e1 : ∀ x : ℝ, Spatial.rad x = x * Real.pi / 180 := fun x => by unfold Spatial.rad; ring
  cases o with
  | thr p =>
    obtain ⟨e, t, r, h, x, y⟩ := p
    obtain ⟨h1, h2⟩ := ho
    simp only at h1 h2
    subst h1 h2
    have w := (C12_heading_wrap ⟨e, 90, 0, h, x, y⟩).2.2.2.2.1
    have w' := (C12_heading_wrap ⟨e, 90, 0, h + d, x, y⟩).2.2.2.2.1
    have a : (h + d) * Real.pi / 180 = h * Real.pi / 180 + d * Real.pi / 180 := by ring
    have b : (90 : ℝ) * Real.pi / 180 = Real.pi / 2 := by ring
    ext <;> simp [camR, panned, Orient.mat, Orient.pos, w, w', Spatial.matrices, e1, a, b, Real.cos_add, Real.sin_add, M3.applyR, V3.dot,
      Spatial.rotation, M3.mul, M3.rowMul, M3.T, Spatial.R_roll, Spatial.R_tilt, Spatial.R_head] <;> ring
  | ypr p =>
    obtain ⟨h1, h2⟩ := ho
    have a : (p.yaw_deg + d) * Real.pi / 180 = p.yaw_deg * Real.pi / 180 + d * Real.pi / 180 := by ring
    have b : Spatial.wrap360 0 = 0 := by unfold Spatial.wrap360; rw [if_neg (by norm_num)]
    ext <;> simp [camR, panned, Orient.mat, Orient.pos, Spatial.initCameraMatrixYPR, Spatial.matricesYPR, e1, a, b, h1, h2, Real.cos_add, Real.sin_add, M3.applyR,
      V3.dot, Spatial.rotation, M3.mul, M3.rowMul, M3.T, Spatial.R_roll, Spatial.R_tilt, Spatial.R_head] <;> ring

end Turned

/-- **C158** Turning a level panorama camera by `d` degrees shifts the picture to the left by `d` degrees of the full circle; what leaves it on one side comes in on
the other.  The rows stay the same. -/
theorem C158_heading (k : Kind) (hk : k ≠ .rectilinear) (I : Intr) (o : Orient) (ho : Level o) (d : ℝ) (P : V3 ℝ) (hide : Bool)
    (h1 : Deep ⟨k, I, o, noDistortion⟩ P) (h2 : Deep ⟨k, I, panned d o, noDistortion⟩ P) :
    ∃ (q q' : V2 ℝ) (n : ℤ), (imageFromSpace ⟨k, I, o, noDistortion⟩ P.num hide).Is q ∧
      (imageFromSpace ⟨k, I, panned d o, noDistortion⟩ P.num hide).Is q' ∧ q'.y = q.y ∧
      q'.x = q.x - I.fx * (d * Real.pi / 180) + n * (2 * Real.pi * I.fx) ∧ |q.x - I.cx| ≤ Real.pi * |I.fx| ∧ |q'.x - I.cx| ≤ Real.pi * |I.fx| := by
  obtain ⟨C, hC, hz⟩ := h1
  obtain ⟨C', hC', hz'⟩ := h2
  have e : C = camR ⟨k, I, o, noDistortion⟩ P := hC.unique (cameraFromSpace_is ⟨k, I, o, noDistortion⟩ (V3.is_num P))
  have e' : C' = camR ⟨k, I, panned d o, noDistortion⟩ P := hC'.unique (cameraFromSpace_is ⟨k, I, panned d o, noDistortion⟩ (V3.is_num P))
  rw [camR_panned k I o ho, ← e] at e'
  obtain ⟨θ, t1, t2, t3, hq⟩ := pan_any k hk I hC hz hide
  obtain ⟨θ', t1', t2', t3', hq'⟩ := pan_any k hk I hC' hz' hide
  have hsc := Real.sin_sq_add_cos_sq (d * Real.pi / 180)
  have hn : C'.x ^ 2 + C'.z ^ 2 = C.x ^ 2 + C.z ^ 2 := by
    rw [e']
    simp only
    linear_combination (C.x ^ 2 + C.z ^ 2) * hsc
  have hy : C'.y = C.y := by rw [e']
  rw [hn] at t2' t3' hq'
  have hz0 : C.z ≠ 0 := by
    intro h0; rw [h0] at hz; norm_num [minDepth] at hz
  have hr : 0 < Real.sqrt (C.x ^ 2 + C.z ^ 2) := Real.sqrt_pos.2 (by positivity)
  have hc : Real.cos θ' = Real.cos (θ + d * Real.pi / 180) := by
    apply mul_left_cancel₀ hr.ne'
    rw [t2', e', Real.cos_add]
    simp only
    linear_combination -Real.cos (d * Real.pi / 180) * t2 + Real.sin (d * Real.pi / 180) * t3
  have hs : Real.sin θ' = Real.sin (θ + d * Real.pi / 180) := by
    apply mul_left_cancel₀ hr.ne'
    rw [t3', e', Real.sin_add]
    simp only
    linear_combination -Real.cos (d * Real.pi / 180) * t3 - Real.sin (d * Real.pi / 180) * t2
  obtain ⟨n, hn⟩ := Real.Angle.angle_eq_iff_two_pi_dvd_sub.1 (Real.Angle.cos_sin_inj hc hs)
  have bound : ∀ t : ℝ, |t| ≤ Real.pi → |-I.fx * t + I.cx - I.cx| ≤ Real.pi * |I.fx| := fun t ht => by
    rw [add_sub_cancel_right, abs_mul, abs_neg, mul_comm]
    exact mul_le_mul_of_nonneg_right ht (abs_nonneg _)
  refine ⟨_, _, -n, hq, hq', ?_, ?_, bound _ t1, bound _ t1'⟩
  · simp only [hy]
  · simp only
    push_cast
    linear_combination -I.fx * hn

/-! ### Examples -/

example : (Choice.brown (1 / 10) 0 0).Usable ⟨100, 100, 50, 25, 100, 50⟩ ∧ (Choice.abc (1 / 10) 0 0).Usable ⟨100, 100, 50, 25, 100, 50⟩ := by
  norm_num [Choice.Usable]

example (spline : Spline) : ∃ q : V2 ℝ, (imageFromSpace Lines.exCam (V3.num ⟨1, 20, 0⟩)).Is q ∧
    (imageFromSpace ⟨.rectilinear, ⟨100, 100, 50, 25, 100, 50⟩, .thr ⟨10, 90, 0 + 30, 0, 0, 0⟩, Choice.none.lens spline ⟨100, 100, 50, 25, 100, 50⟩⟩ (V3.num ⟨1, 20, 0⟩)).Is
      (turn ⟨50, 25⟩ (30 * Real.pi / 180) q) := by
  obtain ⟨q, hq⟩ := Lines.exCam_sees ⟨1, 20, 0⟩ (by norm_num)
  exact ⟨q, hq, (C158_roll spline .none ⟨100, 100, 50, 25, 100, 50⟩ trivial rfl (.thr ⟨10, 90, 0, 0, 0, 0⟩) 30 _ true q).1 hq⟩

example (spline : Spline) : ∃ q : V2 ℝ, (imageFromSpace Lines.exCam (V3.num ⟨1, 20, 0⟩)).Is q ∧
    (imageFromSpace ⟨.rectilinear, ⟨200, 300, 60, 70, 100, 50⟩, .thr ⟨10, 90, 0, 0, 0, 0⟩, Choice.none.lens spline ⟨200, 300, 60, 70, 100, 50⟩⟩ (V3.num ⟨1, 20, 0⟩)).Is
      ⟨60 + 2 * (q.x - 50), 70 + 3 * (q.y - 25)⟩ := by
  obtain ⟨q, hq⟩ := Lines.exCam_sees ⟨1, 20, 0⟩ (by norm_num)
  exact ⟨q, hq, (C158_zoom spline .none (by simp) .rectilinear ⟨100, 100, 50, 25, 100, 50⟩ ⟨200, 300, 60, 70, 100, 50⟩ trivial 2 3 (by norm_num) (by norm_num)
    (by norm_num) (by norm_num) (.thr ⟨10, 90, 0, 0, 0, 0⟩) _ true q).1 hq⟩

example : Level (.thr ⟨10, 90, 0, 20, 0, 0⟩) ∧ Level (.ypr ⟨10, 20, 0, 0, 0, 0⟩) ∧
    Deep ⟨.cylindrical, ⟨100, 100, 50, 25, 100, 50⟩, .thr ⟨10, 90, 0, 0, 0, 0⟩, noDistortion⟩ ⟨20, 20, 0⟩ ∧
    Deep ⟨.cylindrical, ⟨100, 100, 50, 25, 100, 50⟩, panned 180 (.thr ⟨10, 90, 0, 0, 0, 0⟩), noDistortion⟩ ⟨20, 20, 0⟩ := by
  have h1 : camR ⟨.cylindrical, ⟨100, 100, 50, 25, 100, 50⟩, .thr ⟨10, 90, 0, 0, 0, 0⟩, noDistortion⟩ ⟨20, 20, 0⟩ = ⟨20, -10, -20⟩ := by
    refine (Lines.exCam_camR ⟨20, 20, 0⟩).trans ?_
    ext <;> norm_num
  refine ⟨by norm_num [Level], by norm_num [Level], ⟨_, cameraFromSpace_is _ (V3.is_num _), ?_⟩, ⟨_, cameraFromSpace_is _ (V3.is_num _), ?_⟩⟩
  · rw [h1]; norm_num [minDepth]
  · rw [camR_panned _ _ _ (by norm_num [Level]), h1]
    have e : (180 : ℝ) * Real.pi / 180 = Real.pi := by ring
    norm_num [minDepth, e]
