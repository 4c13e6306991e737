import Mathlib.Analysis.SpecialFunctions.Complex.Arg
import Mathlib.Analysis.SpecialFunctions.Complex.Log
import Verif.Spec.Moving
import Verif.Props.Turned
import Verif.Props.RoundPan

/-! # Pictures depend continuously on the camera (C160) -/

open Classical Camera Projection LensModel LensSpec Turned Topology Filter

namespace Moving

variable {X : Type} [TopologicalSpace X] {x0 : X}

theorem ypr_wrap (p : Spatial.ParamsYPR) : (Spatial.initCameraMatrixYPR p).2 = Spatial.matricesYPR p := by
  obtain ⟨k, hk⟩ := Spatial.wrap360_turns p.pitch_deg
  have e : Real.pi / 2 + Spatial.rad (p.pitch_deg + 360 * k) = Real.pi / 2 + Spatial.rad p.pitch_deg + k * (2 * Real.pi) := by unfold Spatial.rad; ring
  simp only [Spatial.initCameraMatrixYPR, Spatial.matricesYPR, hk, e, Spatial.rotation, Spatial.R_tilt, Real.cos_add_int_mul_two_pi, Real.sin_add_int_mul_two_pi]

theorem camR_moving {k : X → Kind} {I : X → Projection.Intr} {L : X → Camera.Lens} {o : X → Camera.Orient} {P : X → V3 ℝ} (ho : Orient o x0) (hP : Point P x0) :
    Point (fun x => camR ⟨k x, I x, o x, L x⟩ (P x)) x0 := by
  obtain ⟨p1, p2, p3⟩ := hP
  obtain ⟨p, hp, h1, h2, h3, h4, h5, h6⟩ | ⟨p, hp, h1, h2, h3, h4, h5, h6⟩ := ho
  · simp only [Point, camR, hp, Orient.mat, Orient.pos, (C12_heading_wrap _).2.2.2.2.1, Spatial.matrices, Spatial.rad, M3.applyR, V3.dot,
      Spatial.rotation, M3.mul, M3.rowMul, M3.T, Spatial.R_roll, Spatial.R_tilt, Spatial.R_head, V3.sub_x, V3.sub_y, V3.sub_z]
    refine ⟨?_, ?_, ?_⟩ <;> fun_prop
  · simp only [Point, camR, hp, Orient.mat, Orient.pos, ypr_wrap, Spatial.matricesYPR, Spatial.rad, M3.applyR, V3.dot,
      Spatial.rotation, M3.mul, M3.rowMul, M3.T, Spatial.R_roll, Spatial.R_tilt, Spatial.R_head, V3.sub_x, V3.sub_y, V3.sub_z]
    refine ⟨?_, ?_, ?_⟩ <;> fun_prop

theorem eventually_ne {f : X → ℝ} (hf : ContinuousAt f x0) (h : f x0 ≠ 0) : ∀ᶠ x in 𝓝 x0, f x ≠ 0 := hf.eventually_ne h

theorem arg_moving {a b : X → ℝ} (ha : ContinuousAt a x0) (hb : ContinuousAt b x0) (h : 0 < a x0 ∨ b x0 ≠ 0) :
    ContinuousAt (fun x => Complex.arg ⟨a x, b x⟩) x0 := by
  have e : (fun x => (⟨a x, b x⟩ : ℂ)) = fun x => (a x : ℂ) + (b x : ℂ) * Complex.I := funext fun x => Complex.mk_eq_add_mul_I _ _
  have hc : ContinuousAt (fun x => (⟨a x, b x⟩ : ℂ)) x0 := by
    rw [e]
    exact (Complex.continuous_ofReal.continuousAt.comp ha).add ((Complex.continuous_ofReal.continuousAt.comp hb).mul continuousAt_const)
  exact (Complex.continuousAt_arg (Complex.mem_slitPlane_iff.2 h)).comp hc

/-- The undistorted picture. -/
theorem plain {k : Kind} {I : X → Projection.Intr} {o : X → Camera.Orient} {P : X → V3 ℝ} (hI : Intr I x0) (ho : Orient o x0) (hP : Point P x0)
    (h : Clear k (o x0) (P x0)) (hide : Bool) :
    ∃ F : X → V2 ℝ, Pixel F x0 ∧ ∀ᶠ x in 𝓝 x0, (imageFromSpace ⟨k, I x, o x, noDistortion⟩ (P x).num hide).Is (F x) := by
  obtain ⟨C, hC, hz, hs⟩ := h
  obtain ⟨c1, c2, c3⟩ := camR_moving (k := fun _ => k) (I := I) (L := fun _ => noDistortion) ho hP
  obtain ⟨i1, i2, i3, i4, i5, i6⟩ := hI
  have e : C = camR ⟨k, I x0, o x0, noDistortion⟩ (P x0) := hC.unique (cameraFromSpace_is ⟨k, I x0, o x0, noDistortion⟩ (V3.is_num (P x0)))
  have hz0 : C.z ≠ 0 := by
    intro h0; rw [h0] at hz; norm_num [minDepth] at hz
  obtain ⟨c, hc⟩ : ∃ c : X → V3 ℝ, ∀ x, c x = camR ⟨k, I x, o x, noDistortion⟩ (P x) := ⟨_, fun _ => rfl⟩
  simp only [← hc] at c1 c2 c3 e
  subst e
  have ez : ∀ᶠ x in 𝓝 x0, minDepth < |(c x).z| := c3.abs.eventually (lt_mem_nhds hz)
  cases k with
  | rectilinear =>
    simp only at hs
    refine ⟨fun x => ⟨-(c x).x * (I x).fx / (c x).z + (I x).cx, (c x).y * (I x).fy / (c x).z + (I x).cy⟩, ⟨?_, ?_⟩, ?_⟩
    · exact ((c1.neg.mul i1).div c3 hz0).add i3
    · exact ((c2.mul i2).div c3 hz0).add i4
    · filter_upwards [ez, c3.eventually (gt_mem_nhds hs)] with x h1 h2
      rw [hc] at h1 h2 ⊢
      exact Lines.image_of ⟨.rectilinear, I x, o x, noDistortion⟩ rfl rfl (P x) hide h1.le (fun _ => h2)
  | cylindrical =>
    simp only at hs
    have hr : 0 < Real.sqrt ((c x0).x ^ 2 + (c x0).z ^ 2) := Real.sqrt_pos.2 (by positivity)
    refine ⟨fun x => ⟨-(I x).fx * Complex.arg ⟨-(c x).z, -(c x).x⟩ + (I x).cx, -(I x).fy * ((c x).y / Real.sqrt ((c x).x ^ 2 + (c x).z ^ 2)) + (I x).cy⟩, ⟨?_, ?_⟩, ?_⟩
    · exact (i1.neg.mul (arg_moving c3.neg c1.neg (hs.symm.imp neg_pos.2 neg_ne_zero.2))).add i3
    · exact (i2.neg.mul (c2.div ((c1.pow 2).add (c3.pow 2)).sqrt hr.ne')).add i4
    · have es : ∀ᶠ x in 𝓝 x0, (c x).x ≠ 0 ∨ (c x).z < 0 := by
        obtain h | h := hs
        · exact (eventually_ne c1 h).mono fun x hx => Or.inl hx
        · exact (c3.eventually (gt_mem_nhds h)).mono fun x hx => Or.inr hx
      filter_upwards [ez, es] with x h1 h2
      rw [hc] at h1 h2 ⊢
      exact Rounded.pan_is .cylindrical (by simp) (I x) (cameraFromSpace_is ⟨.cylindrical, I x, o x, noDistortion⟩ (V3.is_num (P x))) h1.le h2 hide
  | equirectangular =>
    simp only at hs
    have hr : 0 < Real.sqrt ((c x0).x ^ 2 + (c x0).z ^ 2) := Real.sqrt_pos.2 (by positivity)
    refine ⟨fun x => ⟨-(I x).fx * Complex.arg ⟨-(c x).z, -(c x).x⟩ + (I x).cx, -(I x).fy * Complex.arg ⟨Real.sqrt ((c x).x ^ 2 + (c x).z ^ 2), (c x).y⟩ + (I x).cy⟩,
      ⟨?_, ?_⟩, ?_⟩
    · exact (i1.neg.mul (arg_moving c3.neg c1.neg (hs.symm.imp neg_pos.2 neg_ne_zero.2))).add i3
    · exact (i2.neg.mul (arg_moving ((c1.pow 2).add (c3.pow 2)).sqrt c2 (Or.inl hr))).add i4
    · have es : ∀ᶠ x in 𝓝 x0, (c x).x ≠ 0 ∨ (c x).z < 0 := by
        obtain h | h := hs
        · exact (eventually_ne c1 h).mono fun x hx => Or.inl hx
        · exact (c3.eventually (gt_mem_nhds h)).mono fun x hx => Or.inr hx
      filter_upwards [ez, es] with x h1 h2
      rw [hc] at h1 h2 ⊢
      exact Rounded.pan_is .equirectangular (by simp) (I x) (cameraFromSpace_is ⟨.equirectangular, I x, o x, noDistortion⟩ (V3.is_num (P x))) h1.le h2 hide

/-- A radial lens away from its centre. -/
theorem radial {S O : X → V2 ℝ} {f : X → Num → Num} {g : X → ℝ → ℝ} (hfg : ∀ x n r, Num.Is n r → Num.Is (f x n) (g x r))
    (hg : ∀ r : X → ℝ, ContinuousAt r x0 → ContinuousAt (fun x => g x (r x)) x0) (hS : Pixel S x0) (hO : Pixel O x0) (hS0 : (S x0).x ≠ 0 ∧ (S x0).y ≠ 0)
    {p : X → V2 ℝ} (hp : Pixel p x0) (h0 : p x0 ≠ O x0) (inv : X → Num → Num) :
    ∃ F : X → V2 ℝ, Pixel F x0 ∧ ∀ᶠ x in 𝓝 x0, ∀ n : V2 Num, n.Is (p x) → (transform ⟨S x, O x, f x, inv x⟩ (f x) n).Is (F x) := by
  obtain ⟨s1, s2⟩ := hS
  obtain ⟨o1, o2⟩ := hO
  obtain ⟨p1, p2⟩ := hp
  have hr : ContinuousAt (fun x => radius (S x) (O x) (p x)) x0 := by
    unfold radius
    exact ((((p1.sub o1).div s1 hS0.1).pow 2).add (((p2.sub o2).div s2 hS0.2).pow 2)).sqrt
  have hr0 : radius (S x0) (O x0) (p x0) ≠ 0 := by
    intro h
    apply h0
    unfold radius at h
    rw [Real.sqrt_eq_zero (by positivity)] at h
    have a : ((p x0).x - (O x0).x) / (S x0).x = 0 := by
      nlinarith [sq_nonneg (((p x0).x - (O x0).x) / (S x0).x), sq_nonneg (((p x0).y - (O x0).y) / (S x0).y)]
    have b : ((p x0).y - (O x0).y) / (S x0).y = 0 := by
      nlinarith [sq_nonneg (((p x0).x - (O x0).x) / (S x0).x), sq_nonneg (((p x0).y - (O x0).y) / (S x0).y)]
    rw [div_eq_zero_iff, or_iff_left hS0.1, sub_eq_zero] at a
    rw [div_eq_zero_iff, or_iff_left hS0.2, sub_eq_zero] at b
    ext <;> assumption
  refine ⟨fun x => ⟨g x (radius (S x) (O x) (p x)) / radius (S x) (O x) (p x) * ((p x).x - (O x).x) + (O x).x,
    g x (radius (S x) (O x) (p x)) / radius (S x) (O x) (p x) * ((p x).y - (O x).y) + (O x).y⟩, ⟨?_, ?_⟩, ?_⟩
  · exact ((((hg _ hr).div hr hr0).mul (p1.sub o1)).add o1)
  · exact ((((hg _ hr).div hr hr0).mul (p2.sub o2)).add o2)
  · filter_upwards [eventually_ne s1 hS0.1, eventually_ne s2 hS0.2, eventually_ne hr hr0] with x h1 h2 h3 n hn
    exact transform_is (L := ⟨S x, O x, f x, inv x⟩) hn h1 h2 h3 fun m hm => hfg x m _ hm

end Moving

/-- **C160** If the parameters of a camera and a point change continuously, the image of the point moves continuously: in front of a rectilinear camera, and away
from the cut of a panorama; with a distorting lens away from the centre of the picture. -/
theorem C160_image {X : Type} [TopologicalSpace X] (x : X) (spline : Spline) (k : Kind) (I : X → Intr) (hI : Moving.Intr I x) (o : X → Orient) (ho : Moving.Orient o x)
    (L : X → Choice) (hL : Moving.Lens L x) (hu : (L x).Usable (I x)) (P : X → V3 ℝ) (hP : Moving.Point P x) (hide : Bool) (h : Moving.Clear k (o x) (P x))
    (hc : L x = .none ∨ ∃ p : V2 ℝ, (imageFromSpace ⟨k, I x, o x, noDistortion⟩ (P x).num hide).Is p ∧ p ≠ ⟨(I x).cx, (I x).cy⟩) :
    ∃ F : X → V2 ℝ, Moving.Pixel F x ∧ ∀ᶠ y in 𝓝 x, (imageFromSpace ⟨k, I y, o y, (L y).lens spline (I y)⟩ (P y).num hide).Is (F y) := by
  obtain ⟨p, hp, hq⟩ := Moving.plain hI ho hP h hide
  obtain ⟨i1, i2, i3, i4, i5, i6⟩ := hI
  obtain hL | ⟨a, b, c, hL, ha, hb, hc'⟩ | ⟨a, b, c, hL, ha, hb, hc'⟩ := hL
  · refine ⟨p, hp, hq.mono fun y hy => ?_⟩
    rw [hL]
    exact hy
  · rw [hL] at hu hc
    obtain ⟨p', h1, h2⟩ := hc.resolve_left (by simp)
    rw [h1.unique hq.self_of_nhds] at h2
    obtain ⟨F, hF, h'⟩ := Moving.radial (S := fun y => ⟨(I y).fx, (I y).fy⟩) (O := fun y => ⟨(I y).cx, (I y).cy⟩) (f := fun y => brownRadius (a y) (b y) (c y))
      (g := fun y => brownPoly (a y) (b y) (c y)) (fun y n r => brownRadius_is) (fun r hr => by unfold brownPoly; fun_prop) ⟨i1, i2⟩ ⟨i3, i4⟩ hu hp h2
      fun y => invertFunction spline knots (brownRadius (a y) (b y) (c y))
    refine ⟨F, hF, ?_⟩
    filter_upwards [hq, h'] with y h3 h4
    rw [hL]
    exact h4 _ h3
  · rw [hL] at hu hc
    obtain ⟨p', h1, h2⟩ := hc.resolve_left (by simp)
    rw [h1.unique hq.self_of_nhds] at h2
    have hm : min (I x).w (I x).h / 2 ≠ 0 := (half_pos (lt_min hu.1 hu.2)).ne'
    have cm : ContinuousAt (fun y => min (I y).w (I y).h / 2) x := (i5.min i6).div_const 2
    obtain ⟨F, hF, h'⟩ := Moving.radial (S := fun y => ⟨min (I y).w (I y).h / 2, min (I y).w (I y).h / 2⟩) (O := fun y => ⟨(I y).cx, (I y).cy⟩)
      (f := fun y => abcRadius (a y) (b y) (c y)) (g := fun y => abcPoly (a y) (b y) (c y)) (fun y n r => abcRadius_is)
      (fun r hr => by unfold abcPoly; fun_prop) ⟨cm, cm⟩ ⟨i3, i4⟩ ⟨hm, hm⟩ hp h2 fun y => invertFunction spline knots (abcRadius (a y) (b y) (c y))
    refine ⟨F, hF, ?_⟩
    filter_upwards [hq, h'] with y h3 h4
    rw [hL]
    exact h4 _ h3

namespace Moving

variable {X : Type} [TopologicalSpace X] {x0 : X}

theorem ray_moving {k : Kind} {I : X → Projection.Intr} {p : X → V2 ℝ} (hI : Intr I x0) (hp : Pixel p x0) (hf : (I x0).fx ≠ 0 ∧ (I x0).fy ≠ 0)
    (hk : k = .equirectangular → Real.cos (((p x0).y - (I x0).cy) / (I x0).fy) ≠ 0) : Point (fun x => rayR k (I x) (p x)) x0 := by
  obtain ⟨i1, i2, i3, i4, i5, i6⟩ := hI
  obtain ⟨p1, p2⟩ := hp
  have a := (p1.sub i3).div i1 hf.1
  have b := (p2.sub i4).div i2 hf.2
  have sa : ContinuousAt (fun x => Real.sin (((p x).x - (I x).cx) / (I x).fx)) x0 := Real.continuous_sin.continuousAt.comp a
  have ca : ContinuousAt (fun x => Real.cos (((p x).x - (I x).cx) / (I x).fx)) x0 := Real.continuous_cos.continuousAt.comp a
  cases k with
  | rectilinear => exact ⟨a, b.neg, continuousAt_const⟩
  | cylindrical => exact ⟨sa, b.neg, ca.neg⟩
  | equirectangular =>
    have tb : ContinuousAt (fun x => Real.tan (((p x).y - (I x).cy) / (I x).fy)) x0 :=
      ContinuousAt.comp (f := fun x => ((p x).y - (I x).cy) / (I x).fy) (Real.continuousAt_tan.2 (hk rfl)) b
    exact ⟨sa, tb.neg, ca.neg⟩

theorem dir_moving {k : Kind} {I : X → Projection.Intr} {o : X → Camera.Orient} {p : X → V2 ℝ} (ho : Orient o x0) (hr : Point (fun x => rayR k (I x) (p x)) x0) :
    Point (fun x => dirR ⟨k, I x, o x, noDistortion⟩ (p x)) x0 := by
  obtain ⟨r1, r2, r3⟩ := hr
  obtain ⟨P, hp, h1, h2, h3, h4, h5, h6⟩ | ⟨P, hp, h1, h2, h3, h4, h5, h6⟩ := ho
  · simp only [Point, dirR, hp, Orient.mat, (C12_heading_wrap _).2.2.2.2.1, Spatial.matrices, Spatial.rad, M3.applyR, V3.dot,
      Spatial.rotation, M3.mul, M3.rowMul, M3.T, Spatial.R_roll, Spatial.R_tilt, Spatial.R_head]
    refine ⟨?_, ?_, ?_⟩ <;> fun_prop
  · simp only [Point, dirR, hp, Orient.mat, ypr_wrap, Spatial.matricesYPR, Spatial.rad, M3.applyR, V3.dot,
      Spatial.rotation, M3.mul, M3.rowMul, M3.T, Spatial.R_roll, Spatial.R_tilt, Spatial.R_head]
    refine ⟨?_, ?_, ?_⟩ <;> fun_prop

theorem pos_moving {o : X → Camera.Orient} (ho : Orient o x0) : Point (fun x => (o x).pos) x0 := by
  obtain ⟨P, hp, h1, h2, h3, h4, h5, h6⟩ | ⟨P, hp, h1, h2, h3, h4, h5, h6⟩ := ho
  · simp only [Point, hp, Orient.pos]
    exact ⟨h5, h6, h1⟩
  · simp only [Point, hp, Orient.pos]
    exact ⟨h5, h6, h1⟩

theorem Point.get {P : X → V3 ℝ} (h : Point P x0) (i : Fin 3) : ContinuousAt (fun x => (P x).get i) x0 := by
  obtain ⟨h1, h2, h3⟩ := h
  fin_cases i <;> assumption

end Moving

/-- **C160** If the parameters of a camera without lens distortion, a pixel and a plane change continuously, the point of the plane seen at the pixel moves
continuously, where the ray of the pixel meets the plane ahead of the camera. -/
theorem C160_space {X : Type} [TopologicalSpace X] (x : X) (k : Kind) (I : X → Intr) (hI : Moving.Intr I x) (hf : (I x).fx ≠ 0 ∧ (I x).fy ≠ 0) (o : X → Orient)
    (ho : Moving.Orient o x) (p : X → V2 ℝ) (hp : Moving.Pixel p x) (hk : k = .equirectangular → Real.cos (((p x).y - (I x).cy) / (I x).fy) ≠ 0)
    (i : Fin 3) (v : X → ℝ) (hv : ContinuousAt v x) (d : V3 ℝ) (hd : (Camera.getRay ⟨k, I x, o x, noDistortion⟩ (p x).num).2.Is d)
    (h : d.get i ≠ 0) (h' : 0 < (v x - (o x).pos.get i) / d.get i) :
    ∃ F : X → V3 ℝ, Moving.Point F x ∧ ∀ᶠ y in 𝓝 x, ∃ P : V3 Num,
      spaceFromImage ⟨k, I y, o y, noDistortion⟩ (p y).num (coord i (.fin (v y))) = .ok P ∧ P.Is (F y) := by
  have md := Moving.dir_moving ho (Moving.ray_moving hI hp hf hk)
  have mp := Moving.pos_moving ho
  have e : d = dirR ⟨k, I x, o x, noDistortion⟩ (p x) := hd.unique (getRay_real ⟨k, I x, o x, noDistortion⟩ hf (V2.is_num (p x)))
  subst e
  have mf := (hv.sub (mp.get i)).div (md.get i) h
  have me : ∀ᶠ y in 𝓝 x, 0 < (v y - (o y).pos.get i) / (dirR ⟨k, I y, o y, noDistortion⟩ (p y)).get i := mf.eventually (lt_mem_nhds h')
  obtain ⟨i1, i2, i3, i4, i5, i6⟩ := hI
  refine ⟨fun y => (dirR ⟨k, I y, o y, noDistortion⟩ (p y)).mulS ((v y - (o y).pos.get i) / (dirR ⟨k, I y, o y, noDistortion⟩ (p y)).get i) + (o y).pos,
    ⟨?_, ?_, ?_⟩, ?_⟩
  · exact (md.1.mul mf).add mp.1
  · exact (md.2.1.mul mf).add mp.2.1
  · exact (md.2.2.mul mf).add mp.2.2
  · filter_upwards [me, Moving.eventually_ne (md.get i) h, Moving.eventually_ne i1 hf.1, Moving.eventually_ne i2 hf.2] with y h1 h2 h3 h4
    have hd := getRay_real ⟨k, I y, o y, noDistortion⟩ ⟨h3, h4⟩ (V2.is_num (p y))
    have hoff := getRay_offset ⟨k, I y, o y, noDistortion⟩ (p y).num false
    exact ⟨_, spaceFromImage_coord _ _ i _, pointAt_is hd hoff (((Num.is_fin (v y)).sub (hoff.get i)).div (hd.get i) h2) h1.le⟩

/-! ### Examples -/

/-- A camera that turns and rises while it zooms. -/
theorem Moving.ex_params : Moving.Intr (fun t : ℝ => ⟨100 + t, 100 + t, 50, 25, 100, 50⟩) 0 ∧
    Moving.Orient (fun t : ℝ => .thr ⟨10 + t, 90 + t, t, t, 0, 0⟩) 0 ∧ Moving.Clear .rectilinear (.thr ⟨10 + 0, 90 + 0, 0, 0, 0, 0⟩) ⟨1, 20, 0⟩ := by
  refine ⟨?_, Or.inl ⟨fun t : ℝ => ⟨10 + t, 90 + t, t, t, 0, 0⟩, fun _ => rfl, ?_, ?_, ?_, ?_, ?_, ?_⟩, ?_⟩
  · unfold Moving.Intr
    refine ⟨?_, ?_, ?_, ?_, ?_, ?_⟩ <;> fun_prop
  all_goals try fun_prop
  rw [add_zero, add_zero]
  refine ⟨⟨1, -10, -20⟩, (cameraFromSpace_is Lines.exCam (V3.is_num ⟨1, 20, 0⟩)).congr ?_, ?_⟩
  · rw [Lines.exCam_camR]
    norm_num
  · norm_num [minDepth]

example (spline : Spline) : ∃ F : ℝ → V2 ℝ, Moving.Pixel F 0 ∧ ∀ᶠ t in 𝓝 0,
    (imageFromSpace ⟨.rectilinear, ⟨100 + t, 100 + t, 50, 25, 100, 50⟩, .thr ⟨10 + t, 90 + t, t, t, 0, 0⟩, noDistortion⟩ (V3.num ⟨1, 20, 0⟩)).Is (F t) := by
  obtain ⟨h1, h2, h3⟩ := Moving.ex_params
  exact C160_image (0 : ℝ) spline .rectilinear _ h1 _ h2 (fun _ => .none) (Or.inl fun _ => rfl) trivial (fun _ => ⟨1, 20, 0⟩)
    ⟨continuousAt_const, continuousAt_const, continuousAt_const⟩ true h3 (Or.inl rfl)

/-- The same with a lens that changes as well. -/
example (spline : Spline) : ∃ F : ℝ → V2 ℝ, Moving.Pixel F 0 ∧ ∀ᶠ t in 𝓝 0,
    (imageFromSpace ⟨.rectilinear, ⟨100 + t, 100 + t, 50, 25, 100, 50⟩, .thr ⟨10 + t, 90 + t, t, t, 0, 0⟩,
      (Choice.brown t 0 0).lens spline ⟨100 + t, 100 + t, 50, 25, 100, 50⟩⟩ (V3.num ⟨1, 20, 0⟩)).Is (F t) := by
  obtain ⟨h1, h2, h3⟩ := Moving.ex_params
  refine C160_image (0 : ℝ) spline .rectilinear _ h1 _ h2 (fun t => .brown t 0 0)
    (Or.inr (Or.inl ⟨fun t => t, fun _ => 0, fun _ => 0, fun _ => rfl, continuousAt_id, continuousAt_const, continuousAt_const⟩)) ?_ (fun _ => ⟨1, 20, 0⟩)
    ⟨continuousAt_const, continuousAt_const, continuousAt_const⟩ true h3 (Or.inr ?_)
  · norm_num [Choice.Usable]
  · obtain ⟨p, hp⟩ := Lines.exCam_sees ⟨1, 20, 0⟩ (by norm_num)
    rw [add_zero, add_zero, add_zero]
    refine ⟨p, hp, fun e => ?_⟩
    have := (Lines.image_inv Lines.exCam rfl rfl _ true hp).2.2.2
    rw [Lines.exCam_camR] at this
    rw [this] at e
    norm_num [Lines.exCam] at e

/-- A camera that looks straight down while it turns and rises: the place on the ground that it sees. -/
example : ∃ F : ℝ → V3 ℝ, Moving.Point F 0 ∧ ∀ᶠ t in 𝓝 0, ∃ P : V3 Num,
    spaceFromImage ⟨.rectilinear, ⟨100 + t, 100 + t, 50, 25, 100, 50⟩, .thr ⟨10 + t, t, t, t, 0, 0⟩, noDistortion⟩ (V2.num ⟨50, 25⟩) (coord 2 (.fin 0)) = .ok P ∧
      P.Is (F t) := by
  have hd := getRay_real ⟨.rectilinear, ⟨100 + 0, 100 + 0, 50, 25, 100, 50⟩, .thr ⟨10 + 0, 0, 0, 0, 0, 0⟩, noDistortion⟩ (by norm_num [Cam.Proper]) (V2.is_num ⟨50, 25⟩)
  have e : (dirR ⟨.rectilinear, ⟨100 + 0, 100 + 0, 50, 25, 100, 50⟩, .thr ⟨10 + 0, 0, 0, 0, 0, 0⟩, noDistortion⟩ ⟨50, 25⟩).get 2 = -1 := by
    simp [dirR, rayR, Orient.mat, (C12_heading_wrap _).2.2.2.2.1, Spatial.matrices, Spatial.rad, M3.applyR, V3.dot, V3.get,
      Spatial.rotation, M3.mul, M3.rowMul, M3.T, Spatial.R_roll, Spatial.R_tilt, Spatial.R_head]
  refine C160_space (0 : ℝ) .rectilinear _ Moving.ex_params.1 (by norm_num) (fun t => .thr ⟨10 + t, t, t, t, 0, 0⟩)
    (Or.inl ⟨fun t : ℝ => ⟨10 + t, t, t, t, 0, 0⟩, fun _ => rfl, ?_, ?_, ?_, ?_, ?_, ?_⟩) (fun _ => ⟨50, 25⟩) ⟨continuousAt_const, continuousAt_const⟩ (by simp)
    2 (fun _ => 0) continuousAt_const _ hd (by rw [e]; norm_num) (by rw [e]; norm_num [Orient.pos, V3.get])
  all_goals fun_prop
