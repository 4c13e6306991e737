import Verif.Spec.OpenCV
import Verif.Props.LoadView
import Verif.Props.Fit
import Verif.Proofs.Lens

/-! # C134: the camera of the calibration tool projects like the fitted model of OpenCV -/

open Sys OpenCV Stat

/-- gui_calibrate.py:331-340: the dictionary built from the results of OpenCV (and the content of a saved calibration, 380-392). -/
def OpenCV.Calib.dict (k : Calib) : List (String × ℝ) :=
  [("rms", k.rms), ("image_width_px", k.w), ("image_height_px", k.h), ("focallength_x_px", k.fx), ("focallength_y_px", k.fy),
   ("center_x_px", k.cx), ("center_y_px", k.cy), ("k1", k.k1), ("k2", k.k2), ("k3", k.k3)]

namespace Sys

theorem cam_lookup_rms {s : St} (hd : Dicts s) {c : ℕ} {C : CObj} (h : s.cams c = some C) : (s.dict (.cam c)).lookup "rms" = none := by
  obtain ⟨P, O, L, -, -, -, e, -⟩ := hd.cam c C h
  simp only [St.dict, h, e]
  cases O.kind <;> cases L.kind <;>
    simp [camDict, projDict, PField.all, PField.name, CField.all, CField.name, orientDict, OField.all, OField.name, lensDict, LField.all,
      LField.name, List.lookup]

/-- What is read after a calibration was set (gui_calibrate.py:351). -/
theorem calib_rd {s : St} (hr : Reach s) {c : ℕ} {C : CObj} (hC : s.cams c = some C) {L : LObj} (hL : s.lenses C.lens = some L)
    (hk : L.kind = .brown) (k : Calib) {order : List Cb} (hok : s.ok (.setFit (.cam c) k.dict order)) :
    let s' := s.step (.setFit (.cam c) k.dict order)
    s'.rd (.p C.proj .fx) = k.fx ∧ s'.rd (.p C.proj .fy) = k.fy ∧ s'.rd (.p C.proj .cx) = k.cx ∧ s'.rd (.p C.proj .cy) = k.cy ∧
    s'.rd (.p C.proj .iw) = k.w ∧ s'.rd (.p C.proj .ih) = k.h ∧
    s'.rd (.l C.lens .k1) = k.k1 ∧ s'.rd (.l C.lens .k2) = k.k2 ∧ s'.rd (.l C.lens .k3) = k.k3 ∧
    ∀ g, s'.rd (.o C.orient g) = s.rd (.o C.orient g) := by
  intro s'
  have hrms := cam_lookup_rms hr.dicts hC
  have hp : ∀ g : PField, (s.dict (.cam c)).lookup g.name = some (.p C.proj g) := cam_lookup_p hr.dicts hC
  have hl : ∀ g : LField, (s.dict (.cam c)).lookup (g.name .brown) = some (.l C.lens g) := by
    intro g
    have := cam_lookup_l hr.dicts hC hL (by rw [hk]; simp) g
    rwa [hk] at this
  have h1 := hp .iw
  have h2 := hp .ih
  have h3 := hp .fx
  have h4 := hp .fy
  have h5 := hp .cx
  have h6 := hp .cy
  have h7 := hl .k1
  have h8 := hl .k2
  have h9 := hl .k3
  simp only [PField.name, LField.name] at h1 h2 h3 h4 h5 h6 h7 h8 h9
  refine ⟨?_, ?_, ?_, ?_, ?_, ?_, ?_, ?_, ?_, fun f => ?_⟩
  all_goals
    rw [show s' = s.step (.setFit (.cam c) k.dict order) from rfl, setFit_rd hr hok]
    simp only [readAfter, newVal, lastOf, Calib.dict, List.reverse_cons, List.reverse_nil, List.nil_append, List.cons_append, List.find?,
      hrms, h1, h2, h3, h4, h5, h6, h7, h8, h9, Option.some.injEq, Pid.p.injEq, Pid.l.injEq, reduceCtorEq, decide_true, decide_false,
      and_false, Option.map_some, Option.map_none, Option.none_or, norm360]
  
end Sys

namespace LensModel

/-- The pixel of OpenCV from the radius polynomial. -/
theorem brown_distort (spline : Spline) (I : Projection.Intr) (k : Calib) (hI : I.fx = k.fx ∧ I.fy = k.fy ∧ I.cx = k.cx ∧ I.cy = k.cy)
    (hx : k.fx ≠ 0) (hy : k.fy ≠ 0) {x y : ℝ} (h0 : x ≠ 0 ∨ y ≠ 0) {n : V2 Num} (hn : n.Is ⟨k.fx * x + k.cx, k.fy * y + k.cy⟩) :
    ((brown spline I k.k1 k.k2 k.k3).lens.distortedFromImage n).Is (k.distort x y) := by
  obtain ⟨e1, e2, e3, e4⟩ := hI
  have hrad : LensSpec.radius ⟨I.fx, I.fy⟩ ⟨I.cx, I.cy⟩ ⟨k.fx * x + k.cx, k.fy * y + k.cy⟩ = Real.sqrt (x ^ 2 + y ^ 2) := by
    unfold LensSpec.radius
    rw [e1, e2, e3, e4]
    congr 1
    simp only [add_sub_cancel_right]
    rw [mul_div_cancel_left₀ _ hx, mul_div_cancel_left₀ _ hy]
  have hpos : 0 < x ^ 2 + y ^ 2 := by
    rcases h0 with h | h <;> positivity
  have hr : Real.sqrt (x ^ 2 + y ^ 2) ≠ 0 := (Real.sqrt_pos.2 hpos).ne'
  have key := transform_is (L := brown spline I k.k1 k.k2 k.k3) (f := (brown spline I k.k1 k.k2 k.k3).conv) hn
    (by show I.fx ≠ 0; rw [e1]; exact hx) (by show I.fy ≠ 0; rw [e2]; exact hy)
    (by show LensSpec.radius ⟨I.fx, I.fy⟩ ⟨I.cx, I.cy⟩ _ ≠ 0; rw [hrad]; exact hr)
    (R := LensSpec.brownPoly k.k1 k.k2 k.k3 (Real.sqrt (x ^ 2 + y ^ 2)))
    (by
      intro m hm
      have hm' : Num.Is m (LensSpec.radius ⟨I.fx, I.fy⟩ ⟨I.cx, I.cy⟩ ⟨k.fx * x + k.cx, k.fy * y + k.cy⟩) := hm
      rw [hrad] at hm'
      exact brownRadius_is hm')
  refine key.congr ?_
  have er : LensSpec.radius (brown spline I k.k1 k.k2 k.k3).scale (brown spline I k.k1 k.k2 k.k3).offset
      ⟨k.fx * x + k.cx, k.fy * y + k.cy⟩ = Real.sqrt (x ^ 2 + y ^ 2) := hrad
  have hfac : LensSpec.brownPoly k.k1 k.k2 k.k3 (Real.sqrt (x ^ 2 + y ^ 2)) / Real.sqrt (x ^ 2 + y ^ 2) = k.factor x y := by
    have s2 : Real.sqrt (x ^ 2 + y ^ 2) ^ 2 = x ^ 2 + y ^ 2 := Real.sq_sqrt hpos.le
    have s4 : Real.sqrt (x ^ 2 + y ^ 2) ^ 4 = (x ^ 2 + y ^ 2) ^ 2 := by
      calc _ = (Real.sqrt (x ^ 2 + y ^ 2) ^ 2) ^ 2 := by ring
        _ = _ := by rw [s2]
    have s6 : Real.sqrt (x ^ 2 + y ^ 2) ^ 6 = (x ^ 2 + y ^ 2) ^ 3 := by
      calc _ = (Real.sqrt (x ^ 2 + y ^ 2) ^ 2) ^ 3 := by ring
        _ = _ := by rw [s2]
    unfold LensSpec.brownPoly Calib.factor
    rw [mul_div_cancel_left₀ _ hr, s2, s4, s6]
  rw [er, hfac]
  have o1 : (brown spline I k.k1 k.k2 k.k3).offset = ⟨k.cx, k.cy⟩ := by
    show (⟨I.cx, I.cy⟩ : V2 ℝ) = _
    rw [e3, e4]
  rw [o1]
  unfold Calib.distort
  ext <;> simp only <;> ring

end LensModel

namespace Sys

/-- The camera with the current values after a calibration was set. -/
theorem calib_cam (spline : LensModel.Spline) {s : St} (hr : ReachX s) {c : ℕ} {C : CObj} (hC : s.cams c = some C) {P : PObj}
    (hP : s.projs C.proj = some P) (hkp : P.kind = .rectilinear) {L : LObj} (hL : s.lenses C.lens = some L) (hk : L.kind = .brown) (k : Calib)
    {order : List Cb} (hok : s.ok (.setFit (.cam c) k.dict order)) {cam : Camera.Cam} (hcam : s.camNow spline c = some cam) :
    let s' := s.step (.setFit (.cam c) k.dict order)
    let I : Projection.Intr := ⟨k.fx, k.fy, k.cx, k.cy, k.w, k.h⟩
    ReachX s' ∧ ∀ pt hide, s'.imageFromSpace spline c pt hide = some ((LensModel.brown spline I k.k1 k.k2 k.k3).lens.distortedFromImage
      (Projection.imageFromCamera .rectilinear I (Spatial.cameraFromSpace cam.orient.mat pt) hide)) := by
  intro s' I
  have hr' : ReachX s' := .step hr hok trivial
  have hpr : Pres s s' := step_pres hr.reach.struct hok trivial
  have hC' : s'.cams c = some C := by rw [hpr.cams, hC]
  obtain ⟨P0, O, L0, hP0, hO, hL0, -⟩ := hr.reach.dicts.cam c C hC
  obtain ⟨P', O', L', hP', hO', hL', -⟩ := hr'.reach.dicts.cam c C hC'
  have hkL : L'.kind = .brown := by
    have := hpr.lenses C.lens
    rw [hL, hL', Option.map_some, Option.map_some, Option.some.injEq, Prod.mk.injEq] at this
    rw [this.1, hk]
  have hkP : P'.kind = .rectilinear := by
    rw [hpr.projs, hP] at hP'
    cases hP'
    exact hkp
  have hkO : O'.kind = O.kind := by
    have := hpr.orients C.orient
    rwa [hO, hO', Option.map_some, Option.map_some, Option.some.injEq] at this
  obtain ⟨cam', h1, h2, -⟩ := C52_view_partial spline hr' hC' hL' (by rw [hkL]; simp)
  obtain ⟨r1, r2, r3, r4, r5, r6, r7, r8, r9, r10⟩ := calib_rd hr.reach hC hL hk k hok
  refine ⟨hr', fun pt hide => ?_⟩
  rw [h2]
  simp only [St.camNow, hC', hP', hO', hL', Option.some.injEq] at h1
  simp only [St.camNow, hC, hP0, hO, hL0, Option.some.injEq] at hcam
  rw [← h1, ← hcam]
  simp only [Camera.imageFromSpace, hkL, hkP, hkO]
  have hro : (fun f => s'.rd (.o C.orient f)) = fun f => s.rd (.o C.orient f) := funext r10
  rw [hro]
  show some _ = some _
  rw [show s'.rd (.p C.proj .fx) = k.fx from r1, show s'.rd (.p C.proj .fy) = k.fy from r2, show s'.rd (.p C.proj .cx) = k.cx from r3,
    show s'.rd (.p C.proj .cy) = k.cy from r4, show s'.rd (.p C.proj .iw) = k.w from r5, show s'.rd (.p C.proj .ih) = k.h from r6,
    show s'.rd (.l C.lens .k1) = k.k1 from r7, show s'.rd (.l C.lens .k2) = k.k2 from r8, show s'.rd (.l C.lens .k3) = k.k3 from r9]

end Sys

/-- **C134.**  A camera with a rectilinear projection and a Brown lens, after any history without shared parts, gets the results of
OpenCV (fitted, or loaded from a saved calibration): every point in front of the camera and off its optical axis is then projected to the
pixel that the model of OpenCV gives with these results.  `q` are the coordinates of the point seen from the camera, whose x axis points
to the right, whose y axis points up and whose z axis points backwards. -/
theorem C134_projection_partial (spline : LensModel.Spline) {s : St} (hr : ReachX s) {c : ℕ} {C : CObj} (hC : s.cams c = some C) {P : PObj}
    (hP : s.projs C.proj = some P) (hkp : P.kind = .rectilinear) {L : LObj} (hL : s.lenses C.lens = some L) (hk : L.kind = .brown) (k : Calib)
    {order : List Cb} (hok : s.ok (.setFit (.cam c) k.dict order)) (hx : k.fx ≠ 0) (hy : k.fy ≠ 0)
    {cam : Camera.Cam} (hcam : s.camNow spline c = some cam) {pt : V3 Num} {q : V3 ℝ}
    (hq : (Spatial.cameraFromSpace cam.orient.mat pt).Is q) (hz : q.z ≤ -(1 / 10 ^ 10)) (h0 : q.x ≠ 0 ∨ q.y ≠ 0) (hide : Bool) :
    ∃ n, (s.step (.setFit (.cam c) k.dict order)).imageFromSpace spline c pt hide = some n ∧ n.Is (k.pixel ⟨q.x, -q.y, -q.z⟩) := by
  obtain ⟨-, h⟩ := calib_cam spline hr hC hP hkp hL hk k hok hcam
  refine ⟨_, h pt hide, ?_⟩
  have hz0 : q.z < 0 := hz.trans_lt (by norm_num)
  refine LensModel.brown_distort spline _ k ⟨rfl, rfl, rfl, rfl⟩ hx hy ?_ ?_
  · rcases h0 with h0 | h0
    · exact Or.inl (div_ne_zero h0 (neg_ne_zero.2 hz0.ne))
    · exact Or.inr (div_ne_zero (neg_ne_zero.2 h0) (neg_ne_zero.2 hz0.ne))
  · show (Projection.imageFromCameraRect _ _ hide).Is _
    unfold Projection.imageFromCameraRect
    rw [Projection.snap_far hq (by rw [abs_of_neg hz0]; linarith)]
    refine (Projection.projRect_is hq hz0.ne hide fun _ => hz0).congr ?_
    ext <;> simp only <;> field_simp

/-- **C134 violated.**  The image of a point on the optical axis is lost, where OpenCV gives the centre: with any calibration the camera
answers with nan. -/
theorem C134_axis_violated (spline : LensModel.Spline) {s : St} (hr : ReachX s) {c : ℕ} {C : CObj} (hC : s.cams c = some C) {P : PObj}
    (hP : s.projs C.proj = some P) (hkp : P.kind = .rectilinear) {L : LObj} (hL : s.lenses C.lens = some L) (hk : L.kind = .brown) (k : Calib)
    {order : List Cb} (hok : s.ok (.setFit (.cam c) k.dict order)) (hx : k.fx ≠ 0) (hy : k.fy ≠ 0)
    {cam : Camera.Cam} (hcam : s.camNow spline c = some cam) {pt : V3 Num} {z : ℝ}
    (hq : (Spatial.cameraFromSpace cam.orient.mat pt).Is ⟨0, 0, z⟩) (hz : z ≤ -(1 / 10 ^ 10)) (hide : Bool) :
    (s.step (.setFit (.cam c) k.dict order)).imageFromSpace spline c pt hide = some V2.nan ∧ k.pixel ⟨0, 0, -z⟩ = ⟨k.cx, k.cy⟩ := by
  obtain ⟨-, h⟩ := calib_cam spline hr hC hP hkp hL hk k hok hcam
  have hz0 : z < 0 := hz.trans_lt (by norm_num)
  refine ⟨?_, by simp [Calib.pixel, Calib.distort]⟩
  rw [h pt hide]
  congr 1
  refine LensModel.transform_centre (L := LensModel.brown spline ⟨k.fx, k.fy, k.cx, k.cy, k.w, k.h⟩ k.k1 k.k2 k.k3) ?_ hx hy
  show (Projection.imageFromCameraRect _ _ hide).Is _
  unfold Projection.imageFromCameraRect
  rw [Projection.snap_far hq (by rw [abs_of_neg hz0]; linarith)]
  refine (Projection.projRect_is hq hz0.ne hide fun _ => hz0).congr ?_
  simp [LensModel.brown]

/-- The hypotheses can be met: a camera, an order of the callbacks and a point in front of the camera, off the axis. -/
example (spline : LensModel.Spline) (k : Calib) : ∃ (s : St) (C : CObj) (P : PObj) (L : LObj) (cam : Camera.Cam) (order : List Cb) (pt : V3 Num)
    (q : V3 ℝ), ReachX s ∧ s.cams 0 = some C ∧ s.projs C.proj = some P ∧ P.kind = .rectilinear ∧ s.lenses C.lens = some L ∧
    L.kind = .brown ∧ s.ok (.setFit (.cam 0) k.dict order) ∧ s.camNow spline 0 = some cam ∧
    (Spatial.cameraFromSpace cam.orient.mat pt).Is q ∧ q.z ≤ -(1 / 10 ^ 10) ∧ (q.x ≠ 0 ∨ q.y ≠ 0) := by
  obtain ⟨C, hC, hp, ho, hl⟩ := Ex.s4_cams
  obtain ⟨L, hL, hk, -⟩ := Ex.s4_lens
  obtain ⟨order, hord⟩ := Ex.exists_order (Ex.s4.fitCallbacks (Ex.s4.dict (.cam 0)) k.dict)
  obtain ⟨cam, hcam, -⟩ := C52_view_partial spline Ex.reachX4 hC (L := L) (by rw [hl]; exact hL) (by rw [hk]; simp)
  have e : Camera.camR cam (cam.orient.mat.R.T.applyR ⟨1, 1, -5⟩ + cam.orient.pos) = ⟨1, 1, -5⟩ := by
    unfold Camera.camR
    have : cam.orient.mat.R.T.applyR ⟨1, 1, -5⟩ + cam.orient.pos - cam.orient.pos = cam.orient.mat.R.T.applyR ⟨1, 1, -5⟩ := by
      ext <;> simp
    rw [this, M3.applyR_applyR_T (Camera.rigid_mat cam.orient).RT]
  refine ⟨Ex.s4, C, _, L, cam, order, V3.num (cam.orient.mat.R.T.applyR ⟨1, 1, -5⟩ + cam.orient.pos), ⟨1, 1, -5⟩, Ex.reachX4, hC,
    by rw [hp]; exact Ex.s4_projs, rfl, by rw [hl]; exact hL, hk, hord, hcam, ?_, by norm_num, by norm_num⟩
  have h1 := Camera.cameraFromSpace_is cam (V3.is_num (cam.orient.mat.R.T.applyR ⟨1, 1, -5⟩ + cam.orient.pos))
  rw [e] at h1
  exact h1
