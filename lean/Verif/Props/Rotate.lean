import Verif.Model.Rotate
import Verif.Props.GroupScale
import Verif.Props.Attributes

/-! # `rotateSpace` on the cameras of a program (C14) -/

set_option linter.constructorNameAsVariable false

open Classical Sys Group

namespace Sys

/-- The value of a parameter of the orientation after an assignment. -/
theorem set_any {s : St} (hr : Reach s) {v : View} {n : String} {o : ℕ} {f : OField} (hl : (s.dict v).lookup n = some (.o o f)) (x : ℝ) :
    let s' := s.step (.set v n (some x) false)
    Reach s' ∧ (ReachX s → ReachX s') ∧ Pres s s' ∧ s'.rd (.o o f) = norm360 (.o o f) x ∧ ∀ q, q ≠ .o o f → s'.par q = s.par q := by
  have hok : s.ok (.set v n (some x) false) := Or.inl (by simp)
  refine ⟨.step hr hok, fun h => .step h hok trivial, step_pres hr.struct hok trivial, ?_, fun q hq => ?_⟩
  · have := (set_read hr hl x false).1
    unfold St.rd; rw [read_val this]; rfl
  · exact set_other hr hl _ _ hq fun p g _ e => by cases e

theorem norm360_turn (o : ℕ) (x : ℝ) : norm360 (.o o .turn) x = Spatial.wrap360 x := by
  by_cases h : x < -360 ∨ 360 < x <;> simp only [norm360, Out, Spatial.wrap360, Spatial.pymod, gt_iff_lt, h, if_true, if_false]

theorem rotate_spec {s : St} (hr : Reach s) {c : ℕ} {C : CObj} (hC : s.cams c = some C) {O : OObj} (hO : s.orients C.orient = some O)
    (hk : O.kind = .thr) (delta : ℝ) :
    ∃ t, s.rotateSpace c delta = some t ∧ Reach t ∧ (ReachX s → ReachX t) ∧ Pres s t ∧
      t.rd (.o C.orient .turn) = Spatial.wrap360 (s.rd (.o C.orient .turn) + delta) ∧
      t.rd (.o C.orient .posX) = Real.cos (Spatial.rad delta) * s.rd (.o C.orient .posX) + Real.sin (Spatial.rad delta) * s.rd (.o C.orient .posY) ∧
      t.rd (.o C.orient .posY) = -Real.sin (Spatial.rad delta) * s.rd (.o C.orient .posX) + Real.cos (Spatial.rad delta) * s.rd (.o C.orient .posY) ∧
      ∀ q, q ≠ .o C.orient .turn → q ≠ .o C.orient .posX → q ≠ .o C.orient .posY → t.par q = s.par q := by
  have look : ∀ {t : St}, Pres s t → ∀ f : OField, (t.dict (.cam c)).lookup (f.name .thr) = some (.o C.orient f) := by
    intro t ht f
    rw [ht.dict, ← hk]; exact cam_lookup_o hr.dicts hC hO f
  have val : ∀ {t : St}, Pres s t → ∀ f : OField, ((t.getattr (.cam c) (f.name .thr)).getD none).getD 0 = t.rd (.o C.orient f) := by
    intro t ht f
    rw [getattr_eq (plain_cam t c), look ht f]; rfl
  have e1 : s.getattr (.cam c) "heading_deg" = some ((s.par (.o C.orient .turn)).read) := by
    have := look (Pres.refl s) .turn
    rw [getattr_eq (plain_cam s c)]
    simp only [OField.name] at this
    rw [this]; rfl
  unfold St.rotateSpace
  rw [e1]
  simp only
  obtain ⟨r1, x1, p1, v1, u1⟩ := set_any hr (look (Pres.refl s) .turn) (s.rd (.o C.orient .turn) + delta)
  simp only [OField.name] at r1 x1 p1 v1 u1
  have hh : (s.par (.o C.orient .turn)).read.getD 0 = s.rd (.o C.orient .turn) := rfl
  rw [hh]
  set s1 := s.step (.set (.cam c) "heading_deg" (some (s.rd (.o C.orient .turn) + delta)) false)
  have vx := val p1 .posX
  have vy := val p1 .posY
  simp only [OField.name] at vx vy
  rw [vx, vy]
  have w1 : s1.rd (.o C.orient .posX) = s.rd (.o C.orient .posX) := rd_eq_of_par (u1 _ (by simp))
  have w2 : s1.rd (.o C.orient .posY) = s.rd (.o C.orient .posY) := rd_eq_of_par (u1 _ (by simp))
  rw [w1, w2]
  obtain ⟨r2, x2, p2, v2, u2⟩ := set_any r1 (look p1 .posX)
    (Real.cos (Spatial.rad delta) * s.rd (.o C.orient .posX) + Real.sin (Spatial.rad delta) * s.rd (.o C.orient .posY))
  simp only [OField.name] at r2 x2 p2 v2 u2
  set s2 := s1.step (.set (.cam c) "pos_x_m" (some (Real.cos (Spatial.rad delta) * s.rd (.o C.orient .posX) +
    Real.sin (Spatial.rad delta) * s.rd (.o C.orient .posY))) false)
  obtain ⟨r3, x3, p3, v3, u3⟩ := set_any r2 (look (p1.trans p2) .posY)
    (-Real.sin (Spatial.rad delta) * s.rd (.o C.orient .posX) + Real.cos (Spatial.rad delta) * s.rd (.o C.orient .posY))
  simp only [OField.name] at r3 x3 p3 v3 u3
  refine ⟨_, rfl, r3, fun h => x3 (x2 (x1 h)), (p1.trans p2).trans p3, ?_, ?_, v3, fun q h1 h2 h3 => ?_⟩
  · rw [rd_eq_of_par (u3 _ (by simp)), rd_eq_of_par (u2 _ (by simp)), v1, norm360_turn]
  · rw [rd_eq_of_par (u3 _ (by simp)), v2]; rfl
  · rw [u3 _ h3, u2 _ h2, u1 _ h1]

end Sys

/-- **C14** (partial: the camera has a `SpatialOrientation`, see `C14_ypr_violated`; lenses and projections as in C52) In every reachable state
`rotateSpace` succeeds, sees every point rotated clockwise around the origin where it saw the point before, and changes no other parameter. -/
theorem C14_program_partial (spline : LensModel.Spline) {s : St} (hr : ReachX s) {c : ℕ} {C : CObj} (hC : s.cams c = some C)
    {O : OObj} (hO : s.orients C.orient = some O) (hk : O.kind = .thr) (hp : Plain s (.proj C.proj)) (delta : ℝ) :
    ∃ t cam, s.rotateSpace c delta = some t ∧ s.camNow spline c = some cam ∧
      (∀ P, cam.kind = .rectilinear ∨ ¬ Camera.OnSeam cam P → ∀ hide, ∃ a b, s.imageFromSpace spline c P.num hide = some a ∧
        t.imageFromSpace spline c (Geo.clockwise (delta * Real.pi / 180) P).num hide = some b ∧ V2.SameN a b) ∧
      ∀ v n, (s.dict v).lookup n ≠ some (.o C.orient .turn) → (s.dict v).lookup n ≠ some (.o C.orient .posX) →
        (s.dict v).lookup n ≠ some (.o C.orient .posY) → t.getattr v n = s.getattr v n := by
  obtain ⟨t, e, r, x, p, v1, v2, v3, u⟩ := rotate_spec hr.reach hC hO hk delta
  obtain ⟨cam, h1, h2, -⟩ := C52_up_to_date_partial spline hr hC hp
  have hC' : t.cams c = some C := by rw [p.cams]; exact hC
  obtain ⟨cam', h1', h2', -⟩ := C52_up_to_date_partial spline (x hr) hC' (fun p' P' e hP' => hp p' P' e (by rw [← p.projs]; exact hP'))
  refine ⟨t, cam, e, h1, fun P hseam hide => ⟨_, _, h2 _ _, h2' _ _, ?_⟩, ?_⟩
  · have hresp := camNow_respects h1
    have rdp : ∀ p f, t.rd (.p p f) = s.rd (.p p f) := fun p f => rd_eq_of_par (u _ (by simp) (by simp) (by simp))
    have rdl : ∀ p f, t.rd (.l p f) = s.rd (.l p f) := fun p f => rd_eq_of_par (u _ (by simp) (by simp) (by simp))
    have rdo : ∀ f, f ≠ .turn → f ≠ .posX → f ≠ .posY → t.rd (.o C.orient f) = s.rd (.o C.orient f) := fun f a1 a2 a3 =>
      rd_eq_of_par (u _ (by simpa using a1) (by simpa using a2) (by simpa using a3))
    have key : ∃ o, cam.orient = .thr o ∧ cam' = { cam with orient := .thr (Camera.rotateSpace o delta) } := by
      unfold St.camNow at h1 h1'
      rw [hC] at h1
      rw [hC'] at h1'
      simp only at h1 h1'
      cases eP : s.projs C.proj with
      | none => rw [eP] at h1; cases h1
      | some P =>
        cases eL : s.lenses C.lens with
        | none => rw [eP, hO, eL] at h1; cases h1
        | some L =>
          obtain ⟨O', hO', kO⟩ := p.keep.orients _ O hO
          obtain ⟨L', hL', kL, -⟩ := p.keep.lenses _ L eL
          rw [eP, hO, eL] at h1
          rw [p.projs, eP, hO', hL'] at h1'
          simp only [Option.some.injEq] at h1 h1'
          subst h1
          subst h1'
          refine ⟨⟨s.rd (.o C.orient .elev), s.rd (.o C.orient .ang), s.rd (.o C.orient .roll), s.rd (.o C.orient .turn), s.rd (.o C.orient .posX),
            s.rd (.o C.orient .posY)⟩, by simp [hk, orientOf], ?_⟩
          simp only [rdp, rdl, kL, kO, hk, orientOf, v1, v2, v3, rdo .elev (by simp) (by simp) (by simp), rdo .ang (by simp) (by simp) (by simp),
            rdo .roll (by simp) (by simp) (by simp), Camera.rotateSpace]
    obtain ⟨o, ho, hc'⟩ := key
    have := Camera.rotate_undistorted cam o ho delta P hseam hide
    rw [hc']
    unfold Camera.imageFromSpace
    exact hresp _ _ this.sameN
  · intro v n n1 n2 n3
    have hd : (t.dict v) = s.dict v := by rw [p.dict]
    have hread : ∀ q, (s.dict v).lookup n = some q → t.par q = s.par q := fun q hq =>
      u q (fun e => n1 (by rw [hq, e])) (fun e => n2 (by rw [hq, e])) (fun e => n3 (by rw [hq, e]))
    have hm : ((t.dict v).lookup n).map (fun q => (t.par q).read) = ((s.dict v).lookup n).map (fun q => (s.par q).read) := by
      rw [hd]
      cases hq : (s.dict v).lookup n with
      | none => rfl
      | some q => simp [hread q hq]
    unfold St.getattr
    rw [p.projs]
    split
    · split
      · split_ifs <;> first | rfl | exact hm
      · exact hm
    · exact hm

/-- **C14** is violated for every camera with a `SpatialOrientationYawPitchRoll`: `rotateSpace` raises an AttributeError, because such a
camera has no `heading_deg`. -/
theorem C14_ypr_violated {s : St} (hr : Reach s) {c : ℕ} {C : CObj} (hC : s.cams c = some C) {O : OObj} (hO : s.orients C.orient = some O)
    (hk : O.kind = .ypr) (delta : ℝ) : s.rotateSpace c delta = none := by
  obtain ⟨P, O', L, hP, hO', hL, -⟩ := hr.dicts.cam c C hC
  have h := C124_names hr hC hO hL "heading_deg"
  have hn : s.getattr (.cam c) "heading_deg" = none := by
    cases hg : s.getattr (.cam c) "heading_deg" with
    | none => rfl
    | some x =>
      exfalso
      have h1 : ∃ x, s.getattr (.cam c) "heading_deg" = some (some x) := by
        rw [getattr_eq (plain_cam _ _)] at hg
        obtain ⟨q, hq, -⟩ := Option.map_eq_some_iff.1 hg
        exact ⟨s.rd q, by rw [getattr_eq (plain_cam _ _), hq, Option.map_some, read_rd hr]⟩
      rw [h, hk] at h1
      rcases h1 with h1 | h1 | h1 | h1 | h1
      · simp [projNames] at h1
      · simp [orientNames] at h1
      · cases hl : L.kind <;> rw [hl] at h1 <;> simp [lensNames] at h1
      · simp at h1
      · simp at h1
  unfold St.rotateSpace
  rw [hn]

example : ∃ (s : St) (C : CObj) (O : OObj), ReachX s ∧ s.cams 0 = some C ∧ s.orients C.orient = some O ∧ O.kind = .thr ∧ Plain s (.proj C.proj) := by
  obtain ⟨C, hC, hp, ho, hl⟩ := Ex.s4_cams
  obtain ⟨O, hO, hk⟩ := Ex.s4_orients
  refine ⟨Ex.s4, C, O, Ex.reachX4, hC, by rw [ho]; exact hO, hk, fun p P e hP => ?_⟩
  cases e; rw [hp, Ex.s4_projs] at hP; cases hP; rfl

/-- A second camera with a yaw-pitch-roll orientation. -/
example : ∃ (s : St) (C : CObj) (O : OObj), Reach s ∧ s.cams 1 = some C ∧ s.orients C.orient = some O ∧ O.kind = .ypr := by
  obtain ⟨L, hL, -⟩ := Ex.s4_lens
  have h0 : Ex.s4.orients 1 = none := by
    have e : Ex.s4.orients = Ex.s1.orients := by
      have h3 : Ex.s3.orients = Ex.s1.orients := by simp only [Ex.s3, St.step, newLens_eq, runLens_orients]; rfl
      obtain ⟨L3, g1, g2, -⟩ := Ex.s3_lens
      rw [← h3]
      show (Ex.s3.setProjection 0 0).orients = _
      rw [setProjection_eq g1 (by rw [g2]; simp), runLens_orients, preBind_orients]
    rw [e, Ex.s1, St.step, newOrient_eq]
    have := (Pres.runMatrix (preOrient St.empty 0 .thr fun _ => none) 0).orients_iff 1
    by_contra hn
    exact this.1 hn (by simp [preOrient, St.empty])
  have r1 : Reach (Ex.s4.step (.newOrient 1 .ypr fun _ => none)) := .step Ex.reachX4.reach h0
  have hO : ∃ O, (Ex.s4.step (.newOrient 1 .ypr fun _ => none)).orients 1 = some O ∧ O.kind = .ypr := by
    simp only [St.step, newOrient_eq]
    obtain ⟨O', h, k⟩ := (Pres.runMatrix (preOrient Ex.s4 1 .ypr fun _ => none) 1).keep.orients 1 _ (by simp [preOrient]; rfl)
    exact ⟨O', h, k⟩
  obtain ⟨O, hO, hk⟩ := hO
  have keep := step_keep Ex.reachX4.reach.struct (op := .newOrient 1 .ypr fun _ => none) h0
  obtain ⟨L', hL', -⟩ := keep.lenses 0 L hL
  have hok : (Ex.s4.step (.newOrient 1 .ypr fun _ => none)).ok (.newCam 1 0 1 0) :=
    ⟨by rw [keep.projs 0 _ Ex.s4_projs]; simp, by rw [hO]; simp, by rw [hL']; simp⟩
  obtain ⟨d, h1⟩ := newCam_cams (Ex.s4.step (.newOrient 1 .ypr fun _ => none)) 1 0 1 0 1
  rw [if_pos rfl] at h1
  obtain ⟨O2, hO2, k2⟩ := (step_keep r1.struct hok).orients 1 O hO
  exact ⟨_, _, O2, .step r1 hok, h1, hO2, by rw [k2, hk]⟩
