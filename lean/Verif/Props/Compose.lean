import Verif.Props.Rotate

/-! # Turning and scaling the world compose and can be undone (C166) -/

set_option linter.constructorNameAsVariable false

open Classical Sys Group

namespace Compose

/-- Two states with the same objects in which an attribute is the same parameter with the same value read the same. -/
theorem reads_eq {s t t' : St} (rt : Reach t) (rt' : Reach t') (p : Pres s t) (p' : Pres s t') {v : View} {n : String}
    (h : ∀ q, (s.dict v).lookup n = some q → t.rd q = t'.rd q) : t.getattr v n = t'.getattr v n := by
  have hm : ((t.dict v).lookup n).map (fun q => (t.par q).read) = ((t'.dict v).lookup n).map (fun q => (t'.par q).read) := by
    rw [p.dict, p'.dict]
    cases hq : (s.dict v).lookup n with
    | none => rfl
    | some q => rw [Option.map_some, Option.map_some, read_rd rt, read_rd rt', h q hq]
  unfold St.getattr
  rw [p.projs, p'.projs]
  split
  · split
    · split_ifs <;> first | rfl | exact hm
    · exact hm
  · exact hm

/-- Two states with the same objects, the same values of the projection and the lens and the same orientation matrix show the same. -/
theorem view_eq (spline : LensModel.Spline) {s t t' : St} (rt : ReachX t) (rt' : ReachX t') (p : Pres s t) (p' : Pres s t') {c : ℕ} {C : CObj}
    (hC : s.cams c = some C) (hp : Plain s (.proj C.proj)) {O : OObj} (hO : s.orients C.orient = some O)
    (hmat : (orientOf O.kind fun f => t.rd (.o C.orient f)).mat = (orientOf O.kind fun f => t'.rd (.o C.orient f)).mat)
    (hpr : ∀ f, t.rd (.p C.proj f) = t'.rd (.p C.proj f)) (hle : ∀ f, t.rd (.l C.lens f) = t'.rd (.l C.lens f)) :
    (∀ P hide, t.imageFromSpace spline c P hide = t'.imageFromSpace spline c P hide) ∧
      ∀ P normed, t.getRay spline c P normed = t'.getRay spline c P normed := by
  obtain ⟨cam, h1, h2, h3⟩ := C52_up_to_date_partial spline rt (c := c) (C := C) (by rw [p.cams]; exact hC)
    (fun q Q e hQ => hp q Q e (by rw [← p.projs]; exact hQ))
  obtain ⟨cam', h1', h2', h3'⟩ := C52_up_to_date_partial spline rt' (c := c) (C := C) (by rw [p'.cams]; exact hC)
    (fun q Q e hQ => hp q Q e (by rw [← p'.projs]; exact hQ))
  have key : cam.kind = cam'.kind ∧ cam.intr = cam'.intr ∧ cam.lens = cam'.lens ∧ cam.orient.mat = cam'.orient.mat := by
    unfold St.camNow at h1 h1'
    rw [p.cams, hC] at h1
    rw [p'.cams, hC] at h1'
    simp only at h1 h1'
    obtain ⟨O1, hO1, k1⟩ := p.keep.orients _ O hO
    obtain ⟨O2, hO2, k2⟩ := p'.keep.orients _ O hO
    cases eP : s.projs C.proj with
    | none => rw [p.projs, eP] at h1; cases h1
    | some P =>
      cases eL : s.lenses C.lens with
      | none =>
        have : t.lenses C.lens = none := by
          have := p.lenses C.lens
          rw [eL] at this
          simpa using this
        rw [p.projs, eP, hO1, this] at h1; cases h1
      | some L =>
        obtain ⟨L1, hL1, l1, -⟩ := p.keep.lenses _ L eL
        obtain ⟨L2, hL2, l2, -⟩ := p'.keep.lenses _ L eL
        rw [p.projs, eP, hO1, hL1] at h1
        rw [p'.projs, eP, hO2, hL2] at h1'
        simp only [Option.some.injEq] at h1 h1'
        subst h1
        subst h1'
        simp only [k1, k2, l1, l2, hpr, hle, hmat, and_self]
  obtain ⟨e1, e2, e3, e4⟩ := key
  constructor
  · intro P hide
    rw [h2, h2']
    simp only [Camera.imageFromSpace, e1, e2, e3, e4]
  · intro P normed
    rw [h3, h3']
    simp only [Camera.getRay, e1, e2, e3, e4]

theorem wrap_turns (x : ℝ) : ∃ k : ℤ, Spatial.wrap360 x = x + 360 * k := Spatial.wrap360_turns x

end Compose

/-- **C166** Turning the world twice with `rotateSpace` is turning it once by the sum: the pictures and rays are the same, every attribute but the heading reads the same
and the headings are equal up to full turns. -/
theorem C166_rotate (spline : LensModel.Spline) {s : St} (hr : ReachX s) {c : ℕ} {C : CObj} (hC : s.cams c = some C)
    {O : OObj} (hO : s.orients C.orient = some O) (hk : O.kind = .thr) (hp : Plain s (.proj C.proj)) (a b : ℝ) :
    ∃ t t2 t', s.rotateSpace c a = some t ∧ t.rotateSpace c b = some t2 ∧ s.rotateSpace c (a + b) = some t' ∧
      (∀ P hide, t2.imageFromSpace spline c P hide = t'.imageFromSpace spline c P hide) ∧
      (∀ P normed, t2.getRay spline c P normed = t'.getRay spline c P normed) ∧
      (∀ v n, (s.dict v).lookup n ≠ some (.o C.orient .turn) → t2.getattr v n = t'.getattr v n) ∧
      ∃ (h h' : ℝ) (k : ℤ), t2.getattr (.cam c) "heading_deg" = some (some h) ∧ t'.getattr (.cam c) "heading_deg" = some (some h') ∧ h = h' + 360 * k := by
  obtain ⟨t, e, r, x, p, v1, v2, v3, u⟩ := rotate_spec hr.reach hC hO hk a
  obtain ⟨O1, hO1, k1⟩ := p.keep.orients _ O hO
  obtain ⟨t2, e2, r2, x2, p2, w1, w2, w3, u2⟩ := rotate_spec r (c := c) (C := C) (by rw [p.cams]; exact hC) hO1 (k1.trans hk) b
  obtain ⟨t', e', r', x', p', v1', v2', v3', u'⟩ := rotate_spec hr.reach hC hO hk (a + b)
  have hd : Spatial.rad (a + b) = Spatial.rad a + Spatial.rad b := by unfold Spatial.rad; ring
  have q2 := p.trans p2
  have hx : t2.rd (.o C.orient .posX) = t'.rd (.o C.orient .posX) := by
    rw [w2, v2, v3, v2', hd, Real.cos_add, Real.sin_add]; ring
  have hy : t2.rd (.o C.orient .posY) = t'.rd (.o C.orient .posY) := by
    rw [w3, v2, v3, v3', hd, Real.cos_add, Real.sin_add]; ring
  have hrd : ∀ q, q ≠ .o C.orient .turn → t2.rd q = t'.rd q := by
    intro q hq
    by_cases h2 : q = .o C.orient .posX
    · rw [h2, hx]
    · by_cases h3 : q = .o C.orient .posY
      · rw [h3, hy]
      · rw [rd_eq_of_par (u2 q hq h2 h3), rd_eq_of_par (u q hq h2 h3), rd_eq_of_par (u' q hq h2 h3)]
  obtain ⟨k2, hk2⟩ := Compose.wrap_turns (s.rd (.o C.orient .turn) + a)
  obtain ⟨k3, hk3⟩ := Compose.wrap_turns (t.rd (.o C.orient .turn) + b)
  obtain ⟨k4, hk4⟩ := Compose.wrap_turns (s.rd (.o C.orient .turn) + (a + b))
  have hturn : t2.rd (.o C.orient .turn) = t'.rd (.o C.orient .turn) + 360 * ((k2 + k3 - k4 : ℤ) : ℝ) := by
    rw [w1, hk3, v1, hk2, v1', hk4]; push_cast; ring
  have hview := Compose.view_eq spline (x2 (x hr)) (x' hr) q2 p' hC hp hO
    (by
      rw [hk]
      simp only [orientOf, Camera.Orient.mat]
      have := (C12_heading_wrap ⟨t'.rd (.o C.orient .elev), t'.rd (.o C.orient .ang), t'.rd (.o C.orient .roll), t'.rd (.o C.orient .turn),
        t'.rd (.o C.orient .posX), t'.rd (.o C.orient .posY)⟩).2.2.2.2.2 (k2 + k3 - k4)
      simp only at this
      rw [hturn, hrd _ (by simp), hrd _ (by simp), hrd _ (by simp), hx, hy, this])
    (fun f => hrd _ (by simp)) (fun f => hrd _ (by simp))
  have hl : (s.dict (.cam c)).lookup "heading_deg" = some (.o C.orient .turn) := by
    have := cam_lookup_o hr.reach.dicts hC hO .turn
    rwa [hk] at this
  refine ⟨t, t2, t', e, e2, e', hview.1, hview.2, fun v n hn => ?_, _, _, _, ?_, ?_, hturn⟩
  · exact Compose.reads_eq r2 r' q2 p' fun q hq => hrd q fun h => hn (by rw [hq, h])
  · rw [getattr_eq (plain_cam _ _), q2.dict, hl, Option.map_some, read_rd r2]
  · rw [getattr_eq (plain_cam _ _), p'.dict, hl, Option.map_some, read_rd r']

/-- **C166** Turning the world back after `rotateSpace` restores the pictures and rays, every attribute but the heading, and the heading up to full turns. -/
theorem C166_turn_back (spline : LensModel.Spline) {s : St} (hr : ReachX s) {c : ℕ} {C : CObj} (hC : s.cams c = some C)
    {O : OObj} (hO : s.orients C.orient = some O) (hk : O.kind = .thr) (hp : Plain s (.proj C.proj)) (a : ℝ) :
    ∃ t t2, s.rotateSpace c a = some t ∧ t.rotateSpace c (-a) = some t2 ∧
      (∀ P hide, t2.imageFromSpace spline c P hide = s.imageFromSpace spline c P hide) ∧
      (∀ P normed, t2.getRay spline c P normed = s.getRay spline c P normed) ∧
      (∀ v n, (s.dict v).lookup n ≠ some (.o C.orient .turn) → t2.getattr v n = s.getattr v n) ∧
      ∃ (h h' : ℝ) (k : ℤ), t2.getattr (.cam c) "heading_deg" = some (some h) ∧ s.getattr (.cam c) "heading_deg" = some (some h') ∧ h = h' + 360 * k := by
  obtain ⟨t, e, r, x, p, v1, v2, v3, u⟩ := rotate_spec hr.reach hC hO hk a
  obtain ⟨O1, hO1, k1⟩ := p.keep.orients _ O hO
  obtain ⟨t2, e2, r2, x2, p2, w1, w2, w3, u2⟩ := rotate_spec r (c := c) (C := C) (by rw [p.cams]; exact hC) hO1 (k1.trans hk) (-a)
  have hd : Spatial.rad (-a) = -Spatial.rad a := by unfold Spatial.rad; ring
  have hs := Real.sin_sq_add_cos_sq (Spatial.rad a)
  have q2 := p.trans p2
  have hx : t2.rd (.o C.orient .posX) = s.rd (.o C.orient .posX) := by
    rw [w2, v2, v3, hd, Real.cos_neg, Real.sin_neg]
    linear_combination s.rd (.o C.orient .posX) * hs
  have hy : t2.rd (.o C.orient .posY) = s.rd (.o C.orient .posY) := by
    rw [w3, v2, v3, hd, Real.cos_neg, Real.sin_neg]
    linear_combination s.rd (.o C.orient .posY) * hs
  have hrd : ∀ q, q ≠ .o C.orient .turn → t2.rd q = s.rd q := by
    intro q hq
    by_cases h2 : q = .o C.orient .posX
    · rw [h2, hx]
    · by_cases h3 : q = .o C.orient .posY
      · rw [h3, hy]
      · rw [rd_eq_of_par (u2 q hq h2 h3), rd_eq_of_par (u q hq h2 h3)]
  obtain ⟨k2, hk2⟩ := Compose.wrap_turns (s.rd (.o C.orient .turn) + a)
  obtain ⟨k3, hk3⟩ := Compose.wrap_turns (t.rd (.o C.orient .turn) + -a)
  have hturn : t2.rd (.o C.orient .turn) = s.rd (.o C.orient .turn) + 360 * ((k2 + k3 : ℤ) : ℝ) := by
    rw [w1, hk3, v1, hk2]; push_cast; ring
  have hview := Compose.view_eq spline (x2 (x hr)) hr q2 (Pres.refl s) hC hp hO
    (by
      rw [hk]
      simp only [orientOf, Camera.Orient.mat]
      have := (C12_heading_wrap ⟨s.rd (.o C.orient .elev), s.rd (.o C.orient .ang), s.rd (.o C.orient .roll), s.rd (.o C.orient .turn),
        s.rd (.o C.orient .posX), s.rd (.o C.orient .posY)⟩).2.2.2.2.2 (k2 + k3)
      simp only at this
      rw [hturn, hrd _ (by simp), hrd _ (by simp), hrd _ (by simp), hx, hy, this])
    (fun f => hrd _ (by simp)) (fun f => hrd _ (by simp))
  have hl : (s.dict (.cam c)).lookup "heading_deg" = some (.o C.orient .turn) := by
    have := cam_lookup_o hr.reach.dicts hC hO .turn
    rwa [hk] at this
  refine ⟨t, t2, e, e2, hview.1, hview.2, fun v n hn => ?_, _, _, _, ?_, ?_, hturn⟩
  · exact Compose.reads_eq r2 hr.reach q2 (Pres.refl s) fun q hq => hrd q fun h => hn (by rw [hq, h])
  · rw [getattr_eq (plain_cam _ _), q2.dict, hl, Option.map_some, read_rd r2]
  · rw [getattr_eq (plain_cam _ _), hl, Option.map_some, read_rd hr.reach]

namespace Compose

/-- The values after two calls of `scaleSpace`. -/
theorem scale_twice {s : St} (hr : Reach s) {cams : List ℕ} (hex : ∀ c ∈ cams, s.cams c ≠ none) (j k : ℝ) (q : Pid) :
    (scaleSpace (scaleSpace s cams j) cams k).rd q = (scaleSpace s cams (j * k)).rd q := by
  obtain ⟨r1, -, p1, v1, u1⟩ := scaleSpace_spec cams hr hex j
  obtain ⟨r2, -, p2, v2, u2⟩ := scaleSpace_spec cams r1 (fun c h => by rw [p1.cams]; exact hex c h) k
  obtain ⟨r3, -, p3, v3, u3⟩ := scaleSpace_spec cams hr hex (j * k)
  by_cases h : ∀ o f, IsPos f → q ≠ .o o f
  · rw [rd_eq_of_par (u2 q h), rd_eq_of_par (u1 q h), rd_eq_of_par (u3 q h)]
  · push Not at h
    obtain ⟨o, f, hf, rfl⟩ := h
    rw [v2 o f hf, v1 o f hf, v3 o f hf, mul_pow]
    simp only [Uses.pres p1]
    ring

theorem scale_one {s : St} (hr : Reach s) {cams : List ℕ} (hex : ∀ c ∈ cams, s.cams c ≠ none) (q : Pid) : (scaleSpace s cams 1).rd q = s.rd q := by
  obtain ⟨r1, -, p1, v1, u1⟩ := scaleSpace_spec cams hr hex 1
  by_cases h : ∀ o f, IsPos f → q ≠ .o o f
  · rw [rd_eq_of_par (u1 q h)]
  · push Not at h
    obtain ⟨o, f, hf, rfl⟩ := h
    rw [v1 o f hf, one_pow, mul_one]

end Compose

/-- **C166** Scaling the world of a group twice is scaling it once by the product, whichever parts the cameras share: every attribute reads the same, and
every camera shows the same. -/
theorem C166_scale (spline : LensModel.Spline) {s : St} (hr : ReachX s) {cams : List ℕ} (hex : ∀ c ∈ cams, s.cams c ≠ none) (j k : ℝ) :
    (∀ v n, (scaleSpace (scaleSpace s cams j) cams k).getattr v n = (scaleSpace s cams (j * k)).getattr v n) ∧
      ∀ c C, s.cams c = some C → Plain s (.proj C.proj) → ∀ P hide,
        (scaleSpace (scaleSpace s cams j) cams k).imageFromSpace spline c P hide = (scaleSpace s cams (j * k)).imageFromSpace spline c P hide := by
  obtain ⟨r1, x1, p1, -⟩ := scaleSpace_spec cams hr.reach hex j
  obtain ⟨r2, x2, p2, -⟩ := scaleSpace_spec cams r1 (fun c h => by rw [p1.cams]; exact hex c h) k
  obtain ⟨r3, x3, p3, -⟩ := scaleSpace_spec cams hr.reach hex (j * k)
  have hrd := Compose.scale_twice hr.reach hex j k
  refine ⟨fun v n => Compose.reads_eq r2 r3 (p1.trans p2) p3 fun q _ => hrd q, fun c C hC hp => ?_⟩
  obtain ⟨P, O, L, hP, hO, hL, -⟩ := hr.reach.dicts.cam c C hC
  exact (Compose.view_eq spline (x2 (x1 hr)) (x3 hr) (p1.trans p2) p3 hC hp hO (by simp only [hrd]) (fun f => hrd _) (fun f => hrd _)).1

/-- **C166** Scaling the world of a group can be undone: after the factors `k` and `1/k` every attribute reads as before, and every camera shows what it showed. -/
theorem C166_scale_back (spline : LensModel.Spline) {s : St} (hr : ReachX s) {cams : List ℕ} (hex : ∀ c ∈ cams, s.cams c ≠ none) {k : ℝ} (hk : k ≠ 0) :
    (∀ v n, (scaleSpace (scaleSpace s cams k) cams (1 / k)).getattr v n = s.getattr v n) ∧
      ∀ c C, s.cams c = some C → Plain s (.proj C.proj) → ∀ P hide,
        (scaleSpace (scaleSpace s cams k) cams (1 / k)).imageFromSpace spline c P hide = s.imageFromSpace spline c P hide := by
  obtain ⟨r1, x1, p1, -⟩ := scaleSpace_spec cams hr.reach hex k
  obtain ⟨r2, x2, p2, -⟩ := scaleSpace_spec cams r1 (fun c h => by rw [p1.cams]; exact hex c h) (1 / k)
  have hrd : ∀ q, (scaleSpace (scaleSpace s cams k) cams (1 / k)).rd q = s.rd q := fun q => by
    rw [Compose.scale_twice hr.reach hex, mul_one_div_cancel hk, Compose.scale_one hr.reach hex]
  refine ⟨fun v n => Compose.reads_eq r2 hr.reach (p1.trans p2) (Pres.refl s) fun q _ => hrd q, fun c C hC hp => ?_⟩
  obtain ⟨P, O, L, hP, hO, hL, -⟩ := hr.reach.dicts.cam c C hC
  exact (Compose.view_eq spline (x2 (x1 hr)) hr (p1.trans p2) (Pres.refl s) hC hp hO (by simp only [hrd]) (fun f => hrd _) (fun f => hrd _)).1

example : ∃ (s : St) (C : CObj) (O : OObj), ReachX s ∧ (∀ c ∈ [0], s.cams c ≠ none) ∧ s.cams 0 = some C ∧ s.orients C.orient = some O ∧ O.kind = .thr ∧
    Plain s (.proj C.proj) := by
  obtain ⟨C, hC, hp, ho, hl⟩ := Ex.s4_cams
  obtain ⟨O, hO, hk⟩ := Ex.s4_orients
  refine ⟨Ex.s4, C, O, Ex.reachX4, by simp [hC], hC, by rw [ho]; exact hO, hk, fun p P e hP => ?_⟩
  cases e; rw [hp, Ex.s4_projs] at hP; cases hP; rfl
