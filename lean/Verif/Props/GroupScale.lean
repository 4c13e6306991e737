import Verif.Proofs.Group
import Verif.Proofs.Same
import Verif.Spec.Group
import Verif.Props.Camera

/-! # Scaling the space of a group of cameras -/

set_option linter.constructorNameAsVariable false

open Classical Sys Group

namespace Group

/-- One assignment to a parameter of an orientation that is no angle of rotation. -/
theorem set_one {s : St} (hr : Reach s) {v : View} {n : String} {o : ℕ} {f : OField} (hl : (s.dict v).lookup n = some (.o o f)) (hf : f ≠ .turn) (x : ℝ) :
    let s' := s.step (.set v n (some x) false)
    Reach s' ∧ (ReachX s → ReachX s') ∧ Pres s s' ∧ s'.rd (.o o f) = x ∧ ∀ q, q ≠ .o o f → s'.par q = s.par q := by
  have hok : s.ok (.set v n (some x) false) := Or.inl (by simp)
  refine ⟨.step hr hok, fun h => .step h hok trivial, step_pres hr.struct hok trivial, ?_, fun q hq => ?_⟩
  · have := (set_read hr hl x false).1
    have h2 : norm360 (.o o f) x = x := by cases f <;> first | rfl | exact absurd rfl hf
    rw [h2] at this
    unfold St.rd; rw [read_val this]; rfl
  · exact set_other hr hl _ _ hq fun p g _ e => by cases e

/-- The coordinates. -/
def IsPos (f : OField) : Prop := f = .posX ∨ f = .posY ∨ f = .elev

theorem scaleOne_spec {s : St} (hr : Reach s) {c : ℕ} {C : CObj} (hC : s.cams c = some C) (k : ℝ) :
    Reach (scaleOne s k c) ∧ (ReachX s → ReachX (scaleOne s k c)) ∧ Pres s (scaleOne s k c) ∧
    (∀ f, IsPos f → (scaleOne s k c).rd (.o C.orient f) = s.rd (.o C.orient f) * k) ∧
    ∀ q, (∀ f, IsPos f → q ≠ .o C.orient f) → (scaleOne s k c).par q = s.par q := by
  obtain ⟨P, O, L, hP, hO, hL, -⟩ := hr.dicts.cam c C hC
  have look : ∀ {t : St}, Pres s t → Reach t → ∀ f : OField, (t.dict (.cam c)).lookup (f.name O.kind) = some (.o C.orient f) := by
    intro t ht _ f
    rw [ht.dict]; exact cam_lookup_o hr.dicts hC hO f
  have nX : OField.name O.kind .posX = "pos_x_m" := by cases O.kind <;> rfl
  have nY : OField.name O.kind .posY = "pos_y_m" := by cases O.kind <;> rfl
  have nE : OField.name O.kind .elev = "elevation_m" := by cases O.kind <;> rfl
  have val : ∀ f : OField, ((s.getattr (.cam c) (f.name O.kind)).getD none).getD 0 = s.rd (.o C.orient f) := by
    intro f
    rw [getattr_eq (plain_cam s c), look (Pres.refl s) hr f]; rfl
  have e : scaleOne s k c = ((s.step (.set (.cam c) (OField.name O.kind .posX) (some (s.rd (.o C.orient .posX) * k)) false)).step
      (.set (.cam c) (OField.name O.kind .posY) (some (s.rd (.o C.orient .posY) * k)) false)).step
      (.set (.cam c) (OField.name O.kind .elev) (some (s.rd (.o C.orient .elev) * k)) false) := by
    unfold scaleOne
    simp only [← nX, ← nY, ← nE, val]
  obtain ⟨r1, x1, p1, v1, u1⟩ := set_one hr (look (Pres.refl s) hr .posX) (by simp) (s.rd (.o C.orient .posX) * k)
  set s1 := s.step (.set (.cam c) (OField.name O.kind .posX) (some (s.rd (.o C.orient .posX) * k)) false)
  obtain ⟨r2, x2, p2, v2, u2⟩ := set_one r1 (look p1 r1 .posY) (by simp) (s.rd (.o C.orient .posY) * k)
  set s2 := s1.step (.set (.cam c) (OField.name O.kind .posY) (some (s.rd (.o C.orient .posY) * k)) false)
  obtain ⟨r3, x3, p3, v3, u3⟩ := set_one r2 (look (p1.trans p2) r2 .elev) (by simp) (s.rd (.o C.orient .elev) * k)
  rw [e]
  refine ⟨r3, fun h => x3 (x2 (x1 h)), (p1.trans p2).trans p3, ?_, fun q hq => ?_⟩
  · rintro f (rfl | rfl | rfl)
    · rw [rd_eq_of_par (u3 _ (by simp)), rd_eq_of_par (u2 _ (by simp)), v1]
    · rw [rd_eq_of_par (u3 _ (by simp)), v2]
    · exact v3
  · rw [u3 _ (hq .elev (by simp [IsPos])), u2 _ (hq .posY (by simp [IsPos])), u1 _ (hq .posX (by simp [IsPos]))]

theorem Uses.pres {s t : St} (h : Pres s t) (o c : ℕ) : Uses t o c ↔ Uses s o c := by unfold Uses; rw [h.cams]

theorem scaleSpace_spec (cams : List ℕ) {s : St} (hr : Reach s) (hc : ∀ c ∈ cams, s.cams c ≠ none) (k : ℝ) :
    Reach (scaleSpace s cams k) ∧ (ReachX s → ReachX (scaleSpace s cams k)) ∧ Pres s (scaleSpace s cams k) ∧
    (∀ o f, IsPos f → (scaleSpace s cams k).rd (.o o f) = s.rd (.o o f) * k ^ (cams.countP fun c => Uses s o c)) ∧
    ∀ q, (∀ o f, IsPos f → q ≠ .o o f) → (scaleSpace s cams k).par q = s.par q := by
  induction cams generalizing s with
  | nil => exact ⟨hr, id, Pres.refl s, fun _ _ _ => by simp [scaleSpace], fun _ _ => rfl⟩
  | cons c t ih =>
    obtain ⟨C, hC⟩ := Option.ne_none_iff_exists'.1 (hc c (by simp))
    obtain ⟨r1, x1, p1, v1, u1⟩ := scaleOne_spec hr hC k
    obtain ⟨r2, x2, p2, v2, u2⟩ := ih r1 (fun c' h => by rw [p1.cams]; exact hc c' (by simp [h]))
    have e : scaleSpace s (c :: t) k = scaleSpace (scaleOne s k c) t k := rfl
    rw [e]
    refine ⟨r2, fun h => x2 (x1 h), p1.trans p2, fun o f hf => ?_, fun q hq => ?_⟩
    · rw [v2 o f hf]
      simp only [Uses.pres p1, List.countP_cons]
      by_cases ho : C.orient = o
      · subst ho
        rw [v1 f hf, if_pos (by simpa using ⟨C, hC, rfl⟩), pow_succ]; ring
      · have : ¬ Uses s o c := by rintro ⟨C', h, e⟩; rw [hC] at h; cases h; exact ho e
        rw [if_neg (by simpa using this), rd_eq_of_par (u1 _ fun f _ e => by cases e; exact ho rfl)]; rfl
    · rw [u2 q hq, u1 q fun f hf => hq _ f hf]

/-- A lens that treats equal pixels equally. -/
def Respects (L : Camera.Lens) : Prop := ∀ a b, V2.SameN a b → V2.SameN (L.distortedFromImage a) (L.distortedFromImage b)

theorem respects_none : Respects Camera.noDistortion := fun _ _ h => h
theorem respects_radial (L : LensModel.Radial) : Respects L.lens := fun _ _ h => LensModel.transform_same L _ h

theorem camNow_respects {spline : LensModel.Spline} {s : St} {c : ℕ} {cam : Camera.Cam} (h : s.camNow spline c = some cam) : Respects cam.lens := by
  unfold St.camNow at h
  split at h
  · cases h
  · split at h
    · simp only [Option.some.injEq] at h
      subst h
      simp only
      split
      · exact respects_none
      · exact respects_radial _
      · exact respects_radial _
    · cases h

/-- Scaling the world and the position of a camera. -/
theorem image_scaled {c c' : Camera.Cam} {k : ℝ} (hk : 0 < k) (hkind : c'.kind = c.kind) (hintr : c'.intr = c.intr) (hlens : c'.lens = c.lens)
    (hresp : Respects c.lens) (hR : c'.orient.mat.R = c.orient.mat.R) (hpos : c'.orient.pos = c.orient.pos.mulS k) {P : V3 ℝ} (hd : Deep c P k)
    (hseam : c.kind = .rectilinear ∨ ¬ Camera.OnSeam c P) (hide : Bool) :
    V2.SameN (Camera.imageFromSpace c P.num hide) (Camera.imageFromSpace c' (P.mulS k).num hide) := by
  have h1 := Camera.cameraFromSpace_is c (V3.is_num P)
  have h2 := Camera.cameraFromSpace_is c' (V3.is_num (P.mulS k))
  have key : Camera.camR c' (P.mulS k) = (Camera.camR c P).mulS k := by
    unfold Camera.camR
    rw [hR, hpos]
    ext <;> simp [M3.applyR, V3.dot] <;> ring
  rw [key] at h2
  obtain ⟨Q, hQ, hz, hz'⟩ := hd
  have hQ' : Q = Camera.camR c P := hQ.unique h1
  subst hQ'
  have := Projection.imageFromCamera_same c.kind c.intr hk h1 h2 (Or.inr ⟨hz, by simpa [mul_comm] using hz'⟩) (by
    rcases hseam with h | h
    · exact Or.inl h
    · right; intro hh; exact h ⟨_, h1, hh⟩) hide
  unfold Camera.imageFromSpace
  rw [hkind, hintr, hlens]
  exact hresp _ _ this.sameN

theorem orient_mat {k : OKind} {v w : OField → ℝ} (h : ∀ f, ¬ IsPos f → v f = w f) : (orientOf k v).mat.R = (orientOf k w).mat.R := by
  have h1 := h .ang (by simp [IsPos])
  have h2 := h .roll (by simp [IsPos])
  have h3 := h .turn (by simp [IsPos])
  cases k
  · simp only [orientOf, Camera.Orient.mat, Spatial.initCameraMatrix, Spatial.matrices, h1, h2, h3]
  · simp only [orientOf, Camera.Orient.mat, Spatial.initCameraMatrixYPR, Spatial.matricesYPR, h1, h2, h3]

theorem orient_pos (k : OKind) (v : OField → ℝ) : (orientOf k v).pos = ⟨v .posX, v .posY, v .elev⟩ := by cases k <;> rfl

/-- The camera after `scaleSpace`. -/
theorem camNow_scaled {spline : LensModel.Spline} {s t : St} {c : ℕ} {C : CObj} (hC : s.cams c = some C) {k : ℝ} {cam : Camera.Cam}
    (hcam : s.camNow spline c = some cam) (hp : Pres s t) (hu : ∀ q, (∀ o f, IsPos f → q ≠ .o o f) → t.par q = s.par q)
    (hk : ∀ f, IsPos f → t.rd (.o C.orient f) = s.rd (.o C.orient f) * k) :
    ∃ cam', t.camNow spline c = some cam' ∧ cam'.kind = cam.kind ∧ cam'.intr = cam.intr ∧ cam'.lens = cam.lens ∧
      cam'.orient.mat.R = cam.orient.mat.R ∧ cam'.orient.pos = cam.orient.pos.mulS k := by
  have hC' : t.cams c = some C := by rw [hp.cams]; exact hC
  unfold St.camNow at hcam ⊢
  rw [hC] at hcam
  rw [hC']
  simp only at hcam ⊢
  have rdp : ∀ p f, t.rd (.p p f) = s.rd (.p p f) := fun p f => rd_eq_of_par (hu _ fun _ _ _ => by simp)
  have rdl : ∀ p f, t.rd (.l p f) = s.rd (.l p f) := fun p f => rd_eq_of_par (hu _ fun _ _ _ => by simp)
  cases eP : s.projs C.proj with
  | none => rw [eP] at hcam; cases hcam
  | some P =>
    cases eO : s.orients C.orient with
    | none => rw [eP, eO] at hcam; cases hcam
    | some O =>
      cases eL : s.lenses C.lens with
      | none => rw [eP, eO, eL] at hcam; cases hcam
      | some L =>
        rw [eP, eO, eL] at hcam
        simp only [Option.some.injEq] at hcam
        obtain ⟨O', hO', kO⟩ := hp.keep.orients _ O eO
        obtain ⟨L', hL', kL, -⟩ := hp.keep.lenses _ L eL
        rw [hp.projs, eP, hO', hL']
        refine ⟨_, rfl, ?_, ?_, ?_, ?_, ?_⟩
        · rw [← hcam]
        · rw [← hcam]; simp only [rdp]
        · rw [← hcam]; simp only [rdp, rdl, kL]
        · rw [← hcam]
          simp only [kO]
          exact orient_mat fun f hf => rd_eq_of_par (hu _ fun o g hg e => by cases e; exact hf hg)
        · rw [← hcam]
          simp only [kO, orient_pos, hk .posX (by simp [IsPos]), hk .posY (by simp [IsPos]), hk .elev (by simp [IsPos])]
          ext <;> simp

/-- What `scaleSpace` does to a camera whose orientation is used by `m` cameras. -/
theorem scaled_image (spline : LensModel.Spline) {s : St} (hr : ReachX s) {cams : List ℕ} (hex : ∀ c ∈ cams, s.cams c ≠ none)
    {c : ℕ} {C : CObj} (hC : s.cams c = some C) (hp : Plain s (.proj C.proj)) {k : ℝ} (hk : 0 < k) :
    ∃ cam cam', s.camNow spline c = some cam ∧ (scaleSpace s cams k).camNow spline c = some cam' ∧
      cam'.orient.pos = cam.orient.pos.mulS (k ^ (cams.countP fun c' => Uses s C.orient c')) ∧
      ∀ P, Deep cam P (k ^ (cams.countP fun c' => Uses s C.orient c')) → cam.kind = .rectilinear ∨ ¬ Camera.OnSeam cam P → ∀ hide,
        ∃ a b, s.imageFromSpace spline c P.num hide = some a ∧
          (scaleSpace s cams k).imageFromSpace spline c (P.mulS (k ^ (cams.countP fun c' => Uses s C.orient c'))).num hide = some b ∧ V2.SameN a b := by
  obtain ⟨r, x, p, v, u⟩ := scaleSpace_spec cams hr.reach hex k
  obtain ⟨cam, h1, h2, -⟩ := C52_up_to_date_partial spline hr hC hp
  obtain ⟨cam', g1, g2, g3, g4, g5, g6⟩ := camNow_scaled (spline := spline) hC h1 p u (v C.orient)
  have hC' : (scaleSpace s cams k).cams c = some C := by rw [p.cams]; exact hC
  obtain ⟨cam2, g1', h2', -⟩ := C52_up_to_date_partial spline (x hr) hC' (fun p' P' e hP' => hp p' P' e (by rw [← p.projs]; exact hP'))
  rw [g1] at g1'; cases g1'
  refine ⟨cam, cam', h1, g1, g6, fun P hP hseam hide => ⟨_, _, h2 _ _, h2' _ _, ?_⟩⟩
  exact image_scaled (pow_pos hk _) g2 g3 g4 (camNow_respects h1) g5 g6 hP hseam hide

end Group

/-- **C15** (partial: the orientation of the camera belongs to no other camera of the group, see `C15_violated`; lenses and projections
are not shared; not on the line behind a panoramic camera where its image ends on both sides) -/
theorem C15_scaleSpace_partial (spline : LensModel.Spline) {s : St} (hr : ReachX s) {cams : List ℕ} (hex : ∀ c ∈ cams, s.cams c ≠ none)
    (hnd : cams.Nodup) {c : ℕ} {C : CObj} (hc : c ∈ cams) (hC : s.cams c = some C) (hone : ∀ c' ∈ cams, Uses s C.orient c' → c' = c)
    (hp : Plain s (.proj C.proj)) {k : ℝ} (hk : 0 < k) :
    ∃ cam, s.camNow spline c = some cam ∧ ∀ P, Deep cam P k → cam.kind = .rectilinear ∨ ¬ Camera.OnSeam cam P → ∀ hide,
      ∃ a b, s.imageFromSpace spline c P.num hide = some a ∧
        (scaleSpace s cams k).imageFromSpace spline c (P.mulS k).num hide = some b ∧ V2.SameN a b := by
  have hcount : (cams.countP fun c' => Uses s C.orient c') = 1 := by
    have : cams.countP (fun c' => Uses s C.orient c') = cams.count c := by
      unfold List.count
      refine List.countP_congr fun c' hc' => ?_
      simp only [decide_eq_true_eq, beq_iff_eq]
      exact ⟨hone c' hc', fun e => by rw [e]; exact ⟨C, hC, rfl⟩⟩
    rw [this, List.count_eq_one_of_mem hnd hc]
  obtain ⟨cam, cam', h1, -, -, h4⟩ := scaled_image spline hr hex hC hp hk
  rw [hcount, pow_one] at h4
  exact ⟨cam, h1, h4⟩

/-- **C15 is violated**: a camera whose orientation is shared by `m` cameras of the group is moved to `k ^ m` times its position, and sees
`k ^ m * P` where it saw `P`. -/
theorem C15_violated (spline : LensModel.Spline) {s : St} (hr : ReachX s) {cams : List ℕ} (hex : ∀ c ∈ cams, s.cams c ≠ none)
    {c : ℕ} {C : CObj} (hC : s.cams c = some C) (hp : Plain s (.proj C.proj)) {m : ℕ} (hm : (cams.countP fun c' => Uses s C.orient c') = m) (hm2 : 2 ≤ m)
    {k : ℝ} (hk : 0 < k) (hk1 : k ≠ 1) :
    ∃ cam cam', s.camNow spline c = some cam ∧ (scaleSpace s cams k).camNow spline c = some cam' ∧
      cam'.orient.pos = cam.orient.pos.mulS (k ^ m) ∧ (cam.orient.pos ≠ ⟨0, 0, 0⟩ → cam'.orient.pos ≠ cam.orient.pos.mulS k) ∧
      ∀ P, Deep cam P (k ^ m) → cam.kind = .rectilinear ∨ ¬ Camera.OnSeam cam P → ∀ hide,
        ∃ a b, s.imageFromSpace spline c P.num hide = some a ∧
          (scaleSpace s cams k).imageFromSpace spline c (P.mulS (k ^ m)).num hide = some b ∧ V2.SameN a b := by
  obtain ⟨cam, cam', h1, h2, h3, h4⟩ := scaled_image spline hr hex hC hp hk
  rw [hm] at h3 h4
  refine ⟨cam, cam', h1, h2, h3, fun hne e => hne ?_, h4⟩
  have hkm : k ^ m - k ≠ 0 := by
    intro e
    obtain ⟨j, rfl⟩ := Nat.exists_eq_add_of_le hm2
    have : k ^ (2 + j) = k * k ^ (1 + j) := by rw [← pow_succ']; congr 1; omega
    rw [this] at e
    have e2 : k * (k ^ (1 + j) - 1) = 0 := by linarith
    rcases mul_eq_zero.1 e2 with h | h
    · exact hk.ne' h
    · have : k ^ (1 + j) = 1 := by linarith
      rcases (pow_eq_one_iff_of_ne_zero (by omega : 1 + j ≠ 0)).1 this with h | ⟨h, -⟩
      · exact hk1 h
      · linarith
  rw [h3] at e
  have e0 : ∀ x : ℝ, x * k ^ m = x * k → x = 0 := by
    intro x h
    have : x * (k ^ m - k) = 0 := by linarith
    exact (mul_eq_zero.1 this).resolve_right hkm
  ext
  · exact e0 _ (congrArg V3.x e)
  · exact e0 _ (congrArg V3.y e)
  · exact e0 _ (congrArg V3.z e)

/-- A group with one camera. -/
example : ∃ (s : St) (C : CObj), ReachX s ∧ (∀ c ∈ [0], s.cams c ≠ none) ∧ ([0] : List ℕ).Nodup ∧ s.cams 0 = some C ∧
    (∀ c' ∈ [0], Uses s C.orient c' → c' = 0) ∧ Plain s (.proj C.proj) := by
  obtain ⟨C, hC, hp, ho, hl⟩ := Ex.s4_cams
  refine ⟨Ex.s4, C, Ex.reachX4, by simp [hC], by simp, hC, by simp, fun p P e hP => ?_⟩
  cases e; rw [hp, Ex.s4_projs] at hP; cases hP; rfl

/-- Two cameras with the same parts. -/
example : ∃ (s : St) (C : CObj), ReachX s ∧ (∀ c ∈ [0, 1], s.cams c ≠ none) ∧ s.cams 0 = some C ∧ Plain s (.proj C.proj) ∧
    ([0, 1].countP fun c' => Uses s C.orient c') = 2 := by
  obtain ⟨C, hC, hp, ho, hl⟩ := Ex.s4_cams
  obtain ⟨L, hL, hk, hpr⟩ := Ex.s4_lens
  have hok : Ex.s4.ok (.newCam 1 0 0 0) := by
    obtain ⟨O, hO, -⟩ := Ex.s4_orients
    exact ⟨by rw [Ex.s4_projs]; simp, by rw [hO]; simp, by rw [hL]; simp⟩
  have hx : Ex.s4.excl (.newCam 1 0 0 0) := by
    intro L' hL' _
    rw [hL] at hL'; cases hL'
    refine ⟨Or.inr hpr, fun l' L' hne hl' => ?_⟩
    have e : Ex.s4.lenses l' = (Ex.s3.setProjection 0 0).lenses l' := rfl
    obtain ⟨L3, h1, h2, -⟩ := Ex.s3_lens
    have : Ex.s3.lenses l' = none := by
      have := newLens_lenses_ne Ex.s2 0 .brown (fun _ => none) hne
      rw [show Ex.s3 = Ex.s2.step (.newLens 0 .brown fun _ => none) from rfl, this, show Ex.s2.lenses = Ex.s1.lenses from rfl, Ex.s1_lenses]
    rw [e, setProjection_eq h1 (by rw [h2]; simp), runLens_lenses_ne _ hne, preBind_lenses, Function.update_apply, if_neg hne, this] at hl'
    cases hl'
  obtain ⟨d, h0⟩ := newCam_cams Ex.s4 1 0 0 0 0
  obtain ⟨d1, h1⟩ := newCam_cams Ex.s4 1 0 0 0 1
  rw [if_neg (by simp), hC] at h0
  rw [if_pos rfl] at h1
  refine ⟨_, C, .step Ex.reachX4 hok hx, by simp [h0, h1], h0, fun p P e hP => ?_, ?_⟩
  · cases e
    rw [hp, (step_keep Ex.reachX4.reach.struct hok).projs 0 _ Ex.s4_projs] at hP; cases hP; rfl
  · have u0 : Uses (Ex.s4.step (.newCam 1 0 0 0)) C.orient 0 := ⟨C, h0, rfl⟩
    have u1 : Uses (Ex.s4.step (.newCam 1 0 0 0)) C.orient 1 := ⟨_, h1, ho.symm⟩
    simp [u0, u1]
