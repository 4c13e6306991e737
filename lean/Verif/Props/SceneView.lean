import Verif.Model.SceneView
import Verif.Spec.SceneView
import Verif.Props.View

/-! # The drawings of a scene (C130) -/

open Classical Camera Num Scene

namespace Scene

theorem real_is {x : Num} {r : ℝ} (h : Num.Is x r) : x.real? = some r := by
  cases x <;> simp_all [Num.Is, Num.real?]

theorem real2_is {p : V2 Num} {q : V2 ℝ} (h : p.Is q) : p.real? = some q := by
  simp [V2.real?, real_is h.1, real_is h.2]

theorem real2_nan : V2.nan.real? = none := rfl

/-- Lines with gaps stay lines with gaps. -/
theorem drawn2_map (o : List Row) (f : V3 ℝ → V2 ℝ) (g : Row → V2 Num) (h0 : (g none).real? = none)
    (h1 : ∀ P, some P ∈ o → (g (some P)).real? = some (f P)) :
    Geo.drawn2 (o.map g) = (Geo.drawn o).map fun s => (f s.1, f s.2) := by
  induction o with
  | nil => rfl
  | cons a o ih =>
    have ih := ih fun P hP => h1 P (List.mem_cons_of_mem _ hP)
    cases o with
    | nil => cases a <;> rfl
    | cons b o =>
      rw [List.map_cons] at ih
      cases a with
      | none => simp only [List.map_cons, Geo.drawn2, h0, ih, Geo.drawn]
      | some P =>
        have hP := h1 P (by simp)
        cases b with
        | none => simp only [List.map_cons, Geo.drawn2, h0, hP, ih, Geo.drawn]
        | some Q =>
          have hQ := h1 Q (by simp)
          simp only [List.map_cons, Geo.drawn2, hQ, hP, ih, Geo.drawn]

theorem image_nan (c : Cam) (hl : c.lens = noDistortion) : imageFromSpace c V3.nan = V2.nan := by
  have h1 : Spatial.cameraFromSpace c.orient.mat V3.nan = V3.nan := by
    simp [Spatial.cameraFromSpace, M3.apply, V3.nan, V3.dot]
  unfold imageFromSpace
  rw [hl, h1]
  have h2 : Projection.snap V3.nan = V3.nan := by
    unfold Projection.snap
    rw [if_neg]
    exact fun h => by simp [V3.nan, Num.abs] at h
  cases c.kind <;> simp only [Projection.imageFromCamera, Projection.imageFromCameraRect, Projection.imageFromCameraCyl,
    Projection.imageFromCameraEqui, h2] <;>
  simp [Projection.projRect, Projection.projCyl, Projection.projEqui, noDistortion, V3.nan, V2.nan, Num.arctan2]

/-- The pixel of a point in front of a rectilinear camera. -/
noncomputable def pixR (c : Cam) (P : V3 ℝ) : V2 ℝ :=
  ⟨-(camR c P).x * c.intr.fx / (camR c P).z + c.intr.cx, (camR c P).y * c.intr.fy / (camR c P).z + c.intr.cy⟩

theorem visible_iff (c : Cam) (hk : c.kind = .rectilinear) (P : V3 ℝ) : Visible c P ↔ (camR c P).z ≤ -Projection.minDepth := by
  have hm : 0 < Projection.minDepth := by simp [Projection.minDepth]
  constructor
  · rintro ⟨Q, h1, h2, h3⟩
    have e := (cameraFromSpace_is c (V3.is_num P)).unique h1
    rw [e]
    rw [abs_of_neg (h3 hk)] at h2
    linarith
  · intro h
    refine ⟨_, cameraFromSpace_is c (V3.is_num P), ?_, fun _ => by linarith⟩
    rw [abs_of_neg (by linarith)]
    linarith

theorem image_front (c : Cam) (hk : c.kind = .rectilinear) (hl : c.lens = noDistortion) {P : V3 ℝ} (h : Visible c P) :
    (imageFromSpace c P.num).Is (pixR c P) := by
  have hm : 0 < Projection.minDepth := by simp [Projection.minDepth]
  rw [visible_iff c hk] at h
  have h1 := cameraFromSpace_is c (V3.is_num P)
  unfold imageFromSpace
  rw [hl, hk]
  simp only [noDistortion, Projection.imageFromCamera, Projection.imageFromCameraRect]
  rw [Projection.snap_far h1 (by rw [abs_of_neg (by linarith)]; simp only [Projection.minDepth] at h; linarith)]
  exact Projection.projRect_is h1 (by linarith) true fun _ => by linarith

theorem image_behind (c : Cam) (hk : c.kind = .rectilinear) (hl : c.lens = noDistortion) {P : V3 ℝ} (h : 0 < (camR c P).z) :
    (imageFromSpace c P.num).real? = none := by
  have h1 := cameraFromSpace_is c (V3.is_num P)
  have h2 : Projection.imageFromCamera .rectilinear c.intr (Spatial.cameraFromSpace c.orient.mat P.num) true = V2.nan := by
    by_cases hz : |(camR c P).z| < 1 / 10 ^ 10
    · have h0 := (C04_rectilinear_hides_backpoints c.intr ⟨0, 0, 0⟩ true).1.2 (Or.inr (by simp [Projection.minDepth]))
      simp only [Projection.imageFromCamera, Projection.imageFromCameraRect] at h0 ⊢
      rw [Projection.snap_near (q := ⟨0, 0, 0⟩) (is_fin _) (by simp)] at h0
      rw [Projection.snap_near h1.2.2 hz]
      exact h0
    · simp only [Projection.imageFromCamera, Projection.imageFromCameraRect]
      rw [Projection.snap_far h1 (not_lt.1 hz)]
      unfold Projection.projRect
      simp only
      rw [if_pos ⟨trivial, ((is_fin 0).lt_iff h1.2.2).2 h⟩]
  unfold imageFromSpace
  rw [hl, hk, h2]
  rfl

theorem camR_between (c : Cam) (P Q : V3 ℝ) (t : ℝ) : camR c (P + (Q - P).mulS t) = camR c P + (camR c Q - camR c P).mulS t := by
  unfold camR
  ext <;> simp [M3.applyR, V3.dot] <;> ring

theorem segment_image (c : Cam) (hk : c.kind = .rectilinear) (hl : c.lens = noDistortion) {P Q : V3 ℝ} (hP : Visible c P) (hQ : Visible c Q)
    (q : V2 ℝ) : Geo.OnSegment2 (pixR c P, pixR c Q) q ↔ ∃ R, Geo.OnSegment3 (P, Q) R ∧ (imageFromSpace c R.num).Is q := by
  have hm : 0 < Projection.minDepth := by simp [Projection.minDepth]
  have hP' := (visible_iff c hk P).1 hP
  have hQ' := (visible_iff c hk Q).1 hQ
  have hvis : ∀ t : ℝ, 0 ≤ t → t ≤ 1 → Visible c (P + (Q - P).mulS t) := by
    intro t h0 h1
    rw [visible_iff c hk, camR_between]
    simp only [V3.add_z, V3.mulS_z, V3.sub_z]
    nlinarith
  have key : ∀ s t : ℝ, 0 ≤ t → t ≤ 1 → s * ((1 - t) * (camR c P).z + t * (camR c Q).z) = t * (camR c Q).z →
      pixR c (P + (Q - P).mulS t) =
        ⟨(pixR c P).x + s * ((pixR c Q).x - (pixR c P).x), (pixR c P).y + s * ((pixR c Q).y - (pixR c P).y)⟩ := by
    intro s t h0 h1 hst
    have hd : (1 - t) * (camR c P).z + t * (camR c Q).z < 0 := by nlinarith
    have hs : s = t * (camR c Q).z / ((1 - t) * (camR c P).z + t * (camR c Q).z) := by
      rw [eq_div_iff hd.ne]; exact hst
    have e : (camR c P).z + (camR c Q).z * t - (camR c P).z * t = (1 - t) * (camR c P).z + t * (camR c Q).z := by ring
    have e0 : (camR c P).z + ((camR c Q).z - (camR c P).z) * t = (1 - t) * (camR c P).z + t * (camR c Q).z := by ring
    have hz1 : (camR c P).z ≠ 0 := by linarith
    have hz2 : (camR c Q).z ≠ 0 := by linarith
    unfold pixR
    rw [camR_between]
    simp only [V3.add_z, V3.mulS_z, V3.sub_z, V3.add_x, V3.mulS_x, V3.sub_x, V3.add_y, V3.mulS_y, V3.sub_y, e0]
    have hd' := hd.ne
    rw [hs]
    ext
    · simp only
      field_simp
      ring
    · simp only
      field_simp
      ring
  constructor
  · rintro ⟨s, s0, s1, rfl⟩
    have hd : (1 - s) * (camR c Q).z + s * (camR c P).z < 0 := by nlinarith
    refine ⟨P + (Q - P).mulS (s * (camR c P).z / ((1 - s) * (camR c Q).z + s * (camR c P).z)), ?_, ?_⟩
    · refine ⟨_, div_nonneg_of_nonpos (by nlinarith) hd.le, ?_, rfl⟩
      rw [div_le_one_of_neg hd]; nlinarith
    · have t0 : 0 ≤ s * (camR c P).z / ((1 - s) * (camR c Q).z + s * (camR c P).z) := div_nonneg_of_nonpos (by nlinarith) hd.le
      have t1 : s * (camR c P).z / ((1 - s) * (camR c Q).z + s * (camR c P).z) ≤ 1 := by
        rw [div_le_one_of_neg hd]; nlinarith
      refine (image_front c hk hl (hvis _ t0 t1)).congr (key s _ t0 t1 ?_)
      have hd' := hd.ne
      field_simp
      ring
  · rintro ⟨R, ⟨t, t0, t1, rfl⟩, hq⟩
    have hd : (1 - t) * (camR c P).z + t * (camR c Q).z < 0 := by nlinarith
    refine ⟨t * (camR c Q).z / ((1 - t) * (camR c P).z + t * (camR c Q).z), div_nonneg_of_nonpos (by nlinarith) hd.le, ?_, ?_⟩
    · rw [div_le_one_of_neg hd]; nlinarith
    · rw [hq.unique (image_front c hk hl (hvis t t0 t1)), ← key _ t t0 t1 (div_mul_cancel₀ _ hd.ne)]

end Scene

/-- **C130** (partial: with a camera, see `C130_no_camera_violated`) The three views of the space show the orthogonal projections of the lines of the objects (and of the cone of the camera), one
list of points for each object, and the limits of the image are its size. -/
theorem C130_views_partial (s : Scene.State) (c : Cam) (hc : s.camera = some c) (w h : View.Size) :
    ∃ v cone, plotSceneViews s w h = .ok v ∧ View.cameraCone c w h false = .ok cone ∧ v.xlim = (0, w.val) ∧ v.ylim = (h.val, 0) ∧
      v.xy[0]? = some (cone.map fun p => ⟨p.x, p.y⟩) ∧ v.xz[0]? = some (cone.map fun p => ⟨p.x, p.z⟩) ∧
      v.yz[0]? = some (cone.map fun p => ⟨p.y, p.z⟩) ∧
      v.xy.length = s.objects.length + 1 ∧ v.xz.length = s.objects.length + 1 ∧ v.yz.length = s.objects.length + 1 ∧
      ∀ i o, s.objects[i]? = some o → ∃ l m n, v.xy[i + 1]? = some l ∧ v.xz[i + 1]? = some m ∧ v.yz[i + 1]? = some n ∧
        Geo.drawn2 l = (Geo.drawn o).map (fun g => (⟨g.1.x, g.1.y⟩, ⟨g.2.x, g.2.y⟩)) ∧
        Geo.drawn2 m = (Geo.drawn o).map (fun g => (⟨g.1.x, g.1.z⟩, ⟨g.2.x, g.2.z⟩)) ∧
        Geo.drawn2 n = (Geo.drawn o).map (fun g => (⟨g.1.y, g.1.z⟩, ⟨g.2.y, g.2.z⟩)) := by
  obtain ⟨P, O, -, -, h1⟩ := C79_cone_distance_partial c w h (.fin 1)
  obtain ⟨row, -, h2⟩ := C81_all_x c (some (columns w.val))
  refine ⟨_, _, by simp only [plotSceneViews, hc, h1, h2, bind, Except.bind, pure, Except.pure]; rfl, h1, rfl, rfl, rfl, rfl, rfl,
    by simp, by simp, by simp, fun i o ho => ⟨_, _, _, by simp [ho]; rfl, by simp [ho]; rfl, by simp [ho]; rfl, ?_, ?_, ?_⟩⟩
  · rw [top, List.map_map]
    exact drawn2_map o (fun P => ⟨P.x, P.y⟩) _ rfl fun P _ => rfl
  · rw [front, List.map_map]
    exact drawn2_map o (fun P => ⟨P.x, P.z⟩) _ rfl fun P _ => rfl
  · rw [side, List.map_map]
    exact drawn2_map o (fun P => ⟨P.y, P.z⟩) _ rfl fun P _ => rfl

theorem Scene.drawn_mem {o : List Row} {g : V3 ℝ × V3 ℝ} (h : g ∈ Geo.drawn o) : some g.1 ∈ o ∧ some g.2 ∈ o := by
  induction o with
  | nil => simp [Geo.drawn] at h
  | cons a o ih =>
    have step : g ∈ Geo.drawn o → some g.1 ∈ a :: o ∧ some g.2 ∈ a :: o :=
      fun h => ⟨List.mem_cons_of_mem _ (ih h).1, List.mem_cons_of_mem _ (ih h).2⟩
    match a, o, h, step with
    | none, o, h, step => exact step (by simpa [Geo.drawn] using h)
    | some P, [], h, step => simp [Geo.drawn] at h
    | some P, none :: o, h, step => exact step (by simpa [Geo.drawn] using h)
    | some P, some Q :: o, h, step =>
      rw [Geo.drawn, List.mem_cons] at h
      rcases h with rfl | h
      · simp
      · exact step h

theorem Scene.drawn_object (c : Cam) (hk : c.kind = .rectilinear) (hl : c.lens = noDistortion) (o : List Row)
    (hv : ∀ P, some P ∈ o → Visible c P) (q : V2 ℝ) :
    (∃ g ∈ Geo.drawn2 (objectImage c o), Geo.OnSegment2 g q) ↔
      ∃ g ∈ Geo.drawn o, ∃ P, Geo.OnSegment3 g P ∧ (imageFromSpace c P.num).Is q := by
  unfold objectImage
  rw [drawn2_map o (pixR c) _ (by show (imageFromSpace c V3.nan).real? = none; rw [image_nan c hl]; rfl)
    fun P hP => real2_is (image_front c hk hl (hv P hP))]
  simp only [List.mem_map, exists_exists_and_eq_and]
  refine exists_congr fun g => and_congr_right fun hg => ?_
  obtain ⟨h1, h2⟩ := drawn_mem hg
  exact segment_image c hk hl (hv _ h1) (hv _ h2) q

/-- **C130** (partial: a rectilinear camera without distortion in front of which all corners are) `renderImage` makes a figure of the size of
the image, and for every object exactly the pixels of the points on its lines are drawn. -/
theorem C130_rendered_partial (s : Scene.State) (c : Cam) (hc : s.camera = some c) (hk : c.kind = .rectilinear) (hl : c.lens = noDistortion)
    (w h : ℤ) (hv : ∀ o ∈ s.objects, ∀ P, some P ∈ o → Visible c P) :
    ∃ f, renderImage s (.int w) (.int h) = .ok f ∧ f.width = w ∧ f.height = h ∧ f.xlim = (0, (w : ℝ)) ∧ f.ylim = ((h : ℝ), 0) ∧
      f.lines.length = s.objects.length ∧ ∀ (i : ℕ) o l, s.objects[i]? = some o → f.lines[i]? = some l → ∀ q : V2 ℝ,
        (∃ g ∈ Geo.drawn2 l, Geo.OnSegment2 g q) ↔ ∃ g ∈ Geo.drawn o, ∃ P, Geo.OnSegment3 g P ∧ (imageFromSpace c P.num).Is q := by
  refine ⟨_, by simp only [renderImage, hc]; rfl, by simp, by simp, rfl, rfl, by simp, fun i o l ho hl' q => ?_⟩
  simp only [List.getElem?_map, ho, Option.map_some, Option.some.injEq] at hl'
  subst hl'
  exact drawn_object c hk hl o (fun P hP => hv o (List.mem_of_getElem? ho) P hP) q

/-- **C130** (partial, as `C130_rendered_partial`) The same for the fourth view of `plotSceneViews`; it also shows the horizon in a hundred columns
from the left to the right border. -/
theorem C130_image_view_partial (s : Scene.State) (c : Cam) (hc : s.camera = some c) (hk : c.kind = .rectilinear) (hl : c.lens = noDistortion)
    (w h : View.Size) (hv : ∀ o ∈ s.objects, ∀ P, some P ∈ o → Visible c P) :
    ∃ v, plotSceneViews s w h = .ok v ∧ v.image.length = s.objects.length + 1 ∧
      (∃ l, v.image[0]? = some l ∧ l.length = 100 ∧ ∀ i : ℕ, i < 100 → ∃ p, l[i]? = some p ∧ p.x.Is (i * w.val / 99) ∧
        (∀ y : ℕ, View.horizonRow c (i * (w.val / 99)) = .ok (some y) → p.y.Is y) ∧
        (View.horizonRow c (i * (w.val / 99)) = .ok none → p.y = .nan)) ∧
      ∀ i o, s.objects[i]? = some o → ∃ l, v.image[i + 1]? = some l ∧ ∀ q : V2 ℝ,
        (∃ g ∈ Geo.drawn2 l, Geo.OnSegment2 g q) ↔ ∃ g ∈ Geo.drawn o, ∃ P, Geo.OnSegment3 g P ∧ (imageFromSpace c P.num).Is q := by
  obtain ⟨P, O, -, -, h1⟩ := C79_cone_distance_partial c w h (.fin 1)
  obtain ⟨row, h3, h2⟩ := C81_all_x c (some (columns w.val))
  refine ⟨_, by simp only [plotSceneViews, hc, h1, h2, bind, Except.bind, pure, Except.pure]; rfl, by simp,
    ⟨_, rfl, by simp [columns], fun i hi => ⟨horizonPoint (i * (w.val / 99), row (i * (w.val / 99))), by simp [columns, hi], ?_, ?_, ?_⟩⟩,
    fun i o ho => ⟨objectImage c o, by simp [ho], ?_⟩⟩
  · exact (is_fin _).congr (by ring)
  · intro y hy
    have := (h3 _).symm.trans hy
    simp only [Except.ok.injEq] at this
    rw [horizonPoint, this]
    exact is_fin _
  · intro hy
    have := (h3 _).symm.trans hy
    simp only [Except.ok.injEq] at this
    rw [horizonPoint, this]
  · exact drawn_object c hk hl o (fun P hP => hv o (List.mem_of_getElem? ho) P hP)

/-- **C130 is violated** by a line that passes the plane of the camera: nothing of it is drawn, although a part that starts at one of its
ends has pixels. -/
theorem C130_behind_violated (c : Cam) (hk : c.kind = .rectilinear) (hl : c.lens = noDistortion) (P Q : V3 ℝ)
    (hP : (camR c P).z < -Projection.minDepth) (hQ : 0 < (camR c Q).z) :
    Geo.drawn2 (objectImage c [some P, some Q]) = [] ∧ Geo.drawn [some P, some Q] = [(P, Q)] ∧
      ∃ t₀ > 0, ∀ t, 0 ≤ t → t ≤ t₀ → Geo.OnSegment3 (P, Q) (P + (Q - P).mulS t) ∧
        ∃ q : V2 ℝ, (imageFromSpace c (P + (Q - P).mulS t).num).Is q := by
  have hm : 0 < Projection.minDepth := by simp [Projection.minDepth]
  refine ⟨?_, rfl, (-Projection.minDepth - (camR c P).z) / ((camR c Q).z - (camR c P).z), by apply div_pos <;> linarith, fun t h0 h1 => ?_⟩
  · have h2 := image_behind c hk hl hQ
    simp only [objectImage, rowNum, List.map_cons, List.map_nil, Geo.drawn2, h2]
    cases (imageFromSpace c P.num).real? <;> rfl
  · rw [le_div_iff₀ (by linarith)] at h1
    refine ⟨⟨t, h0, ?_, rfl⟩, _, image_front c hk hl ((visible_iff c hk _).2 ?_)⟩
    · by_contra h2
      push Not at h2
      nlinarith
    · rw [camR_between]
      simp only [V3.add_z, V3.mulS_z, V3.sub_z]
      linarith

/-- **C130 is violated** without a camera: line 61 provides for this, but nothing is drawn. -/
theorem C130_no_camera_violated (s : Scene.State) (w h : View.Size) (hc : s.camera = none) :
    plotSceneViews s w h = .error .attributeError ∧ renderImage s w h = .error .attributeError := by
  simp [plotSceneViews, renderImage, hc]

/-- **C130 is violated** for image sizes that are floats: `renderImage` fails. -/
theorem C130_float_violated (s : Scene.State) (c : Cam) (hc : s.camera = some c) (w : ℝ) (h : View.Size) :
    renderImage s (.float w) h = .error .typeError ∧ renderImage s h (.float w) = .error .typeError := by
  cases h <;> simp [renderImage, hc]

theorem Scene.pano_image (c : Cam) (hk : c.kind ≠ .rectilinear) (hl : c.lens = noDistortion) {P : V3 ℝ} (hz : Projection.minDepth ≤ |(camR c P).z|) :
    ∃ x : ℝ, (imageFromSpace c P.num).Is ⟨x, -c.intr.fy * (if c.kind = .cylindrical then
      (camR c P).y / Real.sqrt ((camR c P).x ^ 2 + (camR c P).z ^ 2) else
      Complex.arg ⟨Real.sqrt ((camR c P).x ^ 2 + (camR c P).z ^ 2), (camR c P).y⟩) + c.intr.cy⟩ := by
  have hm : 0 < Projection.minDepth := by simp [Projection.minDepth]
  have h1 := cameraFromSpace_is c (V3.is_num P)
  have hz0 : (camR c P).z ≠ 0 := by
    intro h; rw [h, abs_zero] at hz; linarith
  have hpos : 0 < (camR c P).x ^ 2 + (camR c P).z ^ 2 := by positivity
  have hr := ((h1.1.npow 2).add (h1.2.2.npow 2)).sqrt hpos.le
  have hr0 : 0 < Real.sqrt ((camR c P).x ^ 2 + (camR c P).z ^ 2) := Real.sqrt_pos.2 hpos
  obtain ⟨a, ha⟩ := h1.1.neg.arctan2_finite h1.2.2.neg
  have hx := ((is_fin c.intr.fx).neg.mul ha).add (is_fin c.intr.cx)
  have hs := Projection.snap_far h1 hz
  unfold imageFromSpace
  rw [hl]
  refine ⟨-c.intr.fx * a + c.intr.cx, ?_⟩
  simp only [noDistortion]
  cases hkk : c.kind with
  | rectilinear => exact absurd hkk hk
  | cylindrical =>
    have hY := (((is_fin c.intr.fy).neg.mul h1.2.1).div hr hr0.ne').add (is_fin c.intr.cy)
    simp only [Projection.imageFromCamera, Projection.imageFromCameraCyl, hs, Projection.projCyl, if_neg hY.ne_nan, if_true]
    exact ⟨hx, hY.congr (by ring)⟩
  | equirectangular =>
    have hY := ((is_fin c.intr.fy).neg.mul (h1.2.1.arctan2 hr (Or.inr hr0))).add (is_fin c.intr.cy)
    simp only [Projection.imageFromCamera, Projection.imageFromCameraEqui, hs, Projection.projEqui]
    exact ⟨hx, hY.congr (by simp)⟩

/-- **C130 is violated** by panoramic cameras: of a line across the view, above or below the middle, the end points are joined by a straight
line, on which the pixel of the middle of the line does not lie. -/
theorem C130_panorama_violated (c : Cam) (hk : c.kind ≠ .rectilinear) (hl : c.lens = noDistortion) (hf : c.intr.fy ≠ 0) (P Q : V3 ℝ)
    (hx : (camR c Q).x = -(camR c P).x) (hx0 : (camR c P).x ≠ 0) (hy : (camR c Q).y = (camR c P).y) (hy0 : (camR c P).y ≠ 0)
    (hz : (camR c Q).z = (camR c P).z) (hz0 : Projection.minDepth ≤ |(camR c P).z|) :
    ∃ p q m : V2 ℝ, Geo.drawn2 (objectImage c [some P, some Q]) = [(p, q)] ∧ (imageFromSpace c (P + (Q - P).mulS (1 / 2)).num).Is m ∧
      ¬ Geo.OnSegment2 (p, q) m := by
  have hM : camR c (P + (Q - P).mulS (1 / 2)) = ⟨0, (camR c P).y, (camR c P).z⟩ := by
    rw [camR_between]
    ext
    · simp [hx]; ring
    · simp [hy]
    · simp [hz]
  obtain ⟨xp, hp⟩ := pano_image c hk hl hz0
  obtain ⟨xq, hq⟩ := pano_image c hk hl (P := Q) (by rw [hz]; exact hz0)
  obtain ⟨xm, hm⟩ := pano_image c hk hl (P := P + (Q - P).mulS (1 / 2)) (by rw [hM]; exact hz0)
  refine ⟨_, _, _, by simp only [objectImage, rowNum, List.map_cons, List.map_nil, Geo.drawn2, real2_is hp, real2_is hq]; rfl, hm, ?_⟩
  rintro ⟨t, -, -, h⟩
  have h := (V2.ext_iff.1 h).2
  have hne : (camR c P).z ≠ 0 := by
    have hm : 0 < Projection.minDepth := by simp [Projection.minDepth]
    intro h; rw [h, abs_zero] at hz0; linarith
  have hlt : Real.sqrt (0 ^ 2 + (camR c P).z ^ 2) < Real.sqrt ((camR c P).x ^ 2 + (camR c P).z ^ 2) := by
    apply Real.sqrt_lt_sqrt (by positivity)
    have : 0 < (camR c P).x ^ 2 := by positivity
    linarith
  have hr0 : 0 < Real.sqrt (0 ^ 2 + (camR c P).z ^ 2) := Real.sqrt_pos.2 (by positivity)
  simp only [hM, hx, hy, hz, neg_sq, sub_self, mul_zero, add_zero, add_left_inj, neg_mul, neg_inj] at h
  have h := mul_left_cancel₀ hf h
  have hdiv : (camR c P).y / Real.sqrt (0 ^ 2 + (camR c P).z ^ 2) = (camR c P).y / Real.sqrt ((camR c P).x ^ 2 + (camR c P).z ^ 2) := by
    split_ifs at h with hc
    · exact h
    · have := congrArg Real.tan h
      rwa [Complex.tan_arg, Complex.tan_arg] at this
  rw [div_eq_div_iff hr0.ne' (hr0.trans hlt).ne'] at hdiv
  exact hlt.ne (mul_left_cancel₀ hy0 hdiv).symm

/-! Examples that meet the hypotheses. -/

example : ∃ v, plotSceneViews (addCube (setCamera {} exampleCam) ⟨1, 2, 3⟩ 2).1 (.int 100) (.int 50) = .ok v := by
  obtain ⟨v, -, h, -⟩ := C130_views_partial (addCube (setCamera {} exampleCam) ⟨1, 2, 3⟩ 2).1 exampleCam rfl (.int 100) (.int 50)
  exact ⟨v, h⟩

theorem Scene.exampleFront : ∀ o ∈ (addCube (setCamera {} exampleCam) ⟨1, 2, 3⟩ 2).1.objects, ∀ P, some P ∈ o → Visible exampleCam P := by
  intro o ho P hP
  simp only [addCube, add, setCamera, List.nil_append, List.mem_singleton] at ho
  subst ho
  refine exampleCam_visible P ?_
  simp only [cube, List.mem_cons, Option.some.injEq, reduceCtorEq, List.not_mem_nil, or_false, false_or] at hP
  rcases hP with rfl | rfl | rfl | rfl | rfl | rfl | rfl | rfl | rfl | rfl | rfl | rfl | rfl | rfl | rfl | rfl | rfl | rfl <;> norm_num

example : ∃ f, renderImage (addCube (setCamera {} exampleCam) ⟨1, 2, 3⟩ 2).1 (.int 100) (.int 50) = .ok f ∧ f.width = 100 := by
  obtain ⟨f, h1, h2, -⟩ := C130_rendered_partial _ exampleCam rfl rfl rfl 100 50 exampleFront
  exact ⟨f, h1, by simpa using h2⟩

example : ∃ v, plotSceneViews (addCube (setCamera {} exampleCam) ⟨1, 2, 3⟩ 2).1 (.int 100) (.int 50) = .ok v ∧ v.image.length = 2 := by
  obtain ⟨v, h1, h2, -⟩ := C130_image_view_partial _ exampleCam rfl rfl rfl (.int 100) (.int 50) exampleFront
  exact ⟨v, h1, h2⟩

example : Geo.drawn2 (objectImage exampleCam [some ⟨1, 2, 3⟩, some ⟨1, 2, 13⟩]) = [] :=
  (C130_behind_violated exampleCam rfl rfl ⟨1, 2, 3⟩ ⟨1, 2, 13⟩ (by rw [exampleCam_camR]; simp [Projection.minDepth]; norm_num)
    (by rw [exampleCam_camR]; norm_num)).1

example : plotSceneViews {} (.int 100) (.int 50) = .error .attributeError := (C130_no_camera_violated {} _ _ rfl).1

example : renderImage (setCamera {} exampleCam) (.float 100.5) (.int 50) = .error .typeError := (C130_float_violated _ exampleCam rfl _ _).1

example (k : Projection.Kind) (hk : k ≠ .rectilinear) : ∃ p q m : V2 ℝ, Geo.drawn2 (objectImage { exampleCam with kind := k }
      [some ⟨1, 2, 3⟩, some ⟨-1, 2, 3⟩]) = [(p, q)] ∧ (imageFromSpace { exampleCam with kind := k } (V3.num ⟨0, 2, 3⟩)).Is m ∧
      ¬ Geo.OnSegment2 (p, q) m := by
  have e : ∀ P, camR { exampleCam with kind := k } P = camR exampleCam P := fun P => rfl
  have h := C130_panorama_violated { exampleCam with kind := k } hk rfl (by simp [exampleCam]) ⟨1, 2, 3⟩ ⟨-1, 2, 3⟩
    (by rw [e, e, exampleCam_camR, exampleCam_camR]) (by rw [e, exampleCam_camR]; norm_num)
    (by rw [e, e, exampleCam_camR, exampleCam_camR]) (by rw [e, exampleCam_camR]; norm_num) (by rw [e, e, exampleCam_camR, exampleCam_camR])
    (by rw [e, exampleCam_camR]; norm_num [Projection.minDepth])
  have e2 : (⟨1, 2, 3⟩ : V3 ℝ) + ((⟨-1, 2, 3⟩ : V3 ℝ) - ⟨1, 2, 3⟩).mulS (1 / 2) = ⟨0, 2, 3⟩ := by ext <;> simp <;> norm_num
  rwa [e2] at h
