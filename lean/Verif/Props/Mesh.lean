import Verif.Spec.Mesh
import Verif.Props.Camera
import Verif.Props.Ray

open Classical Num Ray Camera

/-! # What `spaceFromImage` with a mesh returns (C163) -/

/-- `hitParam` of a non-degenerate triangle in whose plane the ray lies. -/
theorem Mesh.hitParam_coplanar {o d : V3 Num} {O D : V3 ℝ} (ho : o.Is O) (hd : d.Is D) {T : Tri ℝ}
    (hn : ¬ Geo.Degenerate T) (hc : Geo.Coplanar O D T) :
    (Geo.InTri T (Geo.at' O D 0) → Num.Is (hitParam o d T.num) 0) ∧
    (¬ Geo.InTri T (Geo.at' O D 0) → hitParam o d T.num = nan) := by
  have hN := is_normal T
  have hb := hN.dot hd
  have ha := hN.dot ((V3.is_num T.a).sub ho)
  have e1 : Num.eqv (((T.num.b - T.num.a).cross (T.num.c - T.num.a)).dot d) (fin 0) := (hb.eqv_iff (is_fin 0)).2 hc.1
  have e2 : Num.eqv (((T.num.b - T.num.a).cross (T.num.c - T.num.a)).dot (T.num.a - o)) (fin 0) :=
    (ha.eqv_iff (is_fin 0)).2 hc.2
  have e3 : ¬ (fin 0 < fin 0) := by rw [(is_fin 0).lt_iff (is_fin 0)]; exact lt_irrefl _
  have iu := (V3.is_num T.b).sub (V3.is_num T.a)
  have iv := (V3.is_num T.c).sub (V3.is_num T.a)
  have iw := (ho.add (hd.mulS (is_fin 0))).sub (V3.is_num T.a)
  have hden := denom_eq T
  have hNp : 0 < (Geo.normal T).normSq := V3.normSq_pos hn
  have hden0 : (T.b - T.a).dot (T.c - T.a) * (T.b - T.a).dot (T.c - T.a) -
      (T.b - T.a).dot (T.b - T.a) * (T.c - T.a).dot (T.c - T.a) ≠ 0 := by rw [hden]; linarith
  have iden := ((iu.dot iv).mul (iu.dot iv)).sub ((iu.dot iu).mul (iv.dot iv))
  have is := (((iu.dot iv).mul (iw.dot iv)).sub ((iv.dot iv).mul (iw.dot iu))).div iden hden0
  have it := (((iu.dot iv).mul (iw.dot iu)).sub ((iu.dot iu).mul (iw.dot iv))).div iden hden0
  have hpl : (Geo.normal T).dot (O + D.mulS 0 - T.a) = 0 := by
    have : (Geo.normal T).dot (O + D.mulS 0 - T.a) = - (Geo.normal T).dot (T.a - O) := by
      simp only [V3.dot, V3.add_x, V3.add_y, V3.add_z, V3.sub_x, V3.sub_y, V3.sub_z, V3.mulS_x, V3.mulS_y, V3.mulS_z]; ring
    rw [this, hc.2, neg_zero]
  have htri := inTri_iff O D T 0 hn hpl
  have c1 := is.lt_iff (is_fin 0)
  have c2 := (is_fin 1).lt_iff is
  have c3 := it.lt_iff (is_fin 0)
  have c4 := (is_fin 1).lt_iff (is.add it)
  constructor
  · intro hin
    obtain ⟨g1, g2, g3⟩ := htri.1 hin
    simp only [siR, tiR] at g1 g2 g3
    unfold hitParam
    simp only [e1, e2, not_true_eq_false, and_false, and_self, if_true, if_false, e3, Bool.false_eq_true]
    rw [if_neg, if_neg]
    · exact is_fin 0
    · rw [not_or]
      exact ⟨fun h => absurd (c1.1 h) (not_lt.2 g1), fun h => absurd (c2.1 h) (by linarith)⟩
    · rw [not_or]
      exact ⟨fun h => absurd (c3.1 h) (not_lt.2 g2), fun h => absurd (c4.1 h) (not_lt.2 g3)⟩
  · intro hin
    unfold hitParam
    simp only [e1, e2, not_true_eq_false, and_false, and_self, if_true, if_false, e3, Bool.false_eq_true]
    split_ifs with h5 h6
    · rfl
    · rfl
    · exfalso
      apply hin
      rw [htri]
      rw [not_or] at h5 h6
      simp only [siR, tiR]
      refine ⟨not_lt.1 fun h => h6.1 (c1.2 h), not_lt.1 fun h => h5.1 (c3.2 h), not_lt.1 fun h => h5.2 (c4.2 h)⟩

/-- A triangle counts as hit at one parameter at most. -/
theorem Mesh.counts_unique {O D : V3 ℝ} {T : Tri ℝ} {r s : ℝ} (hr : Geo.Counts O D T r) (hs : Geo.Counts O D T s) :
    r = s := by
  rcases hr with ⟨h1, h2⟩ | ⟨h1, h2, h3⟩ <;> rcases hs with ⟨g1, g2⟩ | ⟨g1, g2, g3⟩
  · rw [h2, g2]
  · exact absurd h1 g1
  · exact absurd g1 h1
  · by_cases hc : Geo.Coplanar O D T
    · rw [h3 hc, g3 hc]
    · exact (hit_param hc h2).2.trans (hit_param hc g2).2.symm

theorem Mesh.counts_nonneg {O D : V3 ℝ} {T : Tri ℝ} {r : ℝ} (hr : Geo.Counts O D T r) : 0 ≤ r := by
  rcases hr with ⟨-, h⟩ | ⟨-, h, -⟩
  · exact h.ge
  · exact h.1

/-- `hitParam` of any triangle. -/
theorem Mesh.hitParam_full {o d : V3 Num} {O D : V3 ℝ} (ho : o.Is O) (hd : d.Is D) (T : Tri ℝ) :
    (∃ r, Geo.Counts O D T r ∧ Num.Is (hitParam o d T.num) r) ∨
    ((∀ r, ¬ Geo.Counts O D T r) ∧ hitParam o d T.num = nan) := by
  by_cases hn : Geo.Degenerate T
  · exact .inl ⟨0, .inl ⟨hn, rfl⟩, hitParam_degenerate ho hd hn⟩
  by_cases hc : Geo.Coplanar O D T
  · obtain ⟨h1, h2⟩ := hitParam_coplanar ho hd hn hc
    by_cases hin : Geo.InTri T (Geo.at' O D 0)
    · exact .inl ⟨0, .inr ⟨hn, ⟨le_rfl, hin⟩, fun _ => rfl⟩, h1 hin⟩
    · refine .inr ⟨?_, h2 hin⟩
      rintro r (⟨h, -⟩ | ⟨-, h, h'⟩)
      · exact hn h
      · rw [h' hc] at h; exact hin h.2
  · rcases hitParam_spec ho hd hn hc with ⟨r, h1, h2⟩ | ⟨h1, h2⟩
    · exact .inl ⟨r, .inr ⟨hn, h1, fun h => absurd h hc⟩, h2⟩
    · refine .inr ⟨?_, h2⟩
      rintro r (⟨h, -⟩ | ⟨-, h, -⟩)
      · exact hn h
      · exact h1 r h

/-- The result of `ray_intersect_triangle` for a ray that some triangle counts as hit by. -/
theorem Mesh.nearest {o d : V3 Num} {O D : V3 ℝ} (ho : o.Is O) (hd : d.Is D) (mesh : List (Tri ℝ))
    (hhit : ∃ T ∈ mesh, ∃ r, Geo.Counts O D T r) :
    ∃ (r : ℝ) (P : V3 Num), (∃ T ∈ mesh, Geo.Counts O D T r) ∧ (∀ T ∈ mesh, ∀ r', Geo.Counts O D T r' → r ≤ r') ∧
      rayIntersectTriangle o d (mesh.map Tri.num) = some P ∧ P.Is (Geo.at' O D r) := by
  obtain ⟨T0, hT0, r0, hr0⟩ := hhit
  obtain ⟨Tn, hTn, e, hmin⟩ := rayIntersect_spec o d (mesh.map Tri.num)
    (by intro h; rw [List.map_eq_nil_iff] at h; rw [h] at hT0; simp at hT0)
  obtain ⟨T, hT, rfl⟩ := List.mem_map.1 hTn
  have entry : ∀ S ∈ mesh, ∀ r, Geo.Counts O D S r → Num.Is (nanToInf (hitParam o d S.num)) r := by
    intro S hS r hr
    rcases hitParam_full ho hd S with ⟨r', h1, h2⟩ | ⟨h1, -⟩
    · rw [counts_unique hr h1]
      unfold nanToInf; rw [if_neg h2.ne_nan]; exact h2
    · exact absurd hr (h1 r)
  have hle : ∀ S ∈ mesh, ∀ r, Geo.Counts O D S r → ext (nanToInf (hitParam o d T.num)) ≤ (r : EReal) := by
    intro S hS r hr
    have h1 := hmin S.num (List.mem_map_of_mem hS)
    rwa [(entry S hS r hr).ext_eq] at h1
  rcases hitParam_full ho hd T with ⟨r, h1, h2⟩ | ⟨-, h2⟩
  · have h3 : Num.Is (nanToInf (hitParam o d T.num)) r := by
      unfold nanToInf; rw [if_neg h2.ne_nan]; exact h2
    refine ⟨r, _, ⟨T, hT, h1⟩, ?_, e, ?_⟩
    · intro S hS r' hr'
      have := hle S hS r' hr'
      rw [h3.ext_eq] at this
      exact_mod_cast this
    · refine (ho.add (hd.mulS h3)).congr ?_
      ext <;> simp [Geo.at'] <;> ring
  · exfalso
    have := hle T0 hT0 r0 hr0
    rw [h2] at this
    simp [nanToInf, Num.ext] at this

theorem Mesh.inf_coord {o d : Num} {O D : ℝ} (ho : Num.Is o O) (hd : Num.Is d D) : ¬ (o + d * pinf).Finite ∧
    (o + d * pinf = nan ↔ D = 0) := by
  have hI : IsInf pinf := trivial
  by_cases h : D = 0
  · have : d * pinf = nan := Camera.inf_mul_zero hI (h ▸ hd)
    rw [this]
    have e : o + nan = nan := by
      show Num.add o nan = nan
      cases o <;> rfl
    rw [e]
    exact ⟨not_finite_nan, by simp [h]⟩
  · have h1 := Camera.inf_mul_nonzero hI hd h
    have h2 : IsInf (o + d * pinf) := by
      have := ho
      show IsInf (Num.add o (d * pinf))
      cases hx : d * pinf <;> rw [hx] at h1 <;> cases o <;> simp_all [IsInf, Num.add, Num.Is]
    refine ⟨Camera.not_finite_of_inf h2, ?_⟩
    simp only [h, iff_false]
    intro h3; rw [h3] at h2; exact h2

/-- The result of `ray_intersect_triangle` for a ray that no triangle counts as hit by. -/
theorem Mesh.miss {o d : V3 Num} {O D : V3 ℝ} (ho : o.Is O) (hd : d.Is D) (mesh : List (Tri ℝ)) (hne : mesh ≠ [])
    (hmiss : ∀ T ∈ mesh, ∀ r, ¬ Geo.Counts O D T r) :
    rayIntersectTriangle o d (mesh.map Tri.num) = some (o + d.mulS pinf) := by
  obtain ⟨Tn, hTn, e, -⟩ := rayIntersect_spec o d (mesh.map Tri.num)
    (by intro h; rw [List.map_eq_nil_iff] at h; exact hne h)
  obtain ⟨T, hT, rfl⟩ := List.mem_map.1 hTn
  rcases hitParam_full ho hd T with ⟨r, h1, -⟩ | ⟨-, h2⟩
  · exact absurd h1 (hmiss T hT r)
  · rw [e, h2]; simp [nanToInf]

theorem Mesh.space (c : Cam) (n : V2 Num) (k : Constraint) (mesh : List (Tri ℝ)) (hk : k.mesh = some (mesh.map Tri.num)) :
    spaceFromImage c n k = match rayIntersectTriangle (Camera.getRay c n).1 (Camera.getRay c n).2 (mesh.map Tri.num) with
      | none => .error .valueError
      | some q => .ok q := by
  unfold spaceFromImage
  simp only [hk]
  cases rayIntersectTriangle (Camera.getRay c n).1 (Camera.getRay c n).2 (mesh.map Tri.num) <;> rfl

/-- **C163** What `spaceFromImage` returns for any mesh, whatever the other arguments are: ValueError for the empty mesh;
the point of the view ray of the pixel at the smallest parameter that counts as a hit; a point without any finite
coordinate if nothing counts as hit. -/
theorem C163_exact (c : Cam) (hc : c.Proper) (n : V2 Num) (q : V2 ℝ) (hq : (c.lens.imageFromDistorted n).Is q)
    (mesh : List (Tri ℝ)) (k : Constraint) (hk : k.mesh = some (mesh.map Tri.num)) :
    (mesh = [] ∧ spaceFromImage c n k = .error .valueError) ∨
    (∃ (r : ℝ) (P : V3 Num), (∃ T ∈ mesh, Geo.Counts c.orient.pos (dirR c q) T r) ∧
      (∀ T ∈ mesh, ∀ r', Geo.Counts c.orient.pos (dirR c q) T r' → r ≤ r') ∧
      spaceFromImage c n k = .ok P ∧ P.Is (Geo.at' c.orient.pos (dirR c q) r)) ∨
    (mesh ≠ [] ∧ (∀ T ∈ mesh, ∀ r, ¬ Geo.Counts c.orient.pos (dirR c q) T r) ∧
      ∃ P : V3 Num, spaceFromImage c n k = .ok P ∧ ¬ P.x.Finite ∧ ¬ P.y.Finite ∧ ¬ P.z.Finite ∧
        (P.x = nan ↔ (dirR c q).x = 0) ∧ (P.y = nan ↔ (dirR c q).y = 0) ∧ (P.z = nan ↔ (dirR c q).z = 0)) := by
  have ho := getRay_offset c n false
  have hd := getRay_real c hc hq
  have hs := Mesh.space c n k mesh hk
  by_cases hne : mesh = []
  · refine .inl ⟨hne, ?_⟩
    rw [hs, hne]; rfl
  refine .inr ?_
  by_cases hhit : ∃ T ∈ mesh, ∃ r, Geo.Counts c.orient.pos (dirR c q) T r
  · obtain ⟨r, P, h1, h2, h3, h4⟩ := Mesh.nearest ho hd mesh hhit
    refine .inl ⟨r, P, h1, h2, ?_, h4⟩
    rw [hs, h3]
  · push Not at hhit
    have h1 := Mesh.miss ho hd mesh hne hhit
    obtain ⟨x1, x2⟩ := Mesh.inf_coord ho.1 hd.1
    obtain ⟨y1, y2⟩ := Mesh.inf_coord ho.2.1 hd.2.1
    obtain ⟨z1, z2⟩ := Mesh.inf_coord ho.2.2 hd.2.2
    refine .inr ⟨hne, hhit, _, by rw [hs, h1], x1, y1, z1, x2, y2, z2⟩

theorem Mesh.faceOn_counts {O D : V3 ℝ} {mesh : List (Tri ℝ)} (h : Geo.FaceOn O D mesh) {T : Tri ℝ} (hT : T ∈ mesh) (r : ℝ) :
    Geo.Counts O D T r ↔ Geo.Hit O D T r := by
  obtain ⟨h1, h2⟩ := h T hT
  simp [Geo.Counts, h1, h2]

theorem Mesh.shows_ray (c : Cam) (hc : c.Proper) {P : V3 ℝ} {q : V2 ℝ} {hide : Bool} (hv : Visible c P)
    (hs : Depicts c P q hide) : ∃ u : ℝ, 0 < u ∧ P = Geo.at' c.orient.pos (dirR c q) u := by
  obtain ⟨Q, hQ, hz, hf⟩ := hv
  have hQ' := camR_of_is c hQ
  have h0 := cameraFromSpace_is c (V3.is_num P)
  rw [← hQ'] at h0
  obtain ⟨p, h1, u, hu, e⟩ := Projection.imageFromCamera_exists c.kind hc.1 hc.2 h0 hz hide hf
  have := hs.unique h1
  subst this
  refine ⟨u, hu, (space_on_ray c P (hQ' ▸ e)).trans ?_⟩
  ext <;> simp [Geo.at'] <;> ring

theorem Mesh.dist_at (O D : V3 ℝ) {r : ℝ} (hr : 0 ≤ r) : V3.dist O (Geo.at' O D r) = r * D.norm := by
  have : (O - Geo.at' O D r).normSq = r ^ 2 * D.normSq := by
    simp only [V3.normSq, V3.sub_x, V3.sub_y, V3.sub_z, Geo.at']; ring
  unfold V3.dist V3.norm
  rw [this, Real.sqrt_mul (sq_nonneg r), Real.sqrt_sq hr]

/-- **C163** (partial) If the pixel shows the mesh and no triangle is seen edge-on or has no area, then the result is a
point of the mesh, it is projected to the pixel again, and no visible point of the mesh with the same picture is nearer
to the camera. -/
theorem C163_front_partial (c : Cam) (hc : c.Proper) (n : V2 Num) (p q : V2 ℝ) (hu : (c.lens.imageFromDistorted n).Is q)
    (hq : Projection.InRange c.kind c.intr q) (hL : ∀ m : V2 Num, m.Is q → (c.lens.distortedFromImage m).Is p)
    (mesh : List (Tri ℝ)) (hf : Geo.FaceOn c.orient.pos (dirR c q) mesh) (k : Constraint)
    (hk : k.mesh = some (mesh.map Tri.num)) (hide : Bool) (S : V3 ℝ) (hS : Geo.OnMesh mesh S) (hv : Visible c S)
    (hsee : Depicts c S q hide) :
    ∃ (P : V3 Num) (Q : V3 ℝ), spaceFromImage c n k = .ok P ∧ P.Is Q ∧ Geo.OnMesh mesh Q ∧
      (Deep c Q → (imageFromSpace c P hide).Is p) ∧
      ∀ S', Geo.OnMesh mesh S' → Visible c S' → Depicts c S' q hide →
        V3.dist c.orient.pos Q ≤ V3.dist c.orient.pos S' := by
  obtain ⟨u, hu0, e⟩ := Mesh.shows_ray c hc hv hsee
  obtain ⟨T, hT, hin⟩ := hS
  have hcnt : Geo.Counts c.orient.pos (dirR c q) T u := (Mesh.faceOn_counts hf hT u).2 ⟨hu0.le, e ▸ hin⟩
  rcases C163_exact c hc n q hu mesh k hk with ⟨h, -⟩ | ⟨r, P, ⟨T1, hT1, h1⟩, h2, h3, h4⟩ | ⟨-, h, -⟩
  · rw [h] at hT; simp at hT
  · have hr := Mesh.counts_nonneg h1
    have h1' := (Mesh.faceOn_counts hf hT1 r).1 h1
    refine ⟨P, _, h3, h4, ⟨T1, hT1, h1'.2⟩, fun hd => ?_, ?_⟩
    · apply hL
      refine image_of_ray_point c hc hq h4 hr ?_ hd hide
      ext <;> simp [Geo.at'] <;> ring
    · rintro S' ⟨T', hT', hin'⟩ hv' hs'
      obtain ⟨u', hu', e'⟩ := Mesh.shows_ray c hc hv' hs'
      have := h2 T' hT' u' ((Mesh.faceOn_counts hf hT' u').2 ⟨hu'.le, e' ▸ hin'⟩)
      rw [e', Mesh.dist_at _ _ hr, Mesh.dist_at _ _ hu'.le]
      exact mul_le_mul_of_nonneg_right this (V3.norm_nonneg _)
  · exact absurd hcnt (h T hT u)

theorem Mesh.coplanar_scale {O D : V3 ℝ} {T : Tri ℝ} {u : ℝ} (hu : u ≠ 0) :
    Geo.Coplanar O (D.mulS u) T ↔ Geo.Coplanar O D T := by
  unfold Geo.Coplanar
  have : (Geo.normal T).dot (D.mulS u) = (Geo.normal T).dot D * u := by
    simp only [V3.dot, V3.mulS_x, V3.mulS_y, V3.mulS_z]; ring
  rw [this, mul_eq_zero]
  simp [hu]

/-- **C163** (partial) A visible point of the mesh that nothing hides is recovered from its picture. -/
theorem C163_recover_partial (c : Cam) (hc : c.Proper) (mesh : List (Tri ℝ)) (S : V3 ℝ)
    (hS : Geo.OnMesh mesh S) (hv : Visible c S) (hide : Bool) (hex : ExactFor c S hide)
    (hf : Geo.FaceOn c.orient.pos (S - c.orient.pos) mesh)
    (hfront : ∀ T ∈ mesh, ∀ t, Geo.Hit c.orient.pos (S - c.orient.pos) T t → 1 ≤ t) (k : Constraint)
    (hk : k.mesh = some (mesh.map Tri.num)) :
    ∃ P : V3 Num, spaceFromImage c (imageFromSpace c S.num hide) k = .ok P ∧ P.Is S := by
  obtain ⟨q, h1, -⟩ := space_of_image c hc (V3.is_num S) hv hide
  obtain ⟨u, hu, e⟩ := Mesh.shows_ray c hc hv h1
  have hq : (c.lens.imageFromDistorted (imageFromSpace c S.num hide)).Is q := hex q h1 _ h1
  have hD : S - c.orient.pos = (dirR c q).mulS u := by
    rw [e]; ext <;> simp [Geo.at'] <;> ring
  have hat : ∀ t, Geo.at' c.orient.pos (dirR c q) (u * t) = Geo.at' c.orient.pos (S - c.orient.pos) t := by
    intro t; rw [hD]; ext <;> simp [Geo.at'] <;> ring
  have hf' : Geo.FaceOn c.orient.pos (dirR c q) mesh := by
    intro T hT
    obtain ⟨a, b⟩ := hf T hT
    rw [hD, Mesh.coplanar_scale hu.ne'] at b
    exact ⟨a, b⟩
  obtain ⟨T, hT, hin⟩ := hS
  have hhit : Geo.Hit c.orient.pos (dirR c q) T u := ⟨hu.le, e ▸ hin⟩
  have hcnt := (Mesh.faceOn_counts hf' hT u).2 hhit
  rcases C163_exact c hc _ q hq mesh k hk with ⟨h, -⟩ | ⟨r, P, ⟨T1, hT1, a1⟩, a2, a3, a4⟩ | ⟨-, h, -⟩
  · rw [h] at hT; simp at hT
  · refine ⟨P, a3, a4.congr ?_⟩
    have le1 := a2 T hT u hcnt
    have a1' := (Mesh.faceOn_counts hf' hT1 r).1 a1
    have er : u * (r / u) = r := by field_simp
    have le2 : 1 ≤ r / u := by
      refine hfront T1 hT1 _ ⟨div_nonneg a1'.1 hu.le, ?_⟩
      rw [← hat, er]
      exact a1'.2
    rw [le_div_iff₀ hu, one_mul] at le2
    rw [le_antisymm le1 le2, ← e]
  · exact absurd hcnt (h T hT u)

/-- **C163** is violated: one triangle without area makes every pixel show the position of the camera; and a triangle seen
edge-on is not seen at all. -/
theorem C163_violated (c : Cam) (hc : c.Proper) (n : V2 Num) (q : V2 ℝ) (hq : (c.lens.imageFromDistorted n).Is q)
    (mesh : List (Tri ℝ)) (k : Constraint) (hk : k.mesh = some (mesh.map Tri.num)) :
    ((∃ T ∈ mesh, Geo.Degenerate T) → ∃ P : V3 Num, spaceFromImage c n k = .ok P ∧ P.Is c.orient.pos) ∧
    ((∀ T ∈ mesh, ¬ Geo.Degenerate T ∧ Geo.Coplanar c.orient.pos (dirR c q) T ∧ ¬ Geo.InTri T c.orient.pos) →
      mesh ≠ [] → ∃ P : V3 Num, spaceFromImage c n k = .ok P ∧ ¬ P.x.Finite ∧ ¬ P.y.Finite ∧ ¬ P.z.Finite) := by
  have h0 : Geo.at' c.orient.pos (dirR c q) 0 = c.orient.pos := by ext <;> simp [Geo.at']
  rcases C163_exact c hc n q hq mesh k hk with ⟨h, -⟩ | ⟨r, P, ⟨T1, hT1, a1⟩, a2, a3, a4⟩ | ⟨hne, h, P, a1, a2, a3, a4, -⟩
  · refine ⟨?_, fun _ h' => absurd h h'⟩
    rintro ⟨T, hT, -⟩
    rw [h] at hT; simp at hT
  · constructor
    · rintro ⟨T, hT, hd⟩
      refine ⟨P, a3, ?_⟩
      have := a2 T hT 0 (.inl ⟨hd, rfl⟩)
      rw [le_antisymm this (Mesh.counts_nonneg a1), h0] at a4
      exact a4
    · intro hall _
      obtain ⟨b1, b2, b3⟩ := hall T1 hT1
      rcases a1 with ⟨b, -⟩ | ⟨-, b, b'⟩
      · exact absurd b b1
      · rw [b' b2] at b
        exact absurd (h0 ▸ b.2) b3
  · refine ⟨?_, fun _ _ => ⟨P, a1, a2, a3, a4⟩⟩
    rintro ⟨T, hT, hd⟩
    exact absurd (Or.inl ⟨hd, rfl⟩) (h T hT 0)

/-- A camera 10 above the floor, looking down; a triangle of the floor and one below it. -/
def Mesh.floor : Tri ℝ := ⟨⟨-10, -10, 0⟩, ⟨20, -10, 0⟩, ⟨-10, 20, 0⟩⟩
def Mesh.cellar : Tri ℝ := ⟨⟨-10, -10, -5⟩, ⟨20, -10, -5⟩, ⟨-10, 20, -5⟩⟩

theorem Mesh.example_faceOn (d : V3 ℝ) (hd : d.z ≠ 0) : Geo.FaceOn ⟨0, 0, 10⟩ d [Mesh.floor, Mesh.cellar] := by
  intro T hT
  have hT' : Geo.normal T = ⟨0, 0, 900⟩ := by
    rcases List.mem_pair.1 hT with rfl | rfl <;> ext <;>
      simp [Geo.normal, V3.cross, Mesh.floor, Mesh.cellar] <;> norm_num
  constructor
  · intro h
    rw [Geo.Degenerate, hT'] at h
    simpa using congrArg V3.z h
  · rintro ⟨h, -⟩
    rw [hT'] at h
    simp [V3.dot, hd] at h

theorem Mesh.example_pos : exampleCam.orient.pos = ⟨0, 0, 10⟩ := rfl

/-- The point (1, 2, 0) of the floor is recovered from its picture; the cellar below does not matter. -/
example : ∃ P : V3 Num, spaceFromImage exampleCam (imageFromSpace exampleCam (V3.num ⟨1, 2, 0⟩))
    { mesh := some ([Mesh.floor, Mesh.cellar].map Tri.num) } = .ok P ∧ P.Is ⟨1, 2, 0⟩ := by
  refine C163_recover_partial exampleCam exampleCam_proper [Mesh.floor, Mesh.cellar] ⟨1, 2, 0⟩ ⟨Mesh.floor, by simp, 11 / 30, 12 / 30, ?_⟩
    (exampleCam_visible _ (by norm_num)) true (fun p _ n hn => hn) ?_ ?_
    { mesh := some ([Mesh.floor, Mesh.cellar].map Tri.num) } rfl
  · norm_num [Mesh.floor]
  · rw [Mesh.example_pos]
    exact Mesh.example_faceOn _ (by norm_num)
  · rintro T hT t ⟨-, s, v, -, -, -, -, -, h⟩
    rw [Mesh.example_pos] at h
    rcases List.mem_pair.1 hT with rfl | rfl <;> simp [Geo.at', Mesh.floor, Mesh.cellar] at h <;> linarith

/-- The hypotheses of the first claim are met by the same picture. -/
example : ∃ (P : V3 Num) (Q : V3 ℝ), spaceFromImage exampleCam (V2.num ⟨50, 25⟩)
      { mesh := some ([Mesh.cellar, Mesh.floor].map Tri.num) } = .ok P ∧ P.Is Q ∧ Geo.OnMesh [Mesh.cellar, Mesh.floor] Q := by
  have hdir : dirR exampleCam ⟨50, 25⟩ = ⟨0, 0, -1⟩ := by
    have hw : Spatial.wrap360 0 = 0 := by simp [Spatial.wrap360]
    have hr : Spatial.rad 0 = 0 := by simp [Spatial.rad]
    ext <;> simp [dirR, exampleCam, Orient.mat, Spatial.initCameraMatrix, Spatial.matrices, hw, hr, Projection.rayR,
      M3.applyR, V3.dot, Spatial.rotation, M3.mul, M3.rowMul, M3.T, Spatial.R_roll, Spatial.R_tilt, Spatial.R_head]
  have hq : (exampleCam.lens.imageFromDistorted (V2.num ⟨50, 25⟩)).Is ⟨50, 25⟩ := V2.is_num _
  rcases C163_exact exampleCam exampleCam_proper _ _ hq [Mesh.cellar, Mesh.floor] { mesh := some _ } rfl with
    ⟨h, -⟩ | ⟨r, P, ⟨T, hT, h1⟩, -, h3, h4⟩ | ⟨-, h, -⟩
  · simp at h
  · rw [hdir, Mesh.example_pos] at h1 h4
    have hf : Geo.FaceOn ⟨0, 0, 10⟩ ⟨0, 0, -1⟩ [Mesh.cellar, Mesh.floor] :=
      fun T hT => Mesh.example_faceOn ⟨0, 0, -1⟩ (by norm_num) T (by simp at hT ⊢; tauto)
    exact ⟨P, _, h3, h4, T, hT, ((Mesh.faceOn_counts hf hT r).1 h1).2⟩
  · exfalso
    rw [hdir, Mesh.example_pos] at h
    have hf : Geo.FaceOn ⟨0, 0, 10⟩ ⟨0, 0, -1⟩ [Mesh.cellar, Mesh.floor] :=
      fun T hT => Mesh.example_faceOn ⟨0, 0, -1⟩ (by norm_num) T (by simp at hT ⊢; tauto)
    refine h Mesh.floor (by simp) 10 ((Mesh.faceOn_counts hf (by simp) 10).2 ⟨by norm_num, 1 / 3, 1 / 3, ?_⟩)
    norm_num [Geo.at', Mesh.floor]

/-- A wall below the camera, in whose plane the ray of the principal point lies: the ray does hit it. -/
example : ∃ T : Tri ℝ, ¬ Geo.Degenerate T ∧ Geo.Coplanar ⟨0, 0, 10⟩ ⟨0, 0, -1⟩ T ∧ ¬ Geo.InTri T ⟨0, 0, 10⟩ ∧
    Geo.Hit ⟨0, 0, 10⟩ ⟨0, 0, -1⟩ T 10 := by
  refine ⟨⟨⟨-1, 0, 0⟩, ⟨1, 0, 0⟩, ⟨0, 0, 5⟩⟩, ?_, ?_, ?_, by norm_num, 1 / 2, 0, ?_⟩
  · intro h
    have := congrArg V3.y h
    norm_num [Geo.normal, V3.cross] at this
  · constructor <;> norm_num [Geo.normal, V3.cross, V3.dot]
  · rintro ⟨s, t, hs, ht, hst, -, -, h⟩
    norm_num at h
    linarith
  · norm_num [Geo.at']
