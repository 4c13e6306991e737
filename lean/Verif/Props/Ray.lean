import Verif.Proofs.Ray
import Verif.Proofs.Camera
import Verif.Props.Projection

/-! # Properties of `ray.py` (C24-C33, C36, C83) -/

open Classical Num Ray

/-! ### areas -/

/-- **C24** `areaOfQuadrilateral` is half the absolute value of the shoelace formula. -/
theorem C24_quadrilateral_area (A B C D : V2 ℝ) :
    Num.Is (areaOfQuadrilateral A.num B.num C.num D.num) (|Geo.shoelace A B C D| / 2) := by
  have h := (is_fin (1 / 2)).mul ((((is_fin A.y).sub (is_fin C.y)).mul ((is_fin D.x).sub (is_fin B.x))).add
    (((is_fin B.y).sub (is_fin D.y)).mul ((is_fin A.x).sub (is_fin C.x)))).abs
  refine h.congr ?_
  have : (A.y - C.y) * (D.x - B.x) + (B.y - D.y) * (A.x - C.x) = Geo.shoelace A B C D := by
    unfold Geo.shoelace; ring
  rw [this]; ring

/-- **C24** The value is the sum of the areas of the two triangles cut off by a diagonal that lies inside
(both triangles have the same orientation). -/
theorem C24_sum_of_triangles (A B C D : V2 ℝ)
    (h : (0 ≤ Geo.area2 A B C ∧ 0 ≤ Geo.area2 A C D) ∨ (Geo.area2 A B C ≤ 0 ∧ Geo.area2 A C D ≤ 0)) :
    Num.Is (areaOfQuadrilateral A.num B.num C.num D.num) (|Geo.area2 A B C| / 2 + |Geo.area2 A C D| / 2) := by
  refine (C24_quadrilateral_area A B C D).congr ?_
  have e : Geo.shoelace A B C D = Geo.area2 A B C + Geo.area2 A C D := by
    unfold Geo.shoelace Geo.area2; ring
  rw [e]
  rcases h with ⟨h1, h2⟩ | ⟨h1, h2⟩
  · rw [abs_of_nonneg h1, abs_of_nonneg h2, abs_of_nonneg (by linarith)]; ring
  · rw [abs_of_nonpos h1, abs_of_nonpos h2, abs_of_nonpos (by linarith)]; ring

/-- Rotation of the plane by `a`, then translation by `(u, v)`. -/
noncomputable def Geo.move (a u v : ℝ) (P : V2 ℝ) : V2 ℝ :=
  ⟨Real.cos a * P.x - Real.sin a * P.y + u, Real.sin a * P.x + Real.cos a * P.y + v⟩

/-- **C24** Invariance under rotation, translation, reversal and cyclic renumbering. -/
theorem C24_invariance (A B C D : V2 ℝ) (a u v : ℝ) :
    ∃ S : ℝ, Num.Is (areaOfQuadrilateral A.num B.num C.num D.num) S ∧
      Num.Is (areaOfQuadrilateral (Geo.move a u v A).num (Geo.move a u v B).num (Geo.move a u v C).num
        (Geo.move a u v D).num) S ∧
      Num.Is (areaOfQuadrilateral D.num C.num B.num A.num) S ∧
      Num.Is (areaOfQuadrilateral B.num C.num D.num A.num) S := by
  refine ⟨_, C24_quadrilateral_area A B C D, (C24_quadrilateral_area _ _ _ _).congr ?_,
    (C24_quadrilateral_area _ _ _ _).congr ?_, (C24_quadrilateral_area _ _ _ _).congr ?_⟩
  · congr 2
    have := Real.sin_sq_add_cos_sq a
    simp only [Geo.shoelace, Geo.move]
    linear_combination (A.x * B.y - B.x * A.y + B.x * C.y - C.x * B.y + C.x * D.y - D.x * C.y + D.x * A.y - A.x * D.y) * this
  · rw [← abs_neg]; congr 2; simp only [Geo.shoelace]; ring
  · congr 2; simp only [Geo.shoelace]; ring

example : Num.Is (areaOfQuadrilateral (V2.num ⟨0, 0⟩) (V2.num ⟨2, 0⟩) (V2.num ⟨2, 3⟩) (V2.num ⟨0, 3⟩)) 6 :=
  (C24_sum_of_triangles _ _ _ _ (Or.inl (by norm_num [Geo.area2]))).congr (by norm_num [Geo.area2])

theorem Ray.heron (A B C : V3 ℝ) :
    let a := (A - B).norm
    let b := (B - C).norm
    let c := (C - A).norm
    let s := (a + b + c) / 2
    s * (s - a) * (s - b) * (s - c) = (V3.cross (B - A) (C - A)).normSq / 4 := by
  intro a b c s
  have ha : a ^ 2 = (A - B).normSq := V3.norm_sq _
  have hb : b ^ 2 = (B - C).normSq := V3.norm_sq _
  have hc : c ^ 2 = (C - A).normSq := V3.norm_sq _
  have e1 : s * (s - a) * (s - b) * (s - c) =
      (2 * a ^ 2 * b ^ 2 + 2 * b ^ 2 * c ^ 2 + 2 * c ^ 2 * a ^ 2 - (a ^ 2) ^ 2 - (b ^ 2) ^ 2 - (c ^ 2) ^ 2) / 16 := by
    simp only [s]; ring
  rw [e1, ha, hb, hc]
  simp only [V3.normSq, V3.cross, V3.sub_x, V3.sub_y, V3.sub_z]
  ring

/-- **C25** `areaOfTriangle` is half the length of the cross product of two edges; it is never nan. -/
theorem C25_triangle_area (T : Tri ℝ) :
    Num.Is (areaOfTriangle T.num) (Geo.triArea T) := by
  have h1 := ((V3.is_num T.a).sub (V3.is_num T.b)).normN
  have h2 := ((V3.is_num T.b).sub (V3.is_num T.c)).normN
  have h3 := ((V3.is_num T.c).sub (V3.is_num T.a)).normN
  have hs := ((h1.add h2).add h3).div (is_fin 2) two_ne_zero
  have hp := ((hs.mul (hs.sub h1)).mul (hs.sub h2)).mul (hs.sub h3)
  have he := Ray.heron T.a T.b T.c
  simp only at he
  rw [he] at hp
  have hq := hp.sqrt (by have := V3.normSq_nonneg (V3.cross (T.b - T.a) (T.c - T.a)); positivity)
  refine hq.congr ?_
  unfold Geo.triArea Geo.normal V3.norm
  rw [Real.sqrt_div (V3.normSq_nonneg _), show (4:ℝ) = 2 ^ 2 by norm_num, Real.sqrt_sq (by norm_num)]

/-- **C25** The area is zero exactly if the corners are collinear. -/
theorem C25_zero_iff_collinear (T : Tri ℝ) :
    Num.Is (areaOfTriangle T.num) 0 ↔
      (T.b = T.a ∧ T.c = T.a) ∨ ∃ d : V3 ℝ, d ≠ ⟨0, 0, 0⟩ ∧ Geo.OnLine T.a d T.b ∧ Geo.OnLine T.a d T.c := by
  have h := C25_triangle_area T
  have h0 : Num.Is (areaOfTriangle T.num) 0 ↔ Geo.normal T = ⟨0, 0, 0⟩ := by
    constructor
    · intro hh
      have := hh.unique h
      unfold Geo.triArea at this
      exact V3.norm_eq_zero.1 (by linarith)
    · intro hh
      refine h.congr ?_
      unfold Geo.triArea
      rw [V3.norm_eq_zero.2 hh]; simp
  rw [h0]
  constructor
  · intro hn
    by_cases hb : T.b - T.a = ⟨0, 0, 0⟩
    · by_cases hc : T.c - T.a = ⟨0, 0, 0⟩
      · left
        constructor
        · ext
          · have := congrArg V3.x hb; simp at this; linarith
          · have := congrArg V3.y hb; simp at this; linarith
          · have := congrArg V3.z hb; simp at this; linarith
        · ext
          · have := congrArg V3.x hc; simp at this; linarith
          · have := congrArg V3.y hc; simp at this; linarith
          · have := congrArg V3.z hc; simp at this; linarith
      · right
        refine ⟨_, hc, ⟨0, ?_, ?_, ?_⟩, ⟨1, ?_, ?_, ?_⟩⟩
        · have := congrArg V3.x hb; simp at this ⊢; linarith
        · have := congrArg V3.y hb; simp at this ⊢; linarith
        · have := congrArg V3.z hb; simp at this ⊢; linarith
        all_goals simp
    · right
      have hp := V3.normSq_pos hb
      refine ⟨_, hb, ⟨1, ?_, ?_, ?_⟩, ⟨(T.c - T.a).dot (T.b - T.a) / (T.b - T.a).normSq, ?_, ?_, ?_⟩⟩
      · simp
      · simp
      · simp
      all_goals
        set u := T.b - T.a with hu
        set v := T.c - T.a with hv
        have hx : u.y * v.z - u.z * v.y = 0 := congrArg V3.x hn
        have hy : u.z * v.x - u.x * v.z = 0 := congrArg V3.y hn
        have hz : u.x * v.y - u.y * v.x = 0 := congrArg V3.z hn
      · have e : T.c.x = T.a.x + v.x := by simp [hv]
        rw [e]; field_simp
        simp only [V3.dot, V3.normSq]; linear_combination u.y * (-hz) + u.z * hy
      · have e : T.c.y = T.a.y + v.y := by simp [hv]
        rw [e]; field_simp
        simp only [V3.dot, V3.normSq]; linear_combination u.x * hz - u.z * hx
      · have e : T.c.z = T.a.z + v.z := by simp [hv]
        rw [e]; field_simp
        simp only [V3.dot, V3.normSq]; linear_combination u.y * hx - u.x * hy
  · rintro (⟨h1, h2⟩ | ⟨d, -, ⟨s, h1, h2, h3⟩, ⟨t, h4, h5, h6⟩⟩)
    · unfold Geo.normal; rw [h1, h2]; ext <;> simp [V3.cross]
    · unfold Geo.normal
      ext <;> simp [V3.cross, h1, h2, h3, h4, h5, h6] <;> ring

/-! ### meshes -/

/-- **C26** The nearest hit is returned: for every mesh of non-degenerate triangles that do not contain the
ray in their plane, and every ray that hits the mesh. -/
theorem C26_nearest_hit (O D : V3 ℝ) (mesh : List (Tri ℝ)) (hn : ∀ T ∈ mesh, ¬ Geo.Degenerate T)
    (hc : ∀ T ∈ mesh, ¬ Geo.Coplanar O D T) (hhit : ∃ T ∈ mesh, ∃ r, Geo.Hit O D T r) :
    ∃ (r : ℝ) (P : V3 Num), (∃ T ∈ mesh, Geo.Hit O D T r) ∧ (∀ T ∈ mesh, ∀ r', Geo.Hit O D T r' → r ≤ r') ∧
      rayIntersectTriangle O.num D.num (mesh.map Tri.num) = some P ∧ P.Is (Geo.at' O D r) := by
  obtain ⟨T0, hT0, r0, hr0⟩ := hhit
  obtain ⟨Tn, hTn, e, hmin⟩ := rayIntersect_spec O.num D.num (mesh.map Tri.num)
    (by intro h; rw [List.map_eq_nil_iff] at h; rw [h] at hT0; simp at hT0)
  obtain ⟨T, hT, rfl⟩ := List.mem_map.1 hTn
  have entry : ∀ S ∈ mesh, ∀ r, Geo.Hit O D S r → Num.Is (nanToInf (hitParam O.num D.num S.num)) r := by
    intro S hS r hr
    rcases hitParam_spec (V3.is_num O) (V3.is_num D) (hn S hS) (hc S hS) with ⟨r', h1, h2⟩ | ⟨h1, -⟩
    · have : r = r' := (hit_param (hc S hS) hr).2.trans (hit_param (hc S hS) h1).2.symm
      rw [this]
      unfold nanToInf; rw [if_neg h2.ne_nan]; exact h2
    · exact absurd hr (h1 r)
  have hle : ∀ S ∈ mesh, ∀ r, Geo.Hit O D S r → ext (nanToInf (hitParam O.num D.num T.num)) ≤ (r : EReal) := by
    intro S hS r hr
    have h1 := hmin S.num (List.mem_map_of_mem hS)
    rwa [(entry S hS r hr).ext_eq] at h1
  rcases hitParam_spec (V3.is_num O) (V3.is_num D) (hn T hT) (hc T hT) with ⟨r, h1, h2⟩ | ⟨-, h2⟩
  · have h3 : Num.Is (nanToInf (hitParam O.num D.num T.num)) r := by
      unfold nanToInf; rw [if_neg h2.ne_nan]; exact h2
    refine ⟨r, _, ⟨T, hT, h1⟩, ?_, e, ?_⟩
    · intro S hS r' hr'
      have := hle S hS r' hr'
      rw [h3.ext_eq] at this
      exact_mod_cast this
    · refine ((V3.is_num O).add ((V3.is_num D).mulS h3)).congr ?_
      ext <;> simp [Geo.at'] <;> ring
  · exfalso
    have := hle T0 hT0 r0 hr0
    rw [h2] at this
    simp [nanToInf, Num.ext] at this

example : ∃ (T : Tri ℝ), ¬ Geo.Degenerate T ∧ ¬ Geo.Coplanar ⟨0, 0, 5⟩ ⟨0, 0, -1⟩ T ∧
    Geo.Hit ⟨0, 0, 5⟩ ⟨0, 0, -1⟩ T 5 := by
  refine ⟨⟨⟨-1, -1, 0⟩, ⟨2, -1, 0⟩, ⟨-1, 2, 0⟩⟩, ?_, ?_, by norm_num, 1 / 3, 1 / 3, ?_⟩
  · intro h
    have := congrArg V3.z h
    simp [Geo.normal, V3.cross] at this
    norm_num at this
  · rintro ⟨h, -⟩
    simp [Geo.normal, V3.cross, V3.dot] at h
    norm_num at h
  · norm_num [Geo.at']

theorem Ray.miss_result (O D : V3 ℝ) (mesh : List (Tri ℝ)) (hne : mesh ≠ []) (hn : ∀ T ∈ mesh, ¬ Geo.Degenerate T)
    (hc : ∀ T ∈ mesh, ¬ Geo.Coplanar O D T) (hmiss : ∀ T ∈ mesh, ∀ r, ¬ Geo.Hit O D T r) :
    rayIntersectTriangle O.num D.num (mesh.map Tri.num) = some (O.num + D.num.mulS pinf) := by
  obtain ⟨Tn, hTn, e, -⟩ := rayIntersect_spec O.num D.num (mesh.map Tri.num)
    (by intro h; rw [List.map_eq_nil_iff] at h; exact hne h)
  obtain ⟨T, hT, rfl⟩ := List.mem_map.1 hTn
  rcases hitParam_spec (V3.is_num O) (V3.is_num D) (hn T hT) (hc T hT) with ⟨r, h1, -⟩ | ⟨-, h2⟩
  · exact absurd h1 (hmiss T hT r)
  · rw [e, h2]; simp [nanToInf]

theorem Ray.inf_coord (o d : ℝ) : ¬ (fin o + fin d * pinf).Finite ∧
    (fin o + fin d * pinf = nan ↔ d = 0) := by
  have hI : IsInf pinf := trivial
  by_cases h : d = 0
  · have : fin d * pinf = nan := Camera.inf_mul_zero hI (by rw [h]; exact is_fin 0)
    rw [this]; simp [h, not_finite_nan]
  · have h1 := Camera.inf_mul_nonzero hI (is_fin d) h
    have h2 : IsInf (fin o + fin d * pinf) := by
      show IsInf (Num.add (fin o) (fin d * pinf))
      cases hx : fin d * pinf <;> rw [hx] at h1 <;> simp_all [IsInf, Num.add]
    refine ⟨Camera.not_finite_of_inf h2, ?_⟩
    simp only [h, iff_false]
    intro h3; rw [h3] at h2; exact h2

/-- **C27** (partial) A miss is recognisable: no coordinate of the result is finite. -/
theorem C27_miss_not_finite_partial (O D : V3 ℝ) (mesh : List (Tri ℝ)) (hne : mesh ≠ [])
    (hn : ∀ T ∈ mesh, ¬ Geo.Degenerate T) (hc : ∀ T ∈ mesh, ¬ Geo.Coplanar O D T)
    (hmiss : ∀ T ∈ mesh, ∀ r, ¬ Geo.Hit O D T r) :
    ∃ P : V3 Num, rayIntersectTriangle O.num D.num (mesh.map Tri.num) = some P ∧
      ¬ P.x.Finite ∧ ¬ P.y.Finite ∧ ¬ P.z.Finite :=
  ⟨_, Ray.miss_result O D mesh hne hn hc hmiss, (Ray.inf_coord O.x D.x).1, (Ray.inf_coord O.y D.y).1,
    (Ray.inf_coord O.z D.z).1⟩

/-- **C27** is violated: a coordinate of a missed point is nan only if the same coordinate of the direction
is zero; otherwise it is infinite. -/
theorem C27_violated (O D : V3 ℝ) (mesh : List (Tri ℝ)) (hne : mesh ≠ [])
    (hn : ∀ T ∈ mesh, ¬ Geo.Degenerate T) (hc : ∀ T ∈ mesh, ¬ Geo.Coplanar O D T)
    (hmiss : ∀ T ∈ mesh, ∀ r, ¬ Geo.Hit O D T r) :
    ∃ P : V3 Num, rayIntersectTriangle O.num D.num (mesh.map Tri.num) = some P ∧
      (P.x = nan ↔ D.x = 0) ∧ (P.y = nan ↔ D.y = 0) ∧ (P.z = nan ↔ D.z = 0) :=
  ⟨_, Ray.miss_result O D mesh hne hn hc hmiss, (Ray.inf_coord O.x D.x).2, (Ray.inf_coord O.y D.y).2,
    (Ray.inf_coord O.z D.z).2⟩

example : ∃ T : Tri ℝ, ¬ Geo.Degenerate T ∧ ¬ Geo.Coplanar ⟨0, 0, 5⟩ ⟨1, 1, 1⟩ T ∧
    ∀ r, ¬ Geo.Hit ⟨0, 0, 5⟩ ⟨1, 1, 1⟩ T r := by
  refine ⟨⟨⟨-1, -1, 0⟩, ⟨2, -1, 0⟩, ⟨-1, 2, 0⟩⟩, ?_, ?_, ?_⟩
  · intro h
    have := congrArg V3.z h
    simp [Geo.normal, V3.cross] at this
    norm_num at this
  · rintro ⟨h, -⟩
    simp [Geo.normal, V3.cross, V3.dot] at h
    norm_num at h
  · rintro r ⟨h0, s, t, -, -, -, -, -, h⟩
    simp [Geo.at'] at h
    linarith

/-- **C28** is violated: as soon as a mesh contains a triangle of zero area, *every* ray is reported to hit
at its own origin, wherever that triangle is. -/
theorem C28_violated (O D : V3 ℝ) (mesh : List (Tri ℝ)) (T : Tri ℝ) (hT : T ∈ mesh) (hd : Geo.Degenerate T) :
    ∃ P : V3 Num, rayIntersectTriangle O.num D.num (mesh.map Tri.num) = some P ∧ P.Is O := by
  obtain ⟨Sn, hSn, e, hmin⟩ := rayIntersect_spec O.num D.num (mesh.map Tri.num)
    (by intro h; rw [List.map_eq_nil_iff] at h; rw [h] at hT; simp at hT)
  have h0 := hitParam_degenerate (V3.is_num O) (V3.is_num D) hd
  have h0' : Num.Is (nanToInf (hitParam O.num D.num T.num)) 0 := by
    unfold nanToInf; rw [if_neg h0.ne_nan]; exact h0
  have hle := hmin T.num (List.mem_map_of_mem hT)
  rw [h0'.ext_eq] at hle
  have hS : Num.Is (nanToInf (hitParam O.num D.num Sn)) 0 := by
    rcases hitParam_range O.num D.num Sn with h | h
    · rw [h] at hle; simp [nanToInf, Num.ext] at hle
    · by_cases hnan : hitParam O.num D.num Sn = nan
      · rw [hnan] at hle; simp [nanToInf, Num.ext] at hle
      · unfold nanToInf at hle ⊢
        rw [if_neg hnan] at hle ⊢
        rw [lt_ext hnan (by simp), not_lt] at h
        cases hx : hitParam O.num D.num Sn with
        | fin r =>
          rw [hx] at hle h
          simp only [Num.ext] at hle h
          have a1 : r ≤ 0 := by exact_mod_cast hle
          have a2 : 0 ≤ r := by exact_mod_cast h
          exact le_antisymm a1 a2
        | nzero => rfl
        | pinf => rw [hx] at hle; simp [Num.ext] at hle
        | ninf => rw [hx] at h; simp [Num.ext] at h
        | nan => exact absurd hx hnan
  refine ⟨_, e, ((V3.is_num O).add ((V3.is_num D).mulS hS)).congr ?_⟩
  ext <;> simp

/-- **C28** (partial) Triangles that are neither degenerate nor hit do not change the result of a ray that
hits. -/
theorem C28_missed_triangles_partial (O D : V3 ℝ) (mesh extra : List (Tri ℝ))
    (hn : ∀ T ∈ mesh ++ extra, ¬ Geo.Degenerate T)
    (hc : ∀ T ∈ mesh ++ extra, ¬ Geo.Coplanar O D T) (hhit : ∃ T ∈ mesh, ∃ r, Geo.Hit O D T r)
    (hmiss : ∀ T ∈ extra, ∀ r, ¬ Geo.Hit O D T r) :
    ∃ (P P' : V3 Num) (Q : V3 ℝ), rayIntersectTriangle O.num D.num (mesh.map Tri.num) = some P ∧
      rayIntersectTriangle O.num D.num ((mesh ++ extra).map Tri.num) = some P' ∧ P.Is Q ∧ P'.Is Q := by
  obtain ⟨r, P, ⟨T, hT, h1⟩, h2, h3, h4⟩ := C26_nearest_hit O D mesh
    (fun T h => hn T (List.mem_append_left _ h)) (fun T h => hc T (List.mem_append_left _ h)) hhit
  obtain ⟨T0, hT0, hr0⟩ := hhit
  obtain ⟨r', P', ⟨T', hT', h1'⟩, h2', h3', h4'⟩ := C26_nearest_hit O D (mesh ++ extra) hn hc
    ⟨T0, List.mem_append_left _ hT0, hr0⟩
  have e : r = r' := by
    apply le_antisymm
    · rcases List.mem_append.1 hT' with h | h
      · exact h2 T' h r' h1'
      · exact absurd h1' (hmiss T' h r')
    · exact h2' T (List.mem_append_left _ hT) r h1
  exact ⟨P, P', _, h3, h3', h4, e ▸ h4'⟩

example : Geo.Degenerate ⟨⟨1, 2, 3⟩, ⟨2, 3, 4⟩, ⟨3, 4, 5⟩⟩ := by
  ext <;> simp [Geo.normal, V3.cross] <;> norm_num

/-! ### lines -/

theorem Ray.dist_sq_le {A B C E : V3 ℝ} (h : (A - B).normSq ≤ (C - E).normSq) : V3.dist A B ≤ V3.dist C E :=
  V3.norm_le_iff.2 h

theorem Ray.foot_le (o d p : V3 ℝ) (t0 t : ℝ) (h : (p - Geo.at' o d t0).dot d = 0) :
    V3.dist p (Geo.at' o d t0) ≤ V3.dist p (Geo.at' o d t) := by
  apply Ray.dist_sq_le
  have e : (p - Geo.at' o d t).normSq = (p - Geo.at' o d t0).normSq +
      2 * (t0 - t) * (p - Geo.at' o d t0).dot d + (t0 - t) ^ 2 * d.normSq := by
    simp only [V3.normSq, V3.dot, V3.sub_x, V3.sub_y, V3.sub_z, Geo.at']; ring
  rw [e, h]
  have := V3.normSq_nonneg d
  nlinarith [mul_nonneg (sq_nonneg (t0 - t)) this]

/-- **C29** `distanceLinePoint` is the smallest distance of the point to the points of the line. -/
theorem C29_distance_line_point (p1 v1 p2 : V3 ℝ) (hv : v1 ≠ ⟨0, 0, 0⟩) :
    ∃ D : ℝ, Num.Is (distanceLinePoint p1.num v1.num p2.num) D ∧ Geo.IsDistPointLine p1 v1 p2 D := by
  have h := (((V3.is_num v1).cross ((V3.is_num p1).sub (V3.is_num p2))).normN).div (V3.is_num v1).normN
    (V3.norm_pos hv).ne'
  refine ⟨_, h, ?_⟩
  have hp := V3.normSq_pos hv
  have hq := V3.norm_pos hv
  set t0 := (p2 - p1).dot v1 / v1.normSq with ht0
  have horth : (p2 - Geo.at' p1 v1 t0).dot v1 = 0 := by
    have : (p2 - Geo.at' p1 v1 t0).dot v1 = (p2 - p1).dot v1 - t0 * v1.normSq := by
      simp only [V3.normSq, V3.dot, V3.sub_x, V3.sub_y, V3.sub_z, Geo.at']; ring
    rw [this, ht0]; field_simp; ring
  have hval : V3.dist p2 (Geo.at' p1 v1 t0) = (v1.cross (p1 - p2)).norm / v1.norm := by
    rw [eq_div_iff hq.ne', V3.dist]
    unfold V3.norm
    rw [← Real.sqrt_mul (V3.normSq_nonneg _)]
    congr 1
    have e : v1.cross (p1 - p2) = (p2 - Geo.at' p1 v1 t0).cross v1 := by
      ext <;> simp [V3.cross, Geo.at'] <;> ring
    rw [e, V3.lagrange, horth]; ring
  refine ⟨⟨t0, hval⟩, fun t => ?_⟩
  rw [← hval]
  exact Ray.foot_le p1 v1 p2 t0 t horth

example : ∃ D : ℝ, Num.Is (distanceLinePoint (V3.num ⟨0, 0, 0⟩) (V3.num ⟨2, 0, 0⟩) (V3.num ⟨7, 3, 4⟩)) D ∧
    Geo.IsDistPointLine ⟨0, 0, 0⟩ ⟨2, 0, 0⟩ ⟨7, 3, 4⟩ D :=
  C29_distance_line_point _ _ _ (by intro h; simpa using congrArg V3.x h)

/-- **C30** `getClosestPointFromLine` returns a point of the line, and no point of the line is closer. -/
theorem C30_closest_point (o v p : V3 ℝ) (hv : v ≠ ⟨0, 0, 0⟩) :
    ∃ Q : V3 ℝ, (getClosestPointFromLine o.num v.num p.num).2.Is Q ∧ Geo.OnLine o v Q ∧
      ∀ t, V3.dist p Q ≤ V3.dist p (Geo.at' o v t) := by
  have hq := V3.norm_pos hv
  have hp := V3.normSq_pos hv
  have hr := (V3.is_num v).divS (V3.is_num v).normN hq.ne'
  have hd := (V3.is_num p).sub (V3.is_num o)
  have h := (V3.is_num o).add (hr.mulS (hr.dot hd))
  set t0 := (p - o).dot v / v.normSq with ht0
  have e : o + (v.divS v.norm).mulS ((v.divS v.norm).dot (p - o)) = Geo.at' o v t0 := by
    have hn := V3.norm_sq v
    have key : ∀ c : ℝ, c / v.norm * ((v.divS v.norm).dot (p - o)) = t0 * c := by
      intro c
      rw [ht0, ← hn]
      simp only [V3.dot, V3.divS_x, V3.divS_y, V3.divS_z]
      field_simp
    ext <;> simp [Geo.at', key]
  refine ⟨_, h.congr e, ⟨t0, rfl, rfl, rfl⟩, fun t => Ray.foot_le o v p t0 t ?_⟩
  have : (p - Geo.at' o v t0).dot v = (p - o).dot v - t0 * v.normSq := by
    simp only [V3.normSq, V3.dot, V3.sub_x, V3.sub_y, V3.sub_z, Geo.at']; ring
  rw [this, ht0]; field_simp; ring

example : ∃ Q : V3 ℝ, (getClosestPointFromLine (V3.num ⟨0, 0, 0⟩) (V3.num ⟨2, 0, 0⟩) (V3.num ⟨7, 3, 4⟩)).2.Is Q ∧
    Geo.OnLine ⟨0, 0, 0⟩ ⟨2, 0, 0⟩ Q := by
  obtain ⟨Q, h1, h2, -⟩ := C30_closest_point ⟨0, 0, 0⟩ ⟨2, 0, 0⟩ ⟨7, 3, 4⟩ (by intro h; simpa using congrArg V3.x h)
  exact ⟨Q, h1, h2⟩

/-- Two points, one on each line, whose connection is orthogonal to both lines, have minimal distance. -/
theorem Ray.feet_le (p1 v1 p2 v2 : V3 ℝ) (s t s' t' : ℝ)
    (h1 : (Geo.at' p1 v1 s - Geo.at' p2 v2 t).dot v1 = 0) (h2 : (Geo.at' p1 v1 s - Geo.at' p2 v2 t).dot v2 = 0) :
    V3.dist (Geo.at' p1 v1 s) (Geo.at' p2 v2 t) ≤ V3.dist (Geo.at' p1 v1 s') (Geo.at' p2 v2 t') := by
  apply Ray.dist_sq_le
  have e : (Geo.at' p1 v1 s' - Geo.at' p2 v2 t').normSq = (Geo.at' p1 v1 s - Geo.at' p2 v2 t).normSq +
      2 * (s' - s) * (Geo.at' p1 v1 s - Geo.at' p2 v2 t).dot v1 -
      2 * (t' - t) * (Geo.at' p1 v1 s - Geo.at' p2 v2 t).dot v2 +
      (v1.mulS (s' - s) - v2.mulS (t' - t)).normSq := by
    simp only [V3.normSq, V3.dot, V3.sub_x, V3.sub_y, V3.sub_z, V3.mulS_x, V3.mulS_y, V3.mulS_z, Geo.at']; ring
  rw [e, h1, h2]
  have := V3.normSq_nonneg (v1.mulS (s' - s) - v2.mulS (t' - t))
  linarith

theorem Ray.solveLines_spec {p1 v1 p2 v2 : V3 Num} {P1 V1 P2 V2 : V3 ℝ} (hp1 : p1.Is P1) (hv1 : v1.Is V1)
    (hp2 : p2.Is P2) (hv2 : v2.Is V2) :
    (V1.cross V2 = ⟨0, 0, 0⟩ → solveLines p1 v1 p2 v2 = none) ∧
    (V1.cross V2 ≠ ⟨0, 0, 0⟩ → ∃ (a b : Num) (s t : ℝ), solveLines p1 v1 p2 v2 = some (a, b) ∧ Num.Is a s ∧
      Num.Is b t ∧ (Geo.at' P1 V1 s - Geo.at' P2 V2 t).dot V1 = 0 ∧
      (Geo.at' P1 V1 s - Geo.at' P2 V2 t).dot V2 = 0) := by
  have a1 := hv1.dot hv1
  have a2 := hv1.dot hv2
  have b1 := (hv2.dot hv1).neg
  have b2 := (hv2.dot hv2).neg
  have c1 := (hv1.dot (hp1.sub hp2)).neg
  have c2 := (hv2.dot (hp1.sub hp2)).neg
  have det := (a1.mul b2).sub (b1.mul a2)
  have edet : V1.dot V1 * -(V2.dot V2) - -(V2.dot V1) * V1.dot V2 = -(V1.cross V2).normSq := by
    rw [V3.lagrange]; simp only [V3.dot, V3.normSq]; ring
  rw [edet] at det
  constructor
  · intro h
    unfold solveLines solve2
    simp only
    rw [if_pos]
    rw [det.eqv_iff (is_fin 0), h]; simp [V3.normSq]
  · intro h
    have hpos := V3.normSq_pos h
    have hne : -(V1.cross V2).normSq ≠ 0 := by linarith
    have hs := ((c1.mul b2).sub (b1.mul c2)).div det hne
    have ht := ((a1.mul c2).sub (c1.mul a2)).div det hne
    refine ⟨_, _, _, _, ?_, hs, ht, ?_, ?_⟩
    · unfold solveLines solve2
      simp only
      rw [if_neg]
      rw [det.eqv_iff (is_fin 0)]; exact hne
    · set s := (-(V1.dot (P1 - P2)) * -(V2.dot V2) - -(V2.dot V1) * -(V2.dot (P1 - P2))) / -(V1.cross V2).normSq with hs'
      set t := (V1.dot V1 * -(V2.dot (P1 - P2)) - -(V1.dot (P1 - P2)) * V1.dot V2) / -(V1.cross V2).normSq with ht'
      have e : (Geo.at' P1 V1 s - Geo.at' P2 V2 t).dot V1 =
          V1.dot (P1 - P2) + s * V1.dot V1 - t * V1.dot V2 := by
        simp only [V3.dot, V3.sub_x, V3.sub_y, V3.sub_z, Geo.at']; ring
      have hcomm : V2.dot V1 = V1.dot V2 := by simp only [V3.dot]; ring
      have hl := V3.lagrange V1 V2
      rw [← V3.dot_self V1, ← V3.dot_self V2] at hl
      rw [e, hs', ht', hcomm]
      have hne2 := hpos.ne'
      generalize (V1.cross V2).normSq = d at hl hne2
      rw [div_neg, div_neg]
      field_simp
      linear_combination V1.dot (P1 - P2) * hl
    · set s := (-(V1.dot (P1 - P2)) * -(V2.dot V2) - -(V2.dot V1) * -(V2.dot (P1 - P2))) / -(V1.cross V2).normSq with hs'
      set t := (V1.dot V1 * -(V2.dot (P1 - P2)) - -(V1.dot (P1 - P2)) * V1.dot V2) / -(V1.cross V2).normSq with ht'
      have e : (Geo.at' P1 V1 s - Geo.at' P2 V2 t).dot V2 =
          V2.dot (P1 - P2) + s * V1.dot V2 - t * V2.dot V2 := by
        simp only [V3.dot, V3.sub_x, V3.sub_y, V3.sub_z, Geo.at']; ring
      have hcomm : V2.dot V1 = V1.dot V2 := by simp only [V3.dot]; ring
      have hl := V3.lagrange V1 V2
      rw [← V3.dot_self V1, ← V3.dot_self V2] at hl
      rw [e, hs', ht', hcomm]
      have hne2 := hpos.ne'
      generalize (V1.cross V2).normSq = d at hl hne2
      rw [div_neg, div_neg]
      field_simp
      linear_combination V2.dot (P1 - P2) * hl

/-- General form of **C31**, for points and directions that may have negative zeros. -/
theorem Ray.intersection_spec {p1 v1 p2 v2 : V3 Num} {P1 V1 P2 V2 : V3 ℝ} (hp1 : p1.Is P1) (hv1 : v1.Is V1)
    (hp2 : p2.Is P2) (hv2 : v2.Is V2) (h : V1.cross V2 ≠ ⟨0, 0, 0⟩) :
    ∃ s t : ℝ, (∀ s' t', V3.dist (Geo.at' P1 V1 s) (Geo.at' P2 V2 t) ≤ V3.dist (Geo.at' P1 V1 s') (Geo.at' P2 V2 t')) ∧
      (intersectionSingle p1 v1 p2 v2).Is ((Geo.at' P1 V1 s + Geo.at' P2 V2 t).divS 2) ∧
      ∀ s0 t0, Geo.at' P1 V1 s0 = Geo.at' P2 V2 t0 → s = s0 ∧ t = t0 := by
  obtain ⟨a, b, s, t, h1, ha, hb, o1, o2⟩ := (Ray.solveLines_spec hp1 hv1 hp2 hv2).2 h
  have hmin := fun s' t' => Ray.feet_le P1 V1 P2 V2 s t s' t' o1 o2
  refine ⟨s, t, hmin, ?_, ?_⟩
  · unfold intersectionSingle
    rw [h1]
    have := ((hp1.add (hv1.mulS ha)).add (hp2.add (hv2.mulS hb))).divS (is_fin 2) two_ne_zero
    refine this.congr ?_
    ext <;> simp [Geo.at'] <;> ring
  · intro s0 t0 e
    have h0 := hmin s0 t0
    rw [e] at h0
    have z : V3.dist (Geo.at' P2 V2 t0) (Geo.at' P2 V2 t0) = 0 := by
      unfold V3.dist; rw [V3.norm_eq_zero]; ext <;> simp
    rw [z] at h0
    have h0' : V3.dist (Geo.at' P1 V1 s) (Geo.at' P2 V2 t) = 0 := le_antisymm h0 (V3.norm_nonneg _)
    have eq := V3.norm_eq_zero.1 h0'
    have ex := congrArg V3.x eq
    have ey := congrArg V3.y eq
    have ez := congrArg V3.z eq
    have fx := congrArg V3.x e
    have fy := congrArg V3.y e
    have fz := congrArg V3.z e
    simp only [Geo.at', V3.sub_x, V3.sub_y, V3.sub_z] at ex ey ez fx fy fz
    have gx : (s - s0) * V1.x = (t - t0) * V2.x := by linarith
    have gy : (s - s0) * V1.y = (t - t0) * V2.y := by linarith
    have gz : (s - s0) * V1.z = (t - t0) * V2.z := by linarith
    constructor
    · by_contra hne
      have hne' : s - s0 ≠ 0 := sub_ne_zero.2 hne
      apply h
      ext
      · have : (s - s0) * (V1.y * V2.z - V1.z * V2.y) = 0 := by linear_combination V2.z * gy - V2.y * gz
        exact (mul_eq_zero.1 this).resolve_left hne'
      · have : (s - s0) * (V1.z * V2.x - V1.x * V2.z) = 0 := by linear_combination V2.x * gz - V2.z * gx
        exact (mul_eq_zero.1 this).resolve_left hne'
      · have : (s - s0) * (V1.x * V2.y - V1.y * V2.x) = 0 := by linear_combination V2.y * gx - V2.x * gy
        exact (mul_eq_zero.1 this).resolve_left hne'
    · by_contra hne
      have hne' : t - t0 ≠ 0 := sub_ne_zero.2 hne
      apply h
      ext
      · have : (t - t0) * (V1.y * V2.z - V1.z * V2.y) = 0 := by linear_combination V1.z * gy - V1.y * gz
        exact (mul_eq_zero.1 this).resolve_left hne'
      · have : (t - t0) * (V1.z * V2.x - V1.x * V2.z) = 0 := by linear_combination V1.x * gz - V1.z * gx
        exact (mul_eq_zero.1 this).resolve_left hne'
      · have : (t - t0) * (V1.x * V2.y - V1.y * V2.x) = 0 := by linear_combination V1.y * gx - V1.x * gy
        exact (mul_eq_zero.1 this).resolve_left hne'

/-- **C31** For non-parallel lines the result is the midpoint of two points, one on each line, of minimal
distance among all such pairs; if the lines meet it is the meeting point; for parallel lines it is nan. -/
theorem C31_intersection_of_two_lines (P1 V1 P2 V2 : V3 ℝ) :
    (V1.cross V2 ≠ ⟨0, 0, 0⟩ →
      ∃ s t : ℝ, (∀ s' t', V3.dist (Geo.at' P1 V1 s) (Geo.at' P2 V2 t) ≤ V3.dist (Geo.at' P1 V1 s') (Geo.at' P2 V2 t')) ∧
        (intersectionSingle P1.num V1.num P2.num V2.num).Is ((Geo.at' P1 V1 s + Geo.at' P2 V2 t).divS 2) ∧
        ∀ X, Geo.OnLine P1 V1 X → Geo.OnLine P2 V2 X → (intersectionSingle P1.num V1.num P2.num V2.num).Is X) ∧
    (V1.cross V2 = ⟨0, 0, 0⟩ → intersectionSingle P1.num V1.num P2.num V2.num = V3.nan) := by
  constructor
  · intro h
    obtain ⟨s, t, h1, h2, h3⟩ := Ray.intersection_spec (V3.is_num P1) (V3.is_num V1) (V3.is_num P2) (V3.is_num V2) h
    refine ⟨s, t, h1, h2, ?_⟩
    rintro X ⟨s0, x1, y1, z1⟩ ⟨t0, x2, y2, z2⟩
    have e1 : Geo.at' P1 V1 s0 = X := by ext <;> simp [Geo.at', *]
    have e2 : Geo.at' P2 V2 t0 = X := by
      ext
      · rw [x2]; rfl
      · rw [y2]; rfl
      · rw [z2]; rfl
    obtain ⟨rfl, rfl⟩ := h3 s0 t0 (e1.trans e2.symm)
    refine h2.congr ?_
    rw [e1, e2]
    ext <;> simp
  · intro h
    unfold intersectionSingle
    rw [(Ray.solveLines_spec (V3.is_num P1) (V3.is_num V1) (V3.is_num P2) (V3.is_num V2)).1 h]

example : (⟨1, 0, 0⟩ : V3 ℝ).cross ⟨0, 1, 0⟩ ≠ ⟨0, 0, 0⟩ := by
  intro h; simpa [V3.cross] using congrArg V3.z h

/-- **C32** The batch version returns, row by row, the result of the single version, for every batch and
also if some of the systems are singular. -/
theorem C32_batch_equals_single (p1 p2 : V3 Num) (vs : List (V3 Num × V3 Num)) :
    intersectionBatch p1 p2 vs = vs.map fun v => intersectionSingle p1 v.1 p2 v.2 := by
  unfold intersectionBatch
  cases h : vs.mapM fun v => solveLines p1 v.1 p2 v.2 with
  | none => rfl
  | some sol =>
    simp only
    induction vs generalizing sol with
    | nil => simp
    | cons v vs ih =>
      simp only [List.mapM_cons, Option.bind_eq_bind, Option.bind_eq_some_iff, Option.pure_def, Option.some.injEq] at h
      obtain ⟨x, hx, xs, hxs, rfl⟩ := h
      simp only [List.zip_cons_cons, List.map_cons, List.cons.injEq]
      refine ⟨?_, ih xs hxs⟩
      unfold intersectionSingle
      rw [hx]

theorem Ray.isClose0_iff {x : Num} {a : ℝ} (h : Num.Is x a) : isClose0 x ↔ |a| ≤ 1 / 10 ^ 8 := by
  unfold isClose0; exact h.abs.le_iff (is_fin _)

theorem Ray.norm_cross_le (p q : V3 ℝ) : (p.cross q).norm ≤ p.norm * q.norm := by
  unfold V3.norm
  rw [← Real.sqrt_mul (V3.normSq_nonneg _)]
  apply Real.sqrt_le_sqrt
  rw [V3.lagrange]; nlinarith [sq_nonneg (p.dot q)]

theorem Ray.abs_dot_le (p q : V3 ℝ) : |p.dot q| ≤ p.norm * q.norm := by
  unfold V3.norm
  rw [← Real.sqrt_mul (V3.normSq_nonneg _)]
  apply Real.abs_le_sqrt
  have := V3.lagrange p q
  have := V3.normSq_nonneg (p.cross q)
  linarith

/-- Distance of parallel lines from the direction of the first one. -/
theorem Ray.parallel_dist (P1 V1 P2 V2 : V3 ℝ) (hx : V1.cross V2 = ⟨0, 0, 0⟩) (hv : V1 ≠ ⟨0, 0, 0⟩) :
    Geo.IsDistLineLine P1 V1 P2 V2 (((P2 - P1).cross V1).norm / V1.norm) := by
  have hp := V3.normSq_pos hv
  have hq := V3.norm_pos hv
  have e1 : V1.y * V2.z - V1.z * V2.y = 0 := congrArg V3.x hx
  have e2 : V1.z * V2.x - V1.x * V2.z = 0 := congrArg V3.y hx
  have e3 : V1.x * V2.y - V1.y * V2.x = 0 := congrArg V3.z hx
  have hc : ∀ s t, ((P2 - P1).cross V1).norm = ((Geo.at' P1 V1 s - Geo.at' P2 V2 t).cross V1).norm := by
    intro s t
    unfold V3.norm
    congr 1
    have f1 : ((Geo.at' P1 V1 s - Geo.at' P2 V2 t).cross V1).x = -((P2 - P1).cross V1).x := by
      simp [V3.cross, Geo.at']; linear_combination t * e1
    have f2 : ((Geo.at' P1 V1 s - Geo.at' P2 V2 t).cross V1).y = -((P2 - P1).cross V1).y := by
      simp [V3.cross, Geo.at']; linear_combination t * e2
    have f3 : ((Geo.at' P1 V1 s - Geo.at' P2 V2 t).cross V1).z = -((P2 - P1).cross V1).z := by
      simp [V3.cross, Geo.at']; linear_combination t * e3
    simp only [V3.normSq, f1, f2, f3]; ring
  constructor
  · refine ⟨(P2 - P1).dot V1 / V1.normSq, 0, ?_⟩
    set s := (P2 - P1).dot V1 / V1.normSq with hs
    rw [eq_div_iff hq.ne', hc s 0]
    unfold V3.dist V3.norm
    rw [← Real.sqrt_mul (V3.normSq_nonneg _)]
    congr 1
    rw [V3.lagrange]
    have : (Geo.at' P1 V1 s - Geo.at' P2 V2 0).dot V1 = s * V1.normSq - (P2 - P1).dot V1 := by
      simp only [V3.normSq, V3.dot, V3.sub_x, V3.sub_y, V3.sub_z, Geo.at']; ring
    rw [this, hs]; field_simp; ring
  · intro s t
    rw [div_le_iff₀ hq, hc s t]
    exact Ray.norm_cross_le _ _

/-- Distance of skew lines. -/
theorem Ray.skew_dist (P1 V1 P2 V2 : V3 ℝ) (hx : V1.cross V2 ≠ ⟨0, 0, 0⟩) :
    Geo.IsDistLineLine P1 V1 P2 V2 (|(P2 - P1).dot (V1.cross V2)| / (V1.cross V2).norm) := by
  have hq := V3.norm_pos hx
  have hc : ∀ s t, |(P2 - P1).dot (V1.cross V2)| = |(Geo.at' P1 V1 s - Geo.at' P2 V2 t).dot (V1.cross V2)| := by
    intro s t
    rw [← abs_neg]
    congr 1
    simp only [V3.dot, V3.cross, V3.sub_x, V3.sub_y, V3.sub_z, Geo.at']; ring
  obtain ⟨a, b, s, t, -, -, -, o1, o2⟩ :=
    (Ray.solveLines_spec (V3.is_num P1) (V3.is_num V1) (V3.is_num P2) (V3.is_num V2)).2 hx
  constructor
  · refine ⟨s, t, ?_⟩
    rw [eq_div_iff hq.ne', hc s t, ← Real.sqrt_sq_eq_abs]
    unfold V3.dist V3.norm
    rw [← Real.sqrt_mul (V3.normSq_nonneg _)]
    congr 1
    set E := Geo.at' P1 V1 s - Geo.at' P2 V2 t
    have h0 : (E.cross (V1.cross V2)).normSq = 0 := by
      rw [V3.normSq_eq_zero]
      have e : E.cross (V1.cross V2) = V1.mulS (E.dot V2) - V2.mulS (E.dot V1) := by
        ext <;> simp [V3.cross, V3.dot] <;> ring
      rw [e, o1, o2]; ext <;> simp
    rw [V3.lagrange] at h0
    linarith
  · intro s t
    rw [div_le_iff₀ hq, hc s t]
    exact Ray.abs_dot_le _ _

theorem Geo.IsDistLineLine.symm {P1 V1 P2 V2 : V3 ℝ} {D : ℝ} (h : Geo.IsDistLineLine P1 V1 P2 V2 D) :
    Geo.IsDistLineLine P2 V2 P1 V1 D := by
  have c : ∀ A B : V3 ℝ, V3.dist A B = V3.dist B A := by
    intro A B; unfold V3.dist V3.norm; congr 1; simp only [V3.normSq, V3.sub_x, V3.sub_y, V3.sub_z]; ring
  obtain ⟨⟨s, t, h1⟩, h2⟩ := h
  exact ⟨⟨t, s, by rw [c]; exact h1⟩, fun s t => by rw [c]; exact h2 t s⟩

/-- **C33** (partial: outside of the window of almost parallel lines, see `C33_violated`)
`distanceOfTwoLines` is the smallest distance between points of the two lines: if the cross product of the
directions is longer than 1e-8; for exactly parallel lines, if one of the directions is longer than 1e-8;
and for two points (both directions zero). -/
theorem C33_line_distance_partial (P1 V1 P2 V2 : V3 ℝ)
    (h : 1 / 10 ^ 8 < (V1.cross V2).norm ∨
      (V1.cross V2 = ⟨0, 0, 0⟩ ∧ (1 / 10 ^ 8 < V1.norm ∨ 1 / 10 ^ 8 < V2.norm)) ∨
      (V1 = ⟨0, 0, 0⟩ ∧ V2 = ⟨0, 0, 0⟩)) :
    ∃ D : ℝ, Num.Is (distanceOfTwoLines P1.num V1.num P2.num V2.num) D ∧ Geo.IsDistLineLine P1 V1 P2 V2 D := by
  have hcr := (V3.is_num V1).cross (V3.is_num V2)
  have hncr := hcr.normN
  have hd := (V3.is_num P2).sub (V3.is_num P1)
  have hn1 := (V3.is_num V1).normN
  have hn2 := (V3.is_num V2).normN
  have ab : ∀ q : V3 ℝ, |q.norm| = q.norm := fun q => abs_of_nonneg (V3.norm_nonneg q)
  have c0 := Ray.isClose0_iff hncr
  have c1 := Ray.isClose0_iff hn1
  have c2 := Ray.isClose0_iff hn2
  rw [ab] at c0 c1 c2
  have z0 : (⟨0, 0, 0⟩ : V3 ℝ).norm = 0 := V3.norm_eq_zero.2 rfl
  rcases h with h | ⟨h, h'⟩ | ⟨h, h'⟩
  · have hne : V1.cross V2 ≠ ⟨0, 0, 0⟩ := by
      intro h0; rw [h0, z0] at h; norm_num at h
    refine ⟨_, ?_, Ray.skew_dist P1 V1 P2 V2 hne⟩
    unfold distanceOfTwoLines
    simp only
    rw [if_neg (by rw [c0]; exact not_le.2 h)]
    exact (hd.dot hcr).abs.div hncr (V3.norm_pos hne).ne'
  · have hcl : isClose0 (V1.num.cross V2.num).normN := by rw [c0, h, z0]; norm_num
    by_cases h1 : 1 / 10 ^ 8 < V1.norm
    · have hne : V1 ≠ ⟨0, 0, 0⟩ := by intro h0; rw [h0, z0] at h1; norm_num at h1
      refine ⟨_, ?_, Ray.parallel_dist P1 V1 P2 V2 h hne⟩
      unfold distanceOfTwoLines
      simp only
      rw [if_pos hcl, if_neg (by rw [c1]; exact not_le.2 h1)]
      exact (hd.cross (V3.is_num V1)).normN.div hn1 (V3.norm_pos hne).ne'
    · have h2 := h'.resolve_left h1
      have hne : V2 ≠ ⟨0, 0, 0⟩ := by intro h0; rw [h0, z0] at h2; norm_num at h2
      have hx : V2.cross V1 = ⟨0, 0, 0⟩ := by
        have e1 := congrArg V3.x h
        have e2 := congrArg V3.y h
        have e3 := congrArg V3.z h
        simp only [V3.cross] at e1 e2 e3 ⊢
        ext <;> simp <;> linarith
      have hs := (Ray.parallel_dist P2 V2 P1 V1 hx hne).symm
      have e : ((P1 - P2).cross V2).norm = ((P2 - P1).cross V2).norm := by
        unfold V3.norm; congr 1; simp only [V3.normSq, V3.cross, V3.sub_x, V3.sub_y, V3.sub_z]; ring
      rw [e] at hs
      refine ⟨_, ?_, hs⟩
      unfold distanceOfTwoLines
      simp only
      rw [if_pos hcl, if_pos (by rw [c1]; exact not_lt.1 h1), if_neg (by rw [c2]; exact not_le.2 h2)]
      exact (hd.cross (V3.is_num V2)).normN.div hn2 (V3.norm_pos hne).ne'
  · subst h; subst h'
    refine ⟨(P2 - P1).norm, ?_, ?_, ?_⟩
    · unfold distanceOfTwoLines
      simp only
      rw [if_pos (by rw [c0]; simp only [V3.cross]; norm_num [z0]),
        if_pos (by rw [c1, z0]; norm_num), if_pos (by rw [c2, z0]; norm_num)]
      exact hd.normN
    · refine ⟨0, 0, ?_⟩
      unfold V3.dist V3.norm; congr 1; simp [V3.normSq, Geo.at']; ring
    · intro s t
      unfold V3.dist V3.norm
      apply le_of_eq
      congr 1; simp [V3.normSq, Geo.at']; ring

example : 1 / 10 ^ 8 < ((⟨1, 0, 0⟩ : V3 ℝ).cross ⟨0, 1, 0⟩).norm := by
  have : (⟨1, 0, 0⟩ : V3 ℝ).cross ⟨0, 1, 0⟩ = ⟨0, 0, 1⟩ := by ext <;> simp [V3.cross]
  rw [this]; simp [V3.norm, V3.normSq]; norm_num

/-- **C33** for arrays of directions: the distance of each row is the distance of its own two lines. -/
theorem C33_batch_partial (P1 P2 : V3 ℝ) (vs : List (V3 ℝ × V3 ℝ)) :
    (distanceOfTwoLinesBatch P1.num P2.num (vs.map fun v => (v.1.num, v.2.num))).length = vs.length ∧
    ∀ (i : ℕ) (V1 V2 : V3 ℝ), vs[i]? = some (V1, V2) → (1 / 10 ^ 8 < (V1.cross V2).norm ∨
      (V1.cross V2 = ⟨0, 0, 0⟩ ∧ (1 / 10 ^ 8 < V1.norm ∨ 1 / 10 ^ 8 < V2.norm)) ∨ (V1 = ⟨0, 0, 0⟩ ∧ V2 = ⟨0, 0, 0⟩)) →
      ∃ n D, (distanceOfTwoLinesBatch P1.num P2.num (vs.map fun v => (v.1.num, v.2.num)))[i]? = some n ∧ Num.Is n D ∧
        Geo.IsDistLineLine P1 V1 P2 V2 D := by
  refine ⟨by simp [distanceOfTwoLinesBatch], fun i V1 V2 hi h => ?_⟩
  obtain ⟨D, h1, h2⟩ := C33_line_distance_partial P1 V1 P2 V2 h
  exact ⟨_, D, by simp [distanceOfTwoLinesBatch, hi], h1, h2⟩

example : ∃ vs : List (V3 ℝ × V3 ℝ), vs.length = 2 ∧ ∀ v ∈ vs, 1 / 10 ^ 8 < (v.1.cross v.2).norm ∨
    (v.1.cross v.2 = ⟨0, 0, 0⟩ ∧ (1 / 10 ^ 8 < v.1.norm ∨ 1 / 10 ^ 8 < v.2.norm)) := by
  refine ⟨[(⟨1, 0, 0⟩, ⟨0, 1, 0⟩), (⟨0, 0, 1⟩, ⟨0, 0, 1⟩)], rfl, ?_⟩
  simp only [List.mem_cons, List.not_mem_nil, or_false, forall_eq_or_imp, forall_eq]
  have : (⟨1, 0, 0⟩ : V3 ℝ).cross ⟨0, 1, 0⟩ = ⟨0, 0, 1⟩ := by ext <;> simp [V3.cross]
  refine ⟨Or.inl ?_, Or.inr ⟨by ext <;> simp [V3.cross], Or.inl ?_⟩⟩
  · rw [this]; simp [V3.norm, V3.normSq]; norm_num
  · simp [V3.norm, V3.normSq]; norm_num

/-- **C33** is violated for almost parallel lines: two lines that meet get the distance 1. -/
theorem C33_violated :
    ∃ P1 V1 P2 V2 : V3 ℝ, Geo.IsDistLineLine P1 V1 P2 V2 0 ∧ V1.norm = 1 ∧ 1 ≤ V2.norm ∧
      Num.Is (distanceOfTwoLines P1.num V1.num P2.num V2.num) 1 := by
  have n1 : (⟨1, 0, 0⟩ : V3 ℝ).norm = 1 := by simp [V3.norm, V3.normSq]
  refine ⟨⟨0, 0, 0⟩, ⟨1, 0, 0⟩, ⟨0, 1, 0⟩, ⟨1, 1 / 10 ^ 9, 0⟩, ⟨⟨-10 ^ 9, -10 ^ 9, ?_⟩, fun s t => V3.norm_nonneg _⟩, n1, ?_, ?_⟩
  · unfold V3.dist; rw [V3.norm_eq_zero]; ext <;> simp [Geo.at']
  · unfold V3.norm; rw [Real.one_le_sqrt]; simp [V3.normSq]
  · have hcr := (V3.is_num ⟨1, 0, 0⟩).cross (V3.is_num ⟨1, 1 / 10 ^ 9, 0⟩)
    have ecr : (⟨1, 0, 0⟩ : V3 ℝ).cross ⟨1, 1 / 10 ^ 9, 0⟩ = ⟨0, 0, 1 / 10 ^ 9⟩ := by ext <;> simp [V3.cross]
    have hncr := hcr.normN
    rw [ecr] at hncr
    have ncr : (⟨0, 0, 1 / 10 ^ 9⟩ : V3 ℝ).norm = 1 / 10 ^ 9 := by
      unfold V3.norm; rw [Real.sqrt_eq_iff_mul_self_eq (V3.normSq_nonneg _) (by positivity)]; simp [V3.normSq]; norm_num
    have hn1 := (V3.is_num ⟨1, 0, 0⟩).normN
    have hd := (V3.is_num ⟨0, 1, 0⟩).sub (V3.is_num ⟨0, 0, 0⟩)
    unfold distanceOfTwoLines
    simp only
    rw [if_pos (by rw [Ray.isClose0_iff hncr, ncr, abs_of_pos (by positivity)]; norm_num),
      if_neg (by rw [Ray.isClose0_iff hn1, n1]; norm_num)]
    have hfin := (hd.cross (V3.is_num ⟨1, 0, 0⟩)).normN.div hn1 (by rw [n1]; exact one_ne_zero)
    refine hfin.congr ?_
    have e : ((⟨0, 1, 0⟩ : V3 ℝ) - ⟨0, 0, 0⟩).cross ⟨1, 0, 0⟩ = ⟨0, 0, -1⟩ := by ext <;> simp [V3.cross]
    rw [e, n1]; simp [V3.norm, V3.normSq]

/-! ### extrudeLine -/

theorem Ray.extrude_cons (p q : V2 ℝ) (r : List (V2 ℝ)) (z0 z1 : ℝ) :
    extrudeLine (p :: q :: r) z0 z1 =
      ⟨⟨q.x, q.y, z0⟩, ⟨p.x, p.y, z0⟩, ⟨q.x, q.y, z1⟩⟩ :: ⟨⟨q.x, q.y, z0⟩, ⟨p.x, p.y, z0⟩, ⟨p.x, p.y, z1⟩⟩ ::
        extrudeLine (q :: r) z0 z1 := rfl

theorem Ray.area_rect (u w : ℝ) (v : V3 ℝ) (n : ℝ) (h : v.normSq = (u ^ 2 + w ^ 2) * n ^ 2) :
    v.norm / 2 = Real.sqrt (u ^ 2 + w ^ 2) * |n| / 2 := by
  unfold V3.norm
  rw [h, Real.sqrt_mul (by positivity), Real.sqrt_sq_eq_abs]

/-- **C36** (partial: coverage is violated, see `C36_violated`) For every polyline: two triangles per
segment, whose areas add up to the area of the wall, and all of whose points lie on the wall. -/
theorem C36_wall_partial (pts : List (V2 ℝ)) (z0 z1 : ℝ) :
    (extrudeLine pts z0 z1).length = 2 * (Geo.segments pts).length ∧
    ((extrudeLine pts z0 z1).map Geo.triArea).sum = ((Geo.segments pts).map fun s => Geo.segLength s * |z1 - z0|).sum ∧
    ∀ T ∈ extrudeLine pts z0 z1, ∃ s ∈ Geo.segments pts, ∀ P, Geo.InTri T P →
      ∃ l m, 0 ≤ l ∧ l ≤ 1 ∧ 0 ≤ m ∧ m ≤ 1 ∧ P = Geo.wallPoint s.1 s.2 z0 z1 l m := by
  induction pts with
  | nil => simp [extrudeLine, Geo.segments]
  | cons p pts ih =>
    cases pts with
    | nil => simp [extrudeLine, extrudeAux, Geo.segments]
    | cons q r =>
      obtain ⟨i1, i2, i3⟩ := ih
      rw [Ray.extrude_cons]
      refine ⟨?_, ?_, ?_⟩
      · simp only [List.length_cons, i1, Geo.segments]; ring
      · simp only [List.map_cons, List.sum_cons, i2, Geo.segments]
        have a1 : Geo.triArea ⟨⟨q.x, q.y, z0⟩, ⟨p.x, p.y, z0⟩, ⟨q.x, q.y, z1⟩⟩ = Geo.segLength (p, q) * |z1 - z0| / 2 :=
          Ray.area_rect _ _ _ _ (by simp [Geo.normal, V3.cross, V3.normSq]; ring)
        have a2 : Geo.triArea ⟨⟨q.x, q.y, z0⟩, ⟨p.x, p.y, z0⟩, ⟨p.x, p.y, z1⟩⟩ = Geo.segLength (p, q) * |z1 - z0| / 2 :=
          Ray.area_rect _ _ _ _ (by simp [Geo.normal, V3.cross, V3.normSq]; ring)
        rw [a1, a2]; ring
      · intro T hT
        simp only [List.mem_cons] at hT
        rcases hT with rfl | rfl | hT
        · refine ⟨(p, q), by simp [Geo.segments], ?_⟩
          rintro P ⟨s, t, h1, h2, h3, hx, hy, hz⟩
          refine ⟨1 - s, t, by linarith, by linarith, h2, by linarith, ?_⟩
          ext <;> simp [Geo.wallPoint, hx, hy, hz] <;> ring
        · refine ⟨(p, q), by simp [Geo.segments], ?_⟩
          rintro P ⟨s, t, h1, h2, h3, hx, hy, hz⟩
          refine ⟨1 - s - t, t, by linarith, by linarith, h2, by linarith, ?_⟩
          ext <;> simp [Geo.wallPoint, hx, hy, hz] <;> ring
        · obtain ⟨s, hs, h⟩ := i3 T hT
          exact ⟨s, by simp only [Geo.segments, List.mem_cons]; exact Or.inr hs, h⟩

/-- **C36** is violated: over every segment a quarter of the wall, the upper middle, is not covered; the two
triangles overlap at the bottom instead. -/
theorem C36_violated (p q : V2 ℝ) (hpq : p ≠ q) (z0 z1 : ℝ) (hz : z0 ≠ z1) (l m : ℝ) (hl : 0 ≤ l) (hl' : l ≤ 1)
    (hm : 0 ≤ m) :
    (∃ T ∈ extrudeLine [p, q] z0 z1, Geo.InTri T (Geo.wallPoint p q z0 z1 l m)) ↔ (m ≤ l ∨ m ≤ 1 - l) := by
  have hdz : z1 - z0 ≠ 0 := sub_ne_zero.2 (Ne.symm hz)
  have hdp : q.x - p.x ≠ 0 ∨ q.y - p.y ≠ 0 := by
    by_contra h
    push Not at h
    exact hpq (V2.ext (by linarith) (by linarith))
  have cancel : ∀ a b : ℝ, a * (q.x - p.x) = b * (q.x - p.x) → a * (q.y - p.y) = b * (q.y - p.y) → a = b := by
    intro a b h1 h2
    rcases hdp with h | h
    · exact mul_right_cancel₀ h h1
    · exact mul_right_cancel₀ h h2
  rw [Ray.extrude_cons]
  simp only [extrudeLine, extrudeAux, List.mem_cons, List.not_mem_nil, or_false, exists_eq_or_imp, exists_eq_left]
  constructor
  · rintro (⟨s, t, h1, h2, h3, hx, hy, hzz⟩ | ⟨s, t, h1, h2, h3, hx, hy, hzz⟩)
    · left
      simp only [Geo.wallPoint] at hx hy hzz
      have et : m = t := mul_right_cancel₀ hdz (by linarith)
      have es : l = 1 - s := cancel _ _ (by linarith) (by linarith)
      rw [et, es]; linarith
    · right
      simp only [Geo.wallPoint] at hx hy hzz
      have et : m = t := mul_right_cancel₀ hdz (by linarith)
      have es : l = 1 - s - t := cancel _ _ (by linarith) (by linarith)
      rw [et, es]; linarith
  · rintro (h | h)
    · left
      refine ⟨1 - l, m, by linarith, hm, by linarith, ?_, ?_, ?_⟩ <;> simp only [Geo.wallPoint] <;> ring
    · right
      refine ⟨1 - l - m, m, by linarith, hm, by linarith, ?_, ?_, ?_⟩ <;> simp only [Geo.wallPoint] <;> ring

example : ¬ ∃ T ∈ extrudeLine [⟨0, 0⟩, ⟨1, 0⟩] (0 : ℝ) 1, Geo.InTri T (Geo.wallPoint ⟨0, 0⟩ ⟨1, 0⟩ 0 1 (1 / 2) (3 / 4)) := by
  rw [C36_violated ⟨0, 0⟩ ⟨1, 0⟩ (by simp) 0 1 (by norm_num) (1 / 2) (3 / 4) (by norm_num) (by norm_num) (by norm_num)]
  norm_num

/-! ### arguments -/

/-- **C83** is violated: `getClosestPointFromLine` norms the caller's direction array in place. -/
theorem C83_closest_point_violated (o v p : V3 ℝ) (hv : v ≠ ⟨0, 0, 0⟩) :
    ∃ w : V3 ℝ, (getClosestPointFromLine o.num v.num p.num).1.Is w ∧ w.norm = 1 ∧ Geo.PosMul w v := by
  have hq := V3.norm_pos hv
  refine ⟨_, (V3.is_num v).divS (V3.is_num v).normN hq.ne', ?_, 1 / v.norm, by positivity, ?_, ?_, ?_⟩
  · unfold V3.norm
    rw [Real.sqrt_eq_one]
    have := V3.norm_sq v
    have e : (v.divS v.norm).normSq = v.normSq / v.norm ^ 2 := by simp [V3.normSq]; ring
    rw [show Real.sqrt v.normSq = v.norm from rfl, e, this, div_self (V3.normSq_pos hv).ne']
  all_goals simp; field_simp

/-- **C83** is violated: `imageFromCamera` of all three projections resets the caller's points that are
close to the camera plane to the origin. -/
theorem C83_imageFromCamera_violated (k : Projection.Kind) (I : Projection.Intr) (pts : List (V3 ℝ)) (hide : Bool)
    (i : ℕ) (P : V3 ℝ) (hP : pts[i]? = some P) :
    let after := (Projection.imageFromCameraInPlace k I (pts.map V3.num) hide).1
    (|P.z| < Projection.minDepth → after[i]? = some (V3.num ⟨0, 0, 0⟩)) ∧
    (Projection.minDepth ≤ |P.z| → after[i]? = some P.num) := by
  simp only [Projection.imageFromCameraInPlace, List.getElem?_map, hP, Option.map_some, Option.some.injEq]
  exact ⟨fun h => Projection.snap_near (q := P) (is_fin _) h, fun h => Projection.snap_far (V3.is_num P) h⟩

/-- **C83** (partial) Points that are off the camera plane are left unchanged. -/
theorem C83_unchanged_partial (k : Projection.Kind) (I : Projection.Intr) (pts : List (V3 ℝ)) (hide : Bool)
    (h : ∀ P ∈ pts, Projection.minDepth ≤ |P.z|) :
    (Projection.imageFromCameraInPlace k I (pts.map V3.num) hide).1 = pts.map V3.num := by
  simp only [Projection.imageFromCameraInPlace, List.map_map]
  apply List.map_congr_left
  intro P hP
  exact Projection.snap_far (V3.is_num P) (h P hP)

example : ∃ P : V3 ℝ, |P.z| < Projection.minDepth ∧ P ≠ ⟨0, 0, 0⟩ :=
  ⟨⟨1, 2, 0⟩, by simp [Projection.minDepth], by intro h; simpa using congrArg V3.x h⟩

/-- **C83** The image points of `imageFromCamera` for an array, called without a second argument: one for each point, and the
points behind a rectilinear camera are hidden. -/
theorem C83_image_points (k : Projection.Kind) (I : Projection.Intr) (pts : List (V3 ℝ)) :
    (Projection.imageFromCameraInPlace k I (pts.map V3.num)).2.length = pts.length ∧
    ∀ (i : ℕ) (P : V3 ℝ), pts[i]? = some P → ∃ q, (Projection.imageFromCameraInPlace k I (pts.map V3.num)).2[i]? = some q ∧
      q = Projection.imageFromCamera k I P.num true ∧ (k = .rectilinear → (q = V2.nan ↔ 0 < P.z ∨ |P.z| < Projection.minDepth)) := by
  refine ⟨by simp [Projection.imageFromCameraInPlace], fun i P hi => ⟨_, by simp [Projection.imageFromCameraInPlace, hi], rfl, ?_⟩⟩
  rintro rfl
  rw [(C04_rectilinear_hides_backpoints I P true).1]
  simp
