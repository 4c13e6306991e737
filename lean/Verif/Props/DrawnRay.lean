import Verif.Model.DrawnRay
import Verif.Props.Planes

/-! # The assertions of the property tests of rays -/

open Num Ray Classical

namespace DrawnRay

theorem toward_at (o P : V3 ℝ) (h : P - o ≠ ⟨0, 0, 0⟩) : Geo.at' o (toward o P) (P - o).norm = P := by
  have hp := (V3.norm_pos h).ne'
  unfold toward Geo.at'
  ext <;> simp only [V3.divS_x, V3.divS_y, V3.divS_z, V3.sub_x, V3.sub_y, V3.sub_z] <;> rw [mul_div_cancel₀ _ hp] <;> ring

theorem target_in (T : Tri ℝ) {p1 p2 : ℝ} (h1 : 0 ≤ p1 ∧ p1 ≤ 1) (h2 : 0 ≤ p2 ∧ p2 ≤ 1) : Geo.InTri T (target T p1 p2) := by
  refine ⟨p1, p2 * (1 - p1), h1.1, mul_nonneg h2.1 (by linarith), by nlinarith, ?_, ?_, ?_⟩ <;> simp [target] <;> ring

/-- The parameter of every triangle is a real number or nan. -/
theorem hitParam_real (O D : V3 ℝ) (T : Tri ℝ) : (∃ r, Num.Is (hitParam O.num D.num T.num) r) ∨ hitParam O.num D.num T.num = nan := by
  by_cases hn : Geo.Degenerate T
  · exact Or.inl ⟨0, hitParam_degenerate (V3.is_num O) (V3.is_num D) hn⟩
  · by_cases hc : Geo.Coplanar O D T
    · obtain ⟨h1, h2⟩ := hitParam_coplanar (V3.is_num O) (V3.is_num D) hn hc
      by_cases hi : Geo.InTri T O
      · exact Or.inl ⟨0, h1 hi⟩
      · exact Or.inr (h2 hi)
    · rcases hitParam_spec (V3.is_num O) (V3.is_num D) hn hc with ⟨r, -, h⟩ | ⟨-, h⟩
      · exact Or.inl ⟨r, h⟩
      · exact Or.inr h

/-- A ray with three components that are not 0 never gives nan, whether it hits anything or not. -/
theorem never_nan (O D : V3 ℝ) (mesh : List (Tri ℝ)) (hne : mesh ≠ []) (hx : D.x ≠ 0) (hy : D.y ≠ 0) (hz : D.z ≠ 0) :
    ∃ P, rayIntersectTriangle O.num D.num (mesh.map Tri.num) = some P ∧ P.x ≠ nan ∧ P.y ≠ nan ∧ P.z ≠ nan := by
  obtain ⟨Tn, hT, e, -⟩ := rayIntersect_spec O.num D.num (mesh.map Tri.num) (by simpa using hne)
  obtain ⟨T, -, rfl⟩ := List.mem_map.1 hT
  refine ⟨_, e, ?_⟩
  rcases hitParam_real O D T with ⟨r, h⟩ | h
  · have h' : Num.Is (nanToInf (hitParam O.num D.num T.num)) r := by
      unfold nanToInf; rw [if_neg h.ne_nan]; exact h
    have := (V3.is_num O).add ((V3.is_num D).mulS h')
    exact ⟨this.1.ne_nan, this.2.1.ne_nan, this.2.2.ne_nan⟩
  · rw [h]
    have e : nanToInf nan = pinf := by unfold nanToInf; rw [if_pos rfl]
    rw [e]
    exact ⟨fun h => hx ((Ray.inf_coord O.x D.x).2.1 h), fun h => hy ((Ray.inf_coord O.y D.y).2.1 h), fun h => hz ((Ray.inf_coord O.z D.z).2.1 h)⟩

theorem tri_within (d : Draw) (h : d.Ok) : 10 ≤ d.tri.a.x ∧ 10 ≤ d.tri.b.x ∧ 10 ≤ d.tri.c.x ∧ 10 ≤ d.tri.a.y ∧ 10 ≤ d.tri.b.y ∧ 10 ≤ d.tri.c.y ∧
    10 ≤ d.tri.a.z ∧ 10 ≤ d.tri.b.z ∧ 10 ≤ d.tri.c.z := by
  obtain ⟨-, ⟨ax, ay, az⟩, ⟨bx, by', bz⟩, ⟨cx, cy, cz⟩, -, -⟩ := h
  simp only [Draw.tri, V3.add_x, V3.add_y, V3.add_z]
  refine ⟨?_, ?_, ?_, ?_, ?_, ?_, ?_, ?_, ?_⟩ <;> linarith [ax.1, ay.1, az.1, bx.1, by'.1, bz.1, cx.1, cy.1, cz.1]

theorem inTri_ge (d : Draw) (h : d.Ok) {P : V3 ℝ} (hP : Geo.InTri d.tri P) : 10 ≤ P.x ∧ 10 ≤ P.y ∧ 10 ≤ P.z := by
  obtain ⟨a1, a2, a3, b1, b2, b3, c1, c2, c3⟩ := tri_within d h
  obtain ⟨s, t, hs, ht, hst, ex, ey, ez⟩ := hP
  have key : ∀ a b c : ℝ, 10 ≤ a → 10 ≤ b → 10 ≤ c → 10 ≤ a + s * (b - a) + t * (c - a) := by
    intro a b c ha hb hc
    nlinarith [mul_nonneg hs (sub_nonneg.2 hb), mul_nonneg ht (sub_nonneg.2 hc), mul_nonneg (sub_nonneg.2 hst) (sub_nonneg.2 ha)]
  rw [ex, ey, ez]
  exact ⟨key _ _ _ a1 a2 a3, key _ _ _ b1 b2 b3, key _ _ _ c1 c2 c3⟩

theorem target_ge (d : Draw) (h : d.Ok) : Geo.InTri d.tri (target d.tri d.p1 d.p2) :=
  target_in _ ⟨by linarith [h.p1.1], by linarith [h.p1.2]⟩ ⟨by linarith [h.p2.1], by linarith [h.p2.2]⟩

theorem diff_pos {O P : V3 ℝ} (hO : Within 0 5 O) (hP : 10 ≤ P.x ∧ 10 ≤ P.y ∧ 10 ≤ P.z) : 0 < (P - O).norm ∧ 0 < (toward O P).x ∧ 0 < (toward O P).y ∧
    0 < (toward O P).z := by
  obtain ⟨ox, oy, oz⟩ := hO
  have h0 : P - O ≠ ⟨0, 0, 0⟩ := by
    intro h
    have := congrArg V3.x h
    simp only [V3.sub_x] at this
    linarith [ox.2, hP.1]
  have hn := V3.norm_pos h0
  refine ⟨hn, ?_, ?_, ?_⟩ <;> simp only [toward, V3.divS_x, V3.divS_y, V3.divS_z, V3.sub_x, V3.sub_y, V3.sub_z] <;> refine div_pos ?_ hn <;>
    linarith [ox.2, oy.2, oz.2]

/-- The ray toward the target lies in the plane of the triangle if and only if the origin does. -/
theorem coplanar_iff (d : Draw) (h : d.Ok) : Geo.Coplanar d.origin (toward d.origin (target d.tri d.p1 d.p2)) d.tri ↔
    (Geo.normal d.tri).dot (d.tri.a - d.origin) = 0 := by
  obtain ⟨hn, -, -, -⟩ := diff_pos h.origin (inTri_ge d h (target_ge d h))
  refine ⟨fun h => h.2, fun h0 => ⟨?_, h0⟩⟩
  have e : (Geo.normal d.tri).dot (toward d.origin (target d.tri d.p1 d.p2)) =
      (Geo.normal d.tri).dot (d.tri.a - d.origin) / (target d.tri d.p1 d.p2 - d.origin).norm := by
    rw [eq_div_iff hn.ne']
    generalize hT : d.tri = T at *
    have : ∀ x, x / (target T d.p1 d.p2 - d.origin).norm * (target T d.p1 d.p2 - d.origin).norm = x := fun x => div_mul_cancel₀ x hn.ne'
    unfold toward
    simp only [V3.dot, V3.divS_x, V3.divS_y, V3.divS_z, add_mul, mul_assoc, this]
    simp only [target, Geo.normal, V3.cross, V3.add_x, V3.add_y, V3.add_z, V3.sub_x, V3.sub_y, V3.sub_z, V3.mulS_x, V3.mulS_y, V3.mulS_z]
    ring
  rw [e, h0, zero_div]

end DrawnRay

open DrawnRay

/-- **C180** tests/test_ray.py:74-107 `test_rayIntersectTriangle` with one triangle: the assertion, that the intersection is the target point or
the origin, holds for a drawn triangle if and only if its corners are on one line or the origin is not in its plane.
(partial: see `C180_triangle_violated`) -/
theorem C180_triangle_partial (d : Draw) (h : d.Ok) :
    ∃ P, rayIntersectTriangle d.origin.num (toward d.origin (target d.tri d.p1 d.p2)).num [d.tri.num] = some P ∧
      (P.Is (target d.tri d.p1 d.p2) ∨ P.Is d.origin ↔ Geo.Degenerate d.tri ∨ (Geo.normal d.tri).dot (d.tri.a - d.origin) ≠ 0) := by
  have hin := target_ge d h
  obtain ⟨hn, -, -, -⟩ := diff_pos h.origin (inTri_ge d h hin)
  have h0 : target d.tri d.p1 d.p2 - d.origin ≠ ⟨0, 0, 0⟩ := by
    intro h; rw [h] at hn; simp [V3.norm, V3.normSq] at hn
  have hat := toward_at d.origin _ h0
  by_cases hd : Geo.Degenerate d.tri
  · obtain ⟨P, e, hP⟩ := C28_violated d.origin (toward d.origin (target d.tri d.p1 d.p2)) [d.tri] d.tri (by simp) hd
    exact ⟨P, e, fun _ => Or.inl hd, fun _ => Or.inr hP⟩
  · by_cases hc : (Geo.normal d.tri).dot (d.tri.a - d.origin) = 0
    · have hO : ¬ Geo.InTri d.tri d.origin := fun hi => by linarith [(inTri_ge d h hi).1, h.origin.1.2]
      obtain ⟨P, e, f, -, -⟩ := C121_violated d.origin (toward d.origin (target d.tri d.p1 d.p2)) d.tri hd ((coplanar_iff d h).2 hc) hO
        ⟨_, hn.le, by rw [hat]; exact hin⟩
      refine ⟨P, e, fun hP => ?_, fun hP => ?_⟩
      · rcases hP with hP | hP
        · exact absurd hP.1.finite f
        · exact absurd hP.1.finite f
      · exact absurd hc (hP.resolve_left hd)
    · have hcc := fun x => hc ((coplanar_iff d h).1 x)
      obtain ⟨r, P, ⟨T, hT, hr⟩, hmin, e, hP⟩ := C26_nearest_hit d.origin (toward d.origin (target d.tri d.p1 d.p2)) [d.tri] (by simpa using hd)
        (by simpa using hcc) ⟨d.tri, by simp, _, hn.le, by rw [hat]; exact hin⟩
      obtain rfl := List.mem_singleton.1 hT
      have hu : r = (target d.tri d.p1 d.p2 - d.origin).norm := by
        have on : ∀ r, Geo.InTri d.tri (Geo.at' d.origin (toward d.origin (target d.tri d.p1 d.p2)) r) →
            Geo.OnPlane d.tri (Geo.at' d.origin (toward d.origin (target d.tri d.p1 d.p2)) r) := by
          rintro r ⟨s, t, -, -, -, ex, ey, ez⟩
          exact ⟨s, t, ex, ey, ez⟩
        have e1 := (onPlane_iff hd _ _ _).1 (on r hr.2)
        have e2 := (onPlane_iff hd _ _ _).1 (on (target d.tri d.p1 d.p2 - d.origin).norm (by rw [hat]; exact hin))
        have hne : (Geo.normal d.tri).dot (toward d.origin (target d.tri d.p1 d.p2)) ≠ 0 := by
          intro h0; rw [h0, mul_zero] at e1; exact hc e1.symm
        exact mul_right_cancel₀ hne (e1.trans e2.symm)
      rw [hu, hat] at hP
      exact ⟨P, e, fun _ => Or.inr hc, fun _ => Or.inl hP⟩

/-- **C180 is violated** by `test_rayIntersectTriangle`: if the origin is in the plane of the triangle, no coordinate of the intersection is finite, though the ray
points to a point of the triangle. -/
theorem C180_triangle_violated (d : Draw) (h : d.Ok) (hd : ¬ Geo.Degenerate d.tri)
    (hc : (Geo.normal d.tri).dot (d.tri.a - d.origin) = 0) :
    ∃ P, rayIntersectTriangle d.origin.num (toward d.origin (target d.tri d.p1 d.p2)).num [d.tri.num] = some P ∧
      ¬ P.x.Finite ∧ ¬ P.y.Finite ∧ ¬ P.z.Finite ∧ ¬ P.Is (target d.tri d.p1 d.p2) ∧ ¬ P.Is d.origin := by
  have hin := target_ge d h
  obtain ⟨hn, -, -, -⟩ := diff_pos h.origin (inTri_ge d h hin)
  have h0 : target d.tri d.p1 d.p2 - d.origin ≠ ⟨0, 0, 0⟩ := by
    intro h; rw [h] at hn; simp [V3.norm, V3.normSq] at hn
  have hat := toward_at d.origin _ h0
  have hO : ¬ Geo.InTri d.tri d.origin := fun hi => by linarith [(inTri_ge d h hi).1, h.origin.1.2]
  obtain ⟨P, e, f, g, k⟩ := C121_violated d.origin (toward d.origin (target d.tri d.p1 d.p2)) d.tri hd ((coplanar_iff d h).2 hc) hO
    ⟨_, hn.le, by rw [hat]; exact hin⟩
  exact ⟨P, e, f, g, k, fun hP => f hP.1.finite, fun hP => f hP.1.finite⟩

/-- **C180** tests/test_ray.py:98-101: with several triangles the test asserts that no coordinate is nan. That holds for every ray from a drawn origin toward a point
of any drawn triangle, and for every other mesh, whether the ray hits it or not: the assertion does not tell hits from misses. -/
theorem C180_meshes (d : Draw) (h : d.Ok) (mesh : List (Tri ℝ)) (hne : mesh ≠ []) :
    ∃ P, rayIntersectTriangle d.origin.num (toward d.origin (target d.tri d.p1 d.p2)).num (mesh.map Tri.num) = some P ∧
      P.x ≠ nan ∧ P.y ≠ nan ∧ P.z ≠ nan := by
  obtain ⟨-, hx, hy, hz⟩ := diff_pos h.origin (inTri_ge d h (target_ge d h))
  exact never_nan _ _ mesh hne hx.ne' hy.ne' hz.ne'

/-- **C180** tests/test_ray.py:90-94, 98-101: the same for two rays. -/
theorem C180_two_rays (d e : Draw) (h : d.Ok) (h' : e.Ok) (ho : e.origin = d.origin) :
    ∃ P Q, rayIntersectTriangleBatch [(d.origin.num, (toward d.origin (target d.tri d.p1 d.p2)).num),
        (d.origin.num, (toward d.origin (target e.tri e.p1 e.p2)).num)] [d.tri.num, e.tri.num] false = some [P, Q] ∧
      P.x ≠ nan ∧ P.y ≠ nan ∧ P.z ≠ nan ∧ Q.x ≠ nan ∧ Q.y ≠ nan ∧ Q.z ≠ nan := by
  obtain ⟨P, eP, p1, p2, p3⟩ := C180_meshes d h [d.tri, e.tri] (by simp)
  obtain ⟨Q, eQ, q1, q2, q3⟩ := C180_meshes e h' [d.tri, e.tri] (by simp)
  rw [ho] at eQ
  refine ⟨P, Q, ?_, p1, p2, p3, q1, q2, q3⟩
  simp only [List.map_cons, List.map_nil] at eP eQ
  simp [rayIntersectTriangleBatch, eP, eQ]

/-- A triangle that can be drawn and is not rejected, with the origin in its plane. -/
example : ∃ d : DrawnRay.Draw, d.Ok ∧ DrawnRay.Kept d.tri ∧ ¬ Geo.Degenerate d.tri ∧ (Geo.normal d.tri).dot (d.tri.a - d.origin) = 0 := by
  refine ⟨⟨⟨0, 0, 0⟩, ⟨10, 10, 10⟩, ⟨183 / 10, 39 / 2, 297 / 10⟩, ⟨273 / 10, 51 / 2, 167 / 10⟩, 1 / 2, 1 / 2⟩, ?_, ?_, ?_, ?_⟩
  · constructor <;> norm_num [Within]
  · constructor
    · norm_num [AllClose, Draw.tri, abs_of_nonneg, abs_of_nonpos]
    · norm_num [AllClose, Draw.tri, abs_of_nonneg, abs_of_nonpos]
    · norm_num [AllClose, Draw.tri, abs_of_nonneg, abs_of_nonpos]
    · rintro ⟨h, -, -⟩
      have e2 : Real.sqrt 900 = 30 := by rw [show (900 : ℝ) = 30 ^ 2 by norm_num, Real.sqrt_sq (by norm_num)]
      have e1 : (20 : ℝ) < Real.sqrt 600 := by
        rw [Real.lt_sqrt (by norm_num)]; norm_num
      norm_num [Draw.tri, V3.norm, V3.normSq, e2] at h
      have h1 : 10 / Real.sqrt 600 < 1 / 2 := by rw [div_lt_iff₀ (by linarith)]; linarith
      have := (abs_le.1 h).1
      linarith
  · intro h
    have := congrArg V3.x h
    norm_num [Geo.normal, Draw.tri, V3.cross] at this
  · norm_num [Geo.normal, Draw.tri, V3.cross, V3.dot]

/-- A triangle that can be drawn, with the origin not in its plane. -/
example : ∃ d : DrawnRay.Draw, d.Ok ∧ (Geo.normal d.tri).dot (d.tri.a - d.origin) ≠ 0 := by
  refine ⟨⟨⟨0, 0, 0⟩, ⟨10, 10, 10⟩, ⟨10, 10, 10⟩, ⟨10, 10, 10⟩, 1 / 2, 1 / 2⟩, ?_, ?_⟩
  · constructor <;> norm_num [Within]
  · norm_num [Geo.normal, Draw.tri, V3.cross, V3.dot]

namespace DrawnRay

/-- The distance computed for two lines whose closest points are `d` apart along the common normal `n`. -/
theorem distance_near (n v1 v2 c1 c2 : V3 ℝ) (d : ℝ) (hn : n.normSq = 1) (h1 : v1.normSq = 1) (o1 : n.dot v1 = 0) (o2 : n.dot v2 = 0)
    (hc : c2 - c1 = n.mulS d) (hd : 0 ≤ d) :
    ∃ D, Num.Is (distanceOfTwoLines (c1 + v1.mulS 2).num v1.num (c2 + v2.mulS 2).num v2.num) D ∧ d ≤ D ∧ D ≤ d + 2 / 10 ^ 8 ∧
      (1 / 10 ^ 8 < (v1.cross v2).norm → D = d) := by
  have hcr := (V3.is_num v1).cross (V3.is_num v2)
  have hncr := hcr.normN
  have hdd := (V3.is_num (c2 + v2.mulS 2)).sub (V3.is_num (c1 + v1.mulS 2))
  have hn1 := (V3.is_num v1).normN
  have ab : ∀ q : V3 ℝ, |q.norm| = q.norm := fun q => abs_of_nonneg (V3.norm_nonneg q)
  have c0 := Ray.isClose0_iff hncr
  have c1' := Ray.isClose0_iff hn1
  rw [ab] at c0 c1'
  have nv1 : v1.norm = 1 := by unfold V3.norm; rw [h1, Real.sqrt_one]
  have hx : c2.x - c1.x = n.x * d := congrArg V3.x hc
  have hy : c2.y - c1.y = n.y * d := congrArg V3.y hc
  have hz : c2.z - c1.z = n.z * d := congrArg V3.z hc
  -- the cross product is a multiple of the normal
  obtain ⟨k, kx, ky, kz⟩ : ∃ k, (v1.cross v2).x = k * n.x ∧ (v1.cross v2).y = k * n.y ∧ (v1.cross v2).z = k * n.z := by
    refine ⟨(v1.cross v2).dot n, ?_, ?_, ?_⟩ <;> simp only [V3.normSq, V3.dot, V3.cross] at hn o1 o2 ⊢
    · linear_combination (-(v1.y * v2.z - v1.z * v2.y)) * hn + (n.y * v2.z - n.z * v2.y) * o1 + (n.z * v1.y - n.y * v1.z) * o2
    · linear_combination (-(v1.z * v2.x - v1.x * v2.z)) * hn + (n.z * v2.x - n.x * v2.z) * o1 + (n.x * v1.z - n.z * v1.x) * o2
    · linear_combination (-(v1.x * v2.y - v1.y * v2.x)) * hn + (n.x * v2.y - n.y * v2.x) * o1 + (n.y * v1.x - n.x * v1.y) * o2
  have hnk : (v1.cross v2).norm = |k| := by
    unfold V3.norm
    rw [show (v1.cross v2).normSq = k ^ 2 * n.normSq by simp only [V3.normSq] at *; rw [kx, ky, kz]; ring, hn, mul_one, Real.sqrt_sq_eq_abs]
  by_cases hcl : 1 / 10 ^ 8 < (v1.cross v2).norm
  · have hne : (v1.cross v2).norm ≠ 0 := by intro h0; rw [h0] at hcl; norm_num at hcl
    refine ⟨d, ?_, le_refl _, by norm_num, fun _ => rfl⟩
    unfold distanceOfTwoLines
    simp only
    rw [if_neg (by rw [c0]; exact not_le.2 hcl)]
    refine ((hdd.dot hcr).abs.div hncr hne).congr ?_
    rw [div_eq_iff hne, hnk]
    have : (c2 + v2.mulS 2 - (c1 + v1.mulS 2)).dot (v1.cross v2) = d * k := by
      simp only [V3.dot, V3.sub_x, V3.sub_y, V3.sub_z, V3.add_x, V3.add_y, V3.add_z, V3.mulS_x, V3.mulS_y, V3.mulS_z, kx, ky, kz]
      simp only [V3.normSq, V3.dot] at hn o1 o2
      linear_combination k * n.x * hx + k * n.y * hy + k * n.z * hz + k * d * hn + 2 * k * o2 - 2 * k * o1
    rw [this, abs_mul, abs_of_nonneg hd]
  · refine ⟨((c2 + v2.mulS 2 - (c1 + v1.mulS 2)).cross v1).norm, ?_, ?_, ?_, fun h => absurd h hcl⟩
    · unfold distanceOfTwoLines
      simp only
      rw [if_pos (by rw [c0]; exact not_lt.1 hcl), if_neg (by rw [c1', nv1]; norm_num)]
      refine ((hdd.cross (V3.is_num v1)).normN.div hn1 (by rw [nv1]; norm_num)).congr ?_
      rw [nv1, div_one]
    all_goals
      have e : ((c2 + v2.mulS 2 - (c1 + v1.mulS 2)).cross v1).normSq = d ^ 2 + 4 * k ^ 2 := by
        have ex : ((c2 + v2.mulS 2 - (c1 + v1.mulS 2)).cross v1).x = d * (n.y * v1.z - n.z * v1.y) - 2 * (k * n.x) := by
          rw [← kx]; simp only [V3.cross, V3.sub_y, V3.sub_z, V3.add_y, V3.add_z, V3.mulS_y, V3.mulS_z]
          linear_combination v1.z * hy - v1.y * hz
        have ey : ((c2 + v2.mulS 2 - (c1 + v1.mulS 2)).cross v1).y = d * (n.z * v1.x - n.x * v1.z) - 2 * (k * n.y) := by
          rw [← ky]; simp only [V3.cross, V3.sub_x, V3.sub_z, V3.add_x, V3.add_z, V3.mulS_x, V3.mulS_z]
          linear_combination v1.x * hz - v1.z * hx
        have ez : ((c2 + v2.mulS 2 - (c1 + v1.mulS 2)).cross v1).z = d * (n.x * v1.y - n.y * v1.x) - 2 * (k * n.z) := by
          rw [← kz]; simp only [V3.cross, V3.sub_x, V3.sub_y, V3.add_x, V3.add_y, V3.mulS_x, V3.mulS_y]
          linear_combination v1.y * hx - v1.x * hy
        simp only [V3.normSq] at hn h1 ⊢
        rw [ex, ey, ez]
        simp only [V3.dot] at o1
        linear_combination (d ^ 2 * (v1.x ^ 2 + v1.y ^ 2 + v1.z ^ 2) + 4 * k ^ 2) * hn + d ^ 2 * h1 - d ^ 2 * (n.x * v1.x + n.y * v1.y + n.z * v1.z) * o1
      have hk : |k| ≤ 1 / 10 ^ 8 := by rw [← hnk]; exact not_lt.1 hcl
      unfold V3.norm
      rw [e]
    · refine Real.le_sqrt_of_sq_le ?_
      nlinarith [sq_nonneg k]
    · refine Real.sqrt_le_iff.2 ⟨by positivity, ?_⟩
      have := sq_abs k
      nlinarith [abs_nonneg k, mul_nonneg hd (abs_nonneg k)]

theorem normal_unit (d : LineDraw) : d.normal.normSq = 1 := by
  simp only [LineDraw.normal, V3.normSq]
  nlinarith [Real.sin_sq_add_cos_sq (rad d.theta), Real.sin_sq_add_cos_sq (rad d.phi)]

theorem dir_unit (d : LineDraw) (hk : d.normal.x ≠ 0) (φ : ℝ) : (d.dir φ).normSq = 1 ∧ d.normal.dot (d.dir φ) = 0 := by
  unfold LineDraw.dir
  generalize hv : (⟨(-d.normal.z * Real.sin (rad φ) - d.normal.y * Real.cos (rad φ)) / d.normal.x, Real.cos (rad φ), Real.sin (rad φ)⟩ : V3 ℝ) = v
  have hne : v ≠ ⟨0, 0, 0⟩ := by
    intro h
    have e1 := congrArg V3.y (hv.trans h)
    have e2 := congrArg V3.z (hv.trans h)
    simp only at e1 e2
    have := Real.sin_sq_add_cos_sq (rad φ)
    rw [e1, e2] at this
    norm_num at this
  have hp := (V3.norm_pos hne).ne'
  have hs := V3.norm_sq v
  simp only [hv]
  constructor
  · have : (v.divS v.norm).normSq = v.normSq / v.norm ^ 2 := by
      simp only [V3.normSq, V3.divS_x, V3.divS_y, V3.divS_z]; field_simp
    rw [this, hs, div_self]
    rw [← hs]; positivity
  · have : d.normal.dot (v.divS v.norm) = d.normal.dot v / v.norm := by
      simp only [V3.dot, V3.divS_x, V3.divS_y, V3.divS_z]; ring
    rw [this, ← hv]
    have e : d.normal.dot ⟨(-d.normal.z * Real.sin (rad φ) - d.normal.y * Real.cos (rad φ)) / d.normal.x, Real.cos (rad φ), Real.sin (rad φ)⟩ = 0 := by
      simp only [V3.dot]; field_simp; ring
    rw [e, zero_div]

end DrawnRay

/-- **C180** tests/test_ray.py:111-134 `test_lineDistance` with one pair of lines: the closest point of the first line is the point that was drawn; the distance is
the one that was drawn up to 2e-8 (and exactly, unless the lines are almost parallel); the intersection is the point in the middle, or nan for parallel lines. -/
theorem C180_lines (d : LineDraw) (h : d.Ok) (hk : d.Kept) :
    (getClosestPointFromLine d.o1.num (d.dir d.phi1).num d.c2.num).2.Is d.c1 ∧
    (∃ D, Num.Is (distanceOfTwoLines d.o1.num (d.dir d.phi1).num d.o2.num (d.dir d.phi2).num) D ∧ |D - d.distance| ≤ 2 / 10 ^ 8 ∧
      (1 / 10 ^ 8 < ((d.dir d.phi1).cross (d.dir d.phi2)).norm → D = d.distance)) ∧
    ((d.dir d.phi1).cross (d.dir d.phi2) ≠ ⟨0, 0, 0⟩ → (intersectionSingle d.o1.num (d.dir d.phi1).num d.o2.num (d.dir d.phi2).num).Is d.origin) ∧
    ((d.dir d.phi1).cross (d.dir d.phi2) = ⟨0, 0, 0⟩ → intersectionSingle d.o1.num (d.dir d.phi1).num d.o2.num (d.dir d.phi2).num = V3.nan) := by
  have hx : d.normal.x ≠ 0 := by
    intro h0
    have := hk.x
    rw [h0] at this
    norm_num at this
  obtain ⟨u1, n1⟩ := dir_unit d hx d.phi1
  have n2 := (dir_unit d hx d.phi2).2
  have hn := normal_unit d
  have hc : d.c2 - d.c1 = d.normal.mulS d.distance := by
    ext <;> simp [LineDraw.c1, LineDraw.c2] <;> ring
  unfold LineDraw.o1 LineDraw.o2
  have hmid : (d.c1 + d.c2).divS 2 = d.origin := by
    ext <;> simp [LineDraw.c1, LineDraw.c2]
  generalize d.dir d.phi1 = v1 at *
  generalize d.dir d.phi2 = v2 at *
  generalize d.normal = n at *
  generalize d.c1 = c1 at *
  generalize d.c2 = c2 at *
  have hd := h.distance.1
  have hx' : c2.x - c1.x = n.x * d.distance := congrArg V3.x hc
  have hy' : c2.y - c1.y = n.y * d.distance := congrArg V3.y hc
  have hz' : c2.z - c1.z = n.z * d.distance := congrArg V3.z hc
  refine ⟨?_, ?_, fun hne => ?_, (C31_intersection_of_two_lines _ _ _ _).2⟩
  · have nv1 : v1.norm = 1 := by unfold V3.norm; rw [u1, Real.sqrt_one]
    have hr := (V3.is_num v1).divS (V3.is_num v1).normN (by rw [nv1]; norm_num)
    have hd := (V3.is_num c2).sub (V3.is_num (c1 + v1.mulS 2))
    have h := (V3.is_num (c1 + v1.mulS 2)).add (hr.mulS (hr.dot hd))
    refine h.congr ?_
    have e : (v1.divS v1.norm).dot (c2 - (c1 + v1.mulS 2)) = -2 := by
      rw [nv1]
      simp only [V3.dot, V3.normSq, V3.divS_x, V3.divS_y, V3.divS_z, V3.sub_x, V3.sub_y, V3.sub_z, V3.add_x, V3.add_y, V3.add_z, V3.mulS_x, V3.mulS_y, V3.mulS_z,
        div_one] at u1 n1 ⊢
      linear_combination v1.x * hx' + v1.y * hy' + v1.z * hz' + d.distance * n1 - 2 * u1
    rw [e, nv1]
    ext <;> simp
  · obtain ⟨D, hD, h1, h2, h3⟩ := distance_near n v1 v2 c1 c2 d.distance hn u1 n1 n2 hc hd
    exact ⟨D, hD, by rw [abs_of_nonneg (by linarith)]; linarith, h3⟩
  · obtain ⟨s, t, hmin, hP, -⟩ := (C31_intersection_of_two_lines (c1 + v1.mulS 2) v1 (c2 + v2.mulS 2) v2).1 hne
    have hm := hmin (-2) (-2)
    have e0 : V3.dist (Geo.at' (c1 + v1.mulS 2) v1 (-2)) (Geo.at' (c2 + v2.mulS 2) v2 (-2)) = Real.sqrt (d.distance ^ 2) := by
      unfold V3.dist V3.norm
      congr 1
      simp only [V3.normSq, Geo.at', V3.sub_x, V3.sub_y, V3.sub_z, V3.add_x, V3.add_y, V3.add_z, V3.mulS_x, V3.mulS_y, V3.mulS_z] at hn ⊢
      rw [show c1.x + v1.x * 2 + -2 * v1.x - (c2.x + v2.x * 2 + -2 * v2.x) = -(n.x * d.distance) by rw [← hx']; ring,
        show c1.y + v1.y * 2 + -2 * v1.y - (c2.y + v2.y * 2 + -2 * v2.y) = -(n.y * d.distance) by rw [← hy']; ring,
        show c1.z + v1.z * 2 + -2 * v1.z - (c2.z + v2.z * 2 + -2 * v2.z) = -(n.z * d.distance) by rw [← hz']; ring]
      linear_combination d.distance ^ 2 * hn
    have e1 : V3.dist (Geo.at' (c1 + v1.mulS 2) v1 s) (Geo.at' (c2 + v2.mulS 2) v2 t) =
        Real.sqrt (d.distance ^ 2 + (v1.mulS (s + 2) - v2.mulS (t + 2)).normSq) := by
      unfold V3.dist V3.norm
      congr 1
      simp only [V3.normSq, V3.dot, Geo.at', V3.sub_x, V3.sub_y, V3.sub_z, V3.add_x, V3.add_y, V3.add_z, V3.mulS_x, V3.mulS_y, V3.mulS_z] at hn n1 n2 ⊢
      rw [show c1.x + v1.x * 2 + s * v1.x - (c2.x + v2.x * 2 + t * v2.x) = v1.x * (s + 2) - v2.x * (t + 2) - (n.x * d.distance) by rw [← hx']; ring,
        show c1.y + v1.y * 2 + s * v1.y - (c2.y + v2.y * 2 + t * v2.y) = v1.y * (s + 2) - v2.y * (t + 2) - (n.y * d.distance) by rw [← hy']; ring,
        show c1.z + v1.z * 2 + s * v1.z - (c2.z + v2.z * 2 + t * v2.z) = v1.z * (s + 2) - v2.z * (t + 2) - (n.z * d.distance) by rw [← hz']; ring]
      linear_combination d.distance ^ 2 * hn - 2 * d.distance * (s + 2) * n1 + 2 * d.distance * (t + 2) * n2
    rw [e0, e1] at hm
    have hm' := (Real.sqrt_le_sqrt_iff (by positivity)).1 hm
    have hw : v1.mulS (s + 2) - v2.mulS (t + 2) = ⟨0, 0, 0⟩ :=
      V3.normSq_eq_zero.1 (le_antisymm (by linarith) (V3.normSq_nonneg _))
    have wx : v1.x * (s + 2) - v2.x * (t + 2) = 0 := congrArg V3.x hw
    have wy : v1.y * (s + 2) - v2.y * (t + 2) = 0 := congrArg V3.y hw
    have wz : v1.z * (s + 2) - v2.z * (t + 2) = 0 := congrArg V3.z hw
    have hs : s = -2 := by
      by_contra hs
      have hs' : s + 2 ≠ 0 := fun h => hs (by linarith)
      refine hne ?_
      ext
      · refine (mul_eq_zero.1 (?_ : (s + 2) * _ = 0)).resolve_left hs'
        simp only [V3.cross]; linear_combination v2.z * wy - v2.y * wz
      · refine (mul_eq_zero.1 (?_ : (s + 2) * _ = 0)).resolve_left hs'
        simp only [V3.cross]; linear_combination v2.x * wz - v2.z * wx
      · refine (mul_eq_zero.1 (?_ : (s + 2) * _ = 0)).resolve_left hs'
        simp only [V3.cross]; linear_combination v2.y * wx - v2.x * wy
    have ht : t = -2 := by
      by_contra ht
      have ht' : t + 2 ≠ 0 := fun h => ht (by linarith)
      refine hne ?_
      ext
      · refine (mul_eq_zero.1 (?_ : (t + 2) * _ = 0)).resolve_left ht'
        simp only [V3.cross]; linear_combination v1.z * wy - v1.y * wz
      · refine (mul_eq_zero.1 (?_ : (t + 2) * _ = 0)).resolve_left ht'
        simp only [V3.cross]; linear_combination v1.x * wz - v1.z * wx
      · refine (mul_eq_zero.1 (?_ : (t + 2) * _ = 0)).resolve_left ht'
        simp only [V3.cross]; linear_combination v1.y * wx - v1.x * wy
    refine hP.congr ?_
    rw [hs, ht, ← hmid]
    ext <;> simp [Geo.at'] <;> ring

/-- Two lines that can be drawn. -/
example : ∃ d : LineDraw, d.Ok ∧ d.Kept ∧ (d.dir d.phi1).cross (d.dir d.phi2) ≠ ⟨0, 0, 0⟩ := by
  have r90 : DrawnRay.rad 90 = Real.pi / 2 := by unfold DrawnRay.rad; ring
  have r0 : DrawnRay.rad 0 = 0 := by unfold DrawnRay.rad; ring
  refine ⟨⟨⟨0, 0, 0⟩, 90, 0, 0, 90, 1⟩, ?_, ?_, ?_⟩
  · constructor <;> norm_num [Within]
  · constructor <;> norm_num [LineDraw.normal, LineDraw.dir, Below, r90, r0, V3.norm, V3.normSq]
  · intro h
    have := congrArg V3.x h
    norm_num [LineDraw.normal, LineDraw.dir, r90, r0, V3.norm, V3.normSq, V3.cross] at this

/-- **C180** tests/test_ray.py:136-148 `test_extrudeLine`: the areas of the triangles of a wall of height 1 add up to the length of the line. -/
theorem C180_extrude (pts : List (V2 ℝ)) :
    ∃ areas : List ℝ, List.Forall₂ (fun T r => Num.Is (areaOfTriangle T) r) ((extrudeLine pts 0 1).map Tri.num) areas ∧
      areas.sum = ((Geo.segments pts).map Geo.segLength).sum := by
  refine ⟨(extrudeLine pts 0 1).map Geo.triArea, ?_, ?_⟩
  · rw [List.forall₂_map_left_iff, List.forall₂_map_right_iff, List.forall₂_same]
    exact fun T _ => C25_triangle_area T
  · rw [(C36_wall_partial pts 0 1).2.1]
    simp

/-- **C180** Which lines tests/strategies.py:172-173, 182-185 keeps: of each two of the three directions, some coordinate of the first exceeds
that of the second by a hundredth. -/
theorem C180_kept (d : LineDraw) : d.Kept ↔ 1 / 10 ^ 20 ≤ |d.normal.x| ∧
    ∀ p ∈ [(d.normal, d.dir d.phi1), (d.normal, d.dir d.phi2), (d.dir d.phi1, d.dir d.phi2)],
      ∃ c ∈ [V3.x, V3.y, V3.z], (1 / 100 : ℝ) ≤ c p.1 - c p.2 := by
  have key : ∀ x y : V3 ℝ, ¬ Below x y ↔ ∃ c ∈ [V3.x, V3.y, V3.z], (1 / 100 : ℝ) ≤ c x - c y := by
    intro x y
    simp only [Below, not_and_or, not_lt, List.mem_cons, List.not_mem_nil, or_false, exists_eq_or_imp, exists_eq_left]
  constructor
  · intro h
    refine ⟨h.x, ?_⟩
    intro p hp
    simp only [List.mem_cons, List.not_mem_nil, or_false] at hp
    rcases hp with rfl | rfl | rfl
    · exact (key _ _).1 h.n1
    · exact (key _ _).1 h.n2
    · exact (key _ _).1 h.dirs
  · rintro ⟨hx, h⟩
    exact ⟨hx, (key _ _).2 (h (d.normal, d.dir d.phi1) (by simp)), (key _ _).2 (h (d.normal, d.dir d.phi2) (by simp)),
      (key _ _).2 (h (d.dir d.phi1, d.dir d.phi2) (by simp))⟩

open DrawnRay in
/-- **C180** Which triangles tests/test_ray.py:53-62 keeps: of each two of the corners and of the two normed sides, some coordinate differs by more than a
thousandth of the second. -/
theorem C180_triangles (T : Ray.Tri ℝ) : Kept T ↔
    ∀ p ∈ [(T.a, T.b), (T.a, T.c), (T.b, T.c), ((T.b - T.a).divS (T.b - T.a).norm, (T.c - T.a).divS (T.c - T.a).norm)],
      ∃ c ∈ [V3.x, V3.y, V3.z], (1 / 10 ^ 8 + 1 / 1000 * |c p.2| : ℝ) < |c p.1 - c p.2| := by
  have key : ∀ x y : V3 ℝ, ¬ AllClose x y ↔ ∃ c ∈ [V3.x, V3.y, V3.z], (1 / 10 ^ 8 + 1 / 1000 * |c y| : ℝ) < |c x - c y| := by
    intro x y
    simp only [AllClose, not_and_or, not_le, List.mem_cons, List.not_mem_nil, or_false, exists_eq_or_imp, exists_eq_left]
  constructor
  · intro h p hp
    simp only [List.mem_cons, List.not_mem_nil, or_false] at hp
    rcases hp with rfl | rfl | rfl | rfl
    · exact (key _ _).1 h.ab
    · exact (key _ _).1 h.ac
    · exact (key _ _).1 h.bc
    · exact (key _ _).1 h.dirs
  · intro h
    exact ⟨(key _ _).2 (h (T.a, T.b) (by simp)), (key _ _).2 (h (T.a, T.c) (by simp)), (key _ _).2 (h (T.b, T.c) (by simp)), (key _ _).2 (h (_, _) (.tail _ (.tail _ (.tail _ (.head _)))))⟩
