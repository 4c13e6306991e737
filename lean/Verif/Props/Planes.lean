import Verif.Props.Ray
import Verif.Spec.Planes

/-! # Rays and planes, rays in the plane of a triangle, and several rays -/

open Num Ray Classical

namespace Ray

theorem onPlane_iff {T : Tri ℝ} (hn : ¬ Geo.Degenerate T) (o d : V3 ℝ) (r : ℝ) :
    Geo.OnPlane T (Geo.at' o d r) ↔ r * (Geo.normal T).dot d = (Geo.normal T).dot (T.a - o) := by
  have h1 : (Geo.normal T).dot (o + d.mulS r - T.a) =
      r * (Geo.normal T).dot d - (Geo.normal T).dot (T.a - o) := by
    simp only [V3.dot, V3.add_x, V3.add_y, V3.add_z, V3.sub_x, V3.sub_y, V3.sub_z, V3.mulS_x, V3.mulS_y, V3.mulS_z]; ring
  constructor
  · rintro ⟨s, t, hx, hy, hz⟩
    simp only [Geo.at'] at hx hy hz
    simp only [V3.dot, Geo.normal, V3.cross, V3.sub_x, V3.sub_y, V3.sub_z]
    linear_combination ((T.b.y - T.a.y) * (T.c.z - T.a.z) - (T.b.z - T.a.z) * (T.c.y - T.a.y)) * hx +
      ((T.b.z - T.a.z) * (T.c.x - T.a.x) - (T.b.x - T.a.x) * (T.c.z - T.a.z)) * hy +
      ((T.b.x - T.a.x) * (T.c.y - T.a.y) - (T.b.y - T.a.y) * (T.c.x - T.a.x)) * hz
  · intro h
    have hp : (Geo.normal T).dot (o + d.mulS r - T.a) = 0 := by rw [h1, h, sub_self]
    have hN : (Geo.normal T).normSq ≠ 0 := (V3.normSq_pos hn).ne'
    obtain ⟨cx, cy, cz⟩ := plane_coords (T.b - T.a) (T.c - T.a) (o + d.mulS r - T.a) hp
    change (Geo.normal T).normSq * _ = _ at cx
    change (Geo.normal T).normSq * _ = _ at cy
    change (Geo.normal T).normSq * _ = _ at cz
    generalize (Geo.normal T).normSq = N at cx cy cz hN
    generalize ((o + d.mulS r - T.a).cross (T.c - T.a)).dot ((T.b - T.a).cross (T.c - T.a)) = S at cx cy cz
    generalize ((T.b - T.a).cross (o + d.mulS r - T.a)).dot ((T.b - T.a).cross (T.c - T.a)) = U at cx cy cz
    simp only [V3.add_x, V3.add_y, V3.add_z, V3.sub_x, V3.sub_y, V3.sub_z, V3.mulS_x, V3.mulS_y, V3.mulS_z] at cx cy cz
    refine ⟨S / N, U / N, ?_, ?_, ?_⟩ <;> simp only [Geo.at'] <;> field_simp
    · linear_combination cx
    · linear_combination cy
    · linear_combination cz

/-- The entry with `use_planes`. -/
theorem hitParam_true (o d : V3 Num) (T : Tri Num) {b a : Num} (hb : ((T.b - T.a).cross (T.c - T.a)).dot d = b)
    (ha : ((T.b - T.a).cross (T.c - T.a)).dot (T.a - o) = a) :
    (b.eqv (fin 0) → ¬ a.eqv (fin 0) → hitParam o d T true = nan) ∧
    (b.eqv (fin 0) → a.eqv (fin 0) → hitParam o d T true = fin 0) ∧
    (¬ b.eqv (fin 0) → hitParam o d T true = if a / b < fin 0 then nan else a / b) := by
  have e : hitParam o d T true =
      let r := a / b
      let r := if Num.eqv b (.fin 0) ∧ ¬ Num.eqv a (.fin 0) then .nan else r
      let r := if Num.eqv b (.fin 0) ∧ Num.eqv a (.fin 0) then .fin 0 else r
      if r < .fin 0 then .nan else r := by
    rw [← hb, ← ha]; rfl
  have e3 : ¬ (fin 0 < fin 0) := by rw [(is_fin 0).lt_iff (is_fin 0)]; exact lt_irrefl _
  rw [e]
  refine ⟨fun h1 h2 => ?_, fun h1 h2 => ?_, fun h1 => ?_⟩
  · simp only [h1, h2, not_false_eq_true, and_self, if_true, and_false, if_false, not_nan_lt]
  · simp only [h1, h2, and_self, if_true, e3, if_false]
  · simp only [h1, false_and, if_false]

/-- The entry without `use_planes`: the entry with `use_planes`, if it lies in the triangle. -/
theorem hitParam_false (o d : V3 Num) (T : Tri Num) {r : Num} (hr : hitParam o d T true = r) :
    hitParam o d T =
      let u := T.b - T.a
      let v := T.c - T.a
      let w := o + d.mulS r - T.a
      let denom := u.dot v * u.dot v - u.dot u * v.dot v
      let si := (u.dot v * w.dot v - v.dot v * w.dot u) / denom
      let r := if si < .fin 0 ∨ .fin 1 < si then .nan else r
      let ti := (u.dot v * w.dot u - u.dot u * w.dot v) / denom
      if ti < .fin 0 ∨ .fin 1 < si + ti then .nan else r := by
  rw [← hr]; rfl

/-- With `use_planes` the entry of a triangle is the first parameter at which the ray meets its plane. -/
theorem hitParam_plane {o d : V3 Num} {O D : V3 ℝ} (ho : o.Is O) (hd : d.Is D) {T : Tri ℝ} (hn : ¬ Geo.Degenerate T) :
    (∃ r, Geo.HitPlane O D T r ∧ (∀ r', Geo.HitPlane O D T r' → r ≤ r') ∧ Num.Is (hitParam o d T.num true) r) ∨
    ((∀ r, ¬ Geo.HitPlane O D T r) ∧ hitParam o d T.num true = nan) := by
  have hb := (is_normal T).dot hd
  have ha := (is_normal T).dot ((V3.is_num T.a).sub ho)
  obtain ⟨k1, k2, k3⟩ := hitParam_true o d T.num rfl rfl
  have kb := hb.eqv_iff (is_fin 0)
  have ka := ha.eqv_iff (is_fin 0)
  by_cases hb0 : (Geo.normal T).dot D = 0
  · by_cases ha0 : (Geo.normal T).dot (T.a - O) = 0
    · left
      refine ⟨0, ⟨le_rfl, ?_⟩, fun r' h => h.1, ?_⟩
      · rw [onPlane_iff hn, ha0, zero_mul]
      · rw [k2 (kb.2 hb0) (ka.2 ha0)]
        exact is_fin 0
    · right
      refine ⟨fun r h => ?_, ?_⟩
      · have := (onPlane_iff hn O D r).1 h.2
        rw [hb0, mul_zero] at this
        exact ha0 this.symm
      · exact k1 (kb.2 hb0) fun h => ha0 (ka.1 h)
  · have hr := ha.div hb hb0
    rw [k3 fun h => hb0 (kb.1 h)]
    have hon : ∀ r, Geo.OnPlane T (Geo.at' O D r) ↔ r = (Geo.normal T).dot (T.a - O) / (Geo.normal T).dot D := by
      intro r
      rw [onPlane_iff hn, eq_div_iff hb0]
    by_cases hneg : (Geo.normal T).dot (T.a - O) / (Geo.normal T).dot D < 0
    · right
      refine ⟨fun r h => ?_, ?_⟩
      · have := h.1
        rw [(hon r).1 h.2] at this
        linarith
      · exact if_pos ((hr.lt_iff (is_fin 0)).2 hneg)
    · left
      refine ⟨_, ⟨not_lt.1 hneg, (hon _).2 rfl⟩, fun r' h => ((hon r').1 h.2).ge, ?_⟩
      exact (if_neg fun h => hneg ((hr.lt_iff (is_fin 0)).1 h)).symm ▸ hr

/-- The entry of a triangle whose plane contains the ray: 0 if the ray starts in the triangle, otherwise nan. -/
theorem hitParam_coplanar {o d : V3 Num} {O D : V3 ℝ} (ho : o.Is O) (hd : d.Is D) {T : Tri ℝ} (hn : ¬ Geo.Degenerate T)
    (hc : Geo.Coplanar O D T) :
    (Geo.InTri T O → Num.Is (hitParam o d T.num) 0) ∧ (¬ Geo.InTri T O → hitParam o d T.num = nan) := by
  have hb := (is_normal T).dot hd
  have ha := (is_normal T).dot ((V3.is_num T.a).sub ho)
  have iu := (V3.is_num T.b).sub (V3.is_num T.a)
  have iv := (V3.is_num T.c).sub (V3.is_num T.a)
  have iw := (ho.add (hd.mulS (is_fin 0))).sub (V3.is_num T.a)
  have hNp : 0 < (Geo.normal T).normSq := V3.normSq_pos hn
  have hden0 : (T.b - T.a).dot (T.c - T.a) * (T.b - T.a).dot (T.c - T.a) -
      (T.b - T.a).dot (T.b - T.a) * (T.c - T.a).dot (T.c - T.a) ≠ 0 := by rw [denom_eq]; linarith
  have iden := ((iu.dot iv).mul (iu.dot iv)).sub ((iu.dot iu).mul (iv.dot iv))
  have is := (((iu.dot iv).mul (iw.dot iv)).sub ((iv.dot iv).mul (iw.dot iu))).div iden hden0
  have it := (((iu.dot iv).mul (iw.dot iu)).sub ((iu.dot iu).mul (iw.dot iv))).div iden hden0
  have hpl : (Geo.normal T).dot (O + D.mulS 0 - T.a) = 0 := by
    have hc2 := hc.2
    simp only [V3.dot, V3.add_x, V3.add_y, V3.add_z, V3.sub_x, V3.sub_y, V3.sub_z, V3.mulS_x, V3.mulS_y, V3.mulS_z] at hc2 ⊢; linarith
  have htri := inTri_iff O D T 0 hn hpl
  have e0 : Geo.at' O D 0 = O := by ext <;> simp [Geo.at']
  rw [e0] at htri
  have c1 := is.lt_iff (is_fin 0)
  have c2 := (is_fin 1).lt_iff is
  have c3 := it.lt_iff (is_fin 0)
  have c4 := (is_fin 1).lt_iff (is.add it)
  have e1 : Num.eqv (((T.num.b - T.num.a).cross (T.num.c - T.num.a)).dot d) (fin 0) := (hb.eqv_iff (is_fin 0)).2 hc.1
  have e2 : Num.eqv (((T.num.b - T.num.a).cross (T.num.c - T.num.a)).dot (T.num.a - o)) (fin 0) :=
    (ha.eqv_iff (is_fin 0)).2 hc.2
  have hp := hitParam_false o d T.num ((hitParam_true o d T.num rfl rfl).2.1 e1 e2)
  rw [hp]
  constructor
  · intro hin
    obtain ⟨g1, g2, g3⟩ := htri.1 hin
    simp only [siR, tiR] at g1 g2 g3
    simp only
    rw [if_neg, if_neg]
    · exact is_fin 0
    · rw [not_or]
      exact ⟨fun h => absurd (c1.1 h) (not_lt.2 g1), fun h => absurd (c2.1 h) (by linarith)⟩
    · rw [not_or]
      exact ⟨fun h => absurd (c3.1 h) (not_lt.2 g2), fun h => absurd (c4.1 h) (not_lt.2 g3)⟩
  · intro hin
    simp only
    split_ifs with h5 h6
    · rfl
    · rfl
    · exfalso
      apply hin
      rw [htri]
      rw [not_or] at h5 h6
      simp only [siR, tiR]
      refine ⟨not_lt.1 fun h => h6.1 (c1.2 h), not_lt.1 fun h => h5.1 (c3.2 h), not_lt.1 fun h => h5.2 (c4.2 h)⟩

/-- The result for a list of triangles, if the entry of each of them is the first parameter of a hit. -/
theorem nearest_of {O D : V3 ℝ} {mesh : List (Tri ℝ)} {up : Bool} (hit : Tri ℝ → ℝ → Prop)
    (h : ∀ T ∈ mesh, (∃ r, hit T r ∧ (∀ r', hit T r' → r ≤ r') ∧ Num.Is (hitParam O.num D.num T.num up) r) ∨
      ((∀ r, ¬ hit T r) ∧ hitParam O.num D.num T.num up = nan)) (hne : mesh ≠ []) :
    (∃ P Q, Geo.Nearest O D hit mesh Q ∧ rayIntersectTriangle O.num D.num (mesh.map Tri.num) up = some P ∧ P.Is Q) ∨
    ((∀ T ∈ mesh, ∀ r, ¬ hit T r) ∧ rayIntersectTriangle O.num D.num (mesh.map Tri.num) up = some (O.num + D.num.mulS pinf)) := by
  have hfirst : ∃ T ∈ mesh, rayIntersectTriangle O.num D.num (mesh.map Tri.num) up =
      some (O.num + D.num.mulS (nanToInf (hitParam O.num D.num T.num up))) ∧
      ∀ S ∈ mesh, ext (nanToInf (hitParam O.num D.num T.num up)) ≤ ext (nanToInf (hitParam O.num D.num S.num up)) := by
    unfold rayIntersectTriangle
    cases mesh with
    | nil => exact absurd rfl hne
    | cons T Ts =>
      simp only [List.map_cons, List.map_map]
      obtain ⟨h1, h2⟩ := firstMin_spec (Ts.map ((fun T => nanToInf (hitParam O.num D.num T up)) ∘ Tri.num))
        (nanToInf (hitParam O.num D.num T.num up))
        (nanToInf_ne _) (by intro x hx; obtain ⟨T', -, rfl⟩ := List.mem_map.1 hx; exact nanToInf_ne _)
      have h1' : firstMin (nanToInf (hitParam O.num D.num T.num up))
          (Ts.map ((fun T => nanToInf (hitParam O.num D.num T up)) ∘ Tri.num)) ∈
          (T :: Ts).map ((fun T => nanToInf (hitParam O.num D.num T up)) ∘ Tri.num) := h1
      obtain ⟨T', hT', e⟩ := List.mem_map.1 h1'
      refine ⟨T', hT', by rw [← e]; rfl, ?_⟩
      intro S hS
      have e' : nanToInf (hitParam O.num D.num T'.num up) = _ := e
      rw [e']
      exact h2 _ (by
        have : nanToInf (hitParam O.num D.num S.num up) ∈
            (T :: Ts).map ((fun T => nanToInf (hitParam O.num D.num T up)) ∘ Tri.num) := List.mem_map.2 ⟨S, hS, rfl⟩
        exact this)
  obtain ⟨T, hT, e, hmin⟩ := hfirst
  rcases h T hT with ⟨r, h1, h2, h3⟩ | ⟨h1, h2⟩
  · left
    have h3' : Num.Is (nanToInf (hitParam O.num D.num T.num up)) r := by
      unfold nanToInf; rw [if_neg h3.ne_nan]; exact h3
    refine ⟨_, Geo.at' O D r, ⟨r, rfl, ⟨T, hT, h1⟩, ?_⟩, e, ?_⟩
    · intro S hS r' hr'
      rcases h S hS with ⟨q, g1, g2, g3⟩ | ⟨g1, -⟩
      · have g3' : Num.Is (nanToInf (hitParam O.num D.num S.num up)) q := by
          unfold nanToInf; rw [if_neg g3.ne_nan]; exact g3
        have := hmin S hS
        rw [h3'.ext_eq, g3'.ext_eq] at this
        have : r ≤ q := by exact_mod_cast this
        exact this.trans (g2 r' hr')
      · exact absurd hr' (g1 r')
    · refine ((V3.is_num O).add ((V3.is_num D).mulS h3')).congr ?_
      ext <;> simp [Geo.at'] <;> ring
  · right
    refine ⟨fun S hS r hr => ?_, ?_⟩
    · rcases h S hS with ⟨q, g1, g2, g3⟩ | ⟨g1, -⟩
      · have g3' : Num.Is (nanToInf (hitParam O.num D.num S.num up)) q := by
          unfold nanToInf; rw [if_neg g3.ne_nan]; exact g3
        have := hmin S hS
        rw [h2, g3'.ext_eq] at this
        simp [nanToInf, Num.ext] at this
      · exact g1 r hr
    · rw [e, h2]; simp [nanToInf]

end Ray

/-- **C121** With `use_planes` the nearest point in which the ray meets one of the planes is returned; if it meets none of
them, the coordinates of the result are not finite.  No exception for rays that lie in one of the planes. -/
theorem C121_planes (O D : V3 ℝ) (mesh : List (Tri ℝ)) (hne : mesh ≠ []) (hn : ∀ T ∈ mesh, ¬ Geo.Degenerate T) :
    ∃ P, rayIntersectTriangle O.num D.num (mesh.map Tri.num) true = some P ∧
      ((∃ T ∈ mesh, ∃ r, Geo.HitPlane O D T r) → ∃ Q, Geo.Nearest O D (Geo.HitPlane O D) mesh Q ∧ P.Is Q) ∧
      ((∀ T ∈ mesh, ∀ r, ¬ Geo.HitPlane O D T r) → ¬ P.x.Finite ∧ ¬ P.y.Finite ∧ ¬ P.z.Finite) := by
  rcases nearest_of (O := O) (D := D) (up := true) (Geo.HitPlane O D)
    (fun T hT => hitParam_plane (V3.is_num O) (V3.is_num D) (hn T hT)) hne with ⟨P, Q, h1, h2, h3⟩ | ⟨h1, h2⟩
  · refine ⟨P, h2, fun _ => ⟨Q, h1, h3⟩, fun h => ?_⟩
    obtain ⟨r, -, ⟨T, hT, hr⟩, -⟩ := h1
    exact absurd hr (h T hT r)
  · refine ⟨_, h2, fun ⟨T, hT, r, hr⟩ => absurd hr (h1 T hT r), fun _ => ?_⟩
    exact ⟨(Ray.inf_coord O.x D.x).1, (Ray.inf_coord O.y D.y).1, (Ray.inf_coord O.z D.z).1⟩

/-- **C121** (partial) The nearest hit is returned also if the ray lies in the planes of some of the triangles, as long as
it starts in those of them that it meets.  Missing: the rays that enter a triangle of their plane from outside. -/
theorem C121_in_plane_partial (O D : V3 ℝ) (mesh : List (Tri ℝ)) (hne : mesh ≠ []) (hn : ∀ T ∈ mesh, ¬ Geo.Degenerate T)
    (hc : ∀ T ∈ mesh, Geo.Coplanar O D T → (∃ r, Geo.Hit O D T r) → Geo.InTri T O) :
    ∃ P, rayIntersectTriangle O.num D.num (mesh.map Tri.num) = some P ∧
      ((∃ T ∈ mesh, ∃ r, Geo.Hit O D T r) → ∃ Q, Geo.Nearest O D (Geo.Hit O D) mesh Q ∧ P.Is Q) ∧
      ((∀ T ∈ mesh, ∀ r, ¬ Geo.Hit O D T r) → ¬ P.x.Finite ∧ ¬ P.y.Finite ∧ ¬ P.z.Finite) := by
  have e0 : Geo.at' O D 0 = O := by ext <;> simp [Geo.at']
  have hall : ∀ T ∈ mesh, (∃ r, Geo.Hit O D T r ∧ (∀ r', Geo.Hit O D T r' → r ≤ r') ∧
      Num.Is (hitParam O.num D.num T.num) r) ∨ ((∀ r, ¬ Geo.Hit O D T r) ∧ hitParam O.num D.num T.num = nan) := by
    intro T hT
    by_cases hco : Geo.Coplanar O D T
    · obtain ⟨g1, g2⟩ := hitParam_coplanar (V3.is_num O) (V3.is_num D) (hn T hT) hco
      by_cases hin : Geo.InTri T O
      · exact .inl ⟨0, ⟨le_rfl, by rw [e0]; exact hin⟩, fun r' h => h.1, g1 hin⟩
      · exact .inr ⟨fun r hr => hin (hc T hT hco ⟨r, hr⟩), g2 hin⟩
    · rcases hitParam_spec (V3.is_num O) (V3.is_num D) (hn T hT) hco with ⟨r, h1, h2⟩ | ⟨h1, h2⟩
      · exact .inl ⟨r, h1, fun r' h => ((hit_param hco h1).2.trans (hit_param hco h).2.symm).le, h2⟩
      · exact .inr ⟨h1, h2⟩
  rcases nearest_of (O := O) (D := D) (up := false) (Geo.Hit O D) hall hne with ⟨P, Q, h1, h2, h3⟩ | ⟨h1, h2⟩
  · refine ⟨P, h2, fun _ => ⟨Q, h1, h3⟩, fun h => ?_⟩
    obtain ⟨r, -, ⟨T, hT, hr⟩, -⟩ := h1
    exact absurd hr (h T hT r)
  · refine ⟨_, h2, fun ⟨T, hT, r, hr⟩ => absurd hr (h1 T hT r), fun _ => ?_⟩
    exact ⟨(Ray.inf_coord O.x D.x).1, (Ray.inf_coord O.y D.y).1, (Ray.inf_coord O.z D.z).1⟩

/-- **C121** is violated: a ray that runs in the plane of a triangle and starts outside of it never hits this triangle,
even if it runs through it. -/
theorem C121_violated (O D : V3 ℝ) (T : Tri ℝ) (hn : ¬ Geo.Degenerate T) (hc : Geo.Coplanar O D T) (ho : ¬ Geo.InTri T O)
    (_hit : ∃ r, Geo.Hit O D T r) :
    ∃ P, rayIntersectTriangle O.num D.num [T.num] = some P ∧ ¬ P.x.Finite ∧ ¬ P.y.Finite ∧ ¬ P.z.Finite := by
  have h := (hitParam_coplanar (V3.is_num O) (V3.is_num D) hn hc).2 ho
  refine ⟨O.num + D.num.mulS pinf, ?_, (Ray.inf_coord O.x D.x).1, (Ray.inf_coord O.y D.y).1, (Ray.inf_coord O.z D.z).1⟩
  unfold rayIntersectTriangle
  simp only [List.map_cons, List.map_nil, h, nanToInf, if_true, firstMin]

/-- **C121** Of several rays, with a common origin or one for each, every ray gets its own nearest point. -/
theorem C121_rays (rays : List (V3 ℝ × V3 ℝ)) (mesh : List (Tri ℝ)) (hne : mesh ≠ []) (up : Bool) :
    ∃ out, rayIntersectTriangleBatch (rays.map fun r => (r.1.num, r.2.num)) (mesh.map Tri.num) up = some out ∧
      out.length = rays.length ∧ ∀ i (hi : i < rays.length) (ho : i < out.length),
        rayIntersectTriangle rays[i].1.num rays[i].2.num (mesh.map Tri.num) up = some out[i] := by
  have hsome : ∀ (o d : V3 Num), ∃ P, rayIntersectTriangle o d (mesh.map Tri.num) up = some P := by
    intro o d
    unfold rayIntersectTriangle
    cases mesh with
    | nil => exact absurd rfl hne
    | cons T Ts => exact ⟨_, rfl⟩
  unfold rayIntersectTriangleBatch
  induction rays with
  | nil => exact ⟨[], rfl, rfl, fun i hi => absurd hi (by simp)⟩
  | cons r rs ih =>
    obtain ⟨out, h1, h2, h3⟩ := ih
    obtain ⟨P, hP⟩ := hsome r.1.num r.2.num
    refine ⟨P :: out, ?_, by simp [h2], ?_⟩
    · rw [List.map_cons, List.mapM_cons, hP, h1]; rfl
    · intro i hi ho
      cases i with
      | zero => exact hP
      | succ i => exact h3 i (by simpa using hi) (by simpa using ho)

/-! ### the hypotheses can be met -/

example : ∃ (T : Tri ℝ), ¬ Geo.Degenerate T ∧ (∃ r, Geo.HitPlane ⟨5, 5, 5⟩ ⟨0, 0, -1⟩ T r) ∧
    (∀ r, ¬ Geo.HitPlane ⟨5, 5, 5⟩ ⟨0, 0, 1⟩ T r) := by
  have hd : ¬ Geo.Degenerate (⟨⟨-1, -1, 0⟩, ⟨2, -1, 0⟩, ⟨-1, 2, 0⟩⟩ : Tri ℝ) := by
    intro h
    have := congrArg V3.z h
    simp [Geo.normal, V3.cross] at this
    norm_num at this
  refine ⟨_, hd, ⟨5, by norm_num, ?_⟩, fun r hr => ?_⟩
  · rw [onPlane_iff hd]; norm_num [Geo.normal, V3.cross, V3.dot]
  · have h1 := hr.1
    have h2 := hr.2
    rw [onPlane_iff hd] at h2
    norm_num [Geo.normal, V3.cross, V3.dot] at h2
    linarith

example : ∃ (T : Tri ℝ), ¬ Geo.Degenerate T ∧ Geo.Coplanar ⟨-5, 0, 0⟩ ⟨1, 0, 0⟩ T ∧ ¬ Geo.InTri T ⟨-5, 0, 0⟩ ∧
    ∃ r, Geo.Hit ⟨-5, 0, 0⟩ ⟨1, 0, 0⟩ T r := by
  refine ⟨⟨⟨-1, -1, 0⟩, ⟨2, -1, 0⟩, ⟨-1, 2, 0⟩⟩, ?_, ?_, ?_, 5, by norm_num, 1 / 3, 1 / 3, ?_⟩
  · intro h
    have := congrArg V3.z h
    simp [Geo.normal, V3.cross] at this
    norm_num at this
  · constructor <;> norm_num [Geo.normal, V3.cross, V3.dot]
  · rintro ⟨s, t, h1, h2, -, h, -⟩
    norm_num at h
    linarith
  · norm_num [Geo.at']
