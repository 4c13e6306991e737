import Verif.Proofs.Projection
import Verif.Spec.Ray

/-! Helper lemmas for `ray.py`. -/

open Classical Num

namespace V3

theorem Is.cross {p p' : V3 Num} {q q' : V3 ℝ} (h : p.Is q) (h' : p'.Is q') :
    (p.cross p').Is (q.cross q') :=
  ⟨(h.2.1.mul h'.2.2).sub (h.2.2.mul h'.2.1), (h.2.2.mul h'.1).sub (h.1.mul h'.2.2),
   (h.1.mul h'.2.1).sub (h.2.1.mul h'.1)⟩

theorem norm_sq (q : V3 ℝ) : q.norm ^ 2 = q.normSq := by
  unfold norm; exact Real.sq_sqrt (normSq_nonneg q)

theorem norm_nonneg (q : V3 ℝ) : 0 ≤ q.norm := Real.sqrt_nonneg _

theorem normSq_eq_zero {q : V3 ℝ} : q.normSq = 0 ↔ q = ⟨0, 0, 0⟩ := by
  constructor
  · intro h
    unfold normSq at h
    have hx : q.x = 0 := by nlinarith [sq_nonneg q.x, sq_nonneg q.y, sq_nonneg q.z]
    have hy : q.y = 0 := by nlinarith [sq_nonneg q.x, sq_nonneg q.y, sq_nonneg q.z]
    have hz : q.z = 0 := by nlinarith [sq_nonneg q.x, sq_nonneg q.y, sq_nonneg q.z]
    ext <;> assumption
  · rintro rfl; simp [normSq]

theorem norm_eq_zero {q : V3 ℝ} : q.norm = 0 ↔ q = ⟨0, 0, 0⟩ := by
  unfold norm
  rw [Real.sqrt_eq_zero (normSq_nonneg q), normSq_eq_zero]

theorem norm_pos {q : V3 ℝ} (h : q ≠ ⟨0, 0, 0⟩) : 0 < q.norm :=
  lt_of_le_of_ne (norm_nonneg q) (fun h0 => h (norm_eq_zero.1 h0.symm))

theorem normSq_pos {q : V3 ℝ} (h : q ≠ ⟨0, 0, 0⟩) : 0 < q.normSq :=
  lt_of_le_of_ne (normSq_nonneg q) (fun h0 => h (normSq_eq_zero.1 h0.symm))

theorem norm_le_iff {p q : V3 ℝ} : p.norm ≤ q.norm ↔ p.normSq ≤ q.normSq := by
  unfold norm; exact Real.sqrt_le_sqrt_iff (normSq_nonneg q)

theorem lagrange (p q : V3 ℝ) : (p.cross q).normSq = p.normSq * q.normSq - (p.dot q) ^ 2 := by
  simp only [cross, normSq, dot]; ring

theorem dot_self (p : V3 ℝ) : p.dot p = p.normSq := by simp only [normSq, dot]; ring

end V3

namespace Ray

/-- The parameters of the closest point in the plane of a triangle. -/
theorem plane_coords (u v w : V3 ℝ) (h : (u.cross v).dot w = 0) :
    (u.cross v).normSq * w.x = ((w.cross v).dot (u.cross v)) * u.x + ((u.cross w).dot (u.cross v)) * v.x ∧
    (u.cross v).normSq * w.y = ((w.cross v).dot (u.cross v)) * u.y + ((u.cross w).dot (u.cross v)) * v.y ∧
    (u.cross v).normSq * w.z = ((w.cross v).dot (u.cross v)) * u.z + ((u.cross w).dot (u.cross v)) * v.z := by
  have key : ∀ c : V3 ℝ → ℝ, c = V3.x ∨ c = V3.y ∨ c = V3.z →
      (u.cross v).normSq * c w = ((u.cross v).dot w) * c (u.cross v) +
        ((w.cross v).dot (u.cross v)) * c u + ((u.cross w).dot (u.cross v)) * c v := by
    rintro c (rfl | rfl | rfl) <;> simp only [V3.cross, V3.normSq, V3.dot] <;> ring
  refine ⟨?_, ?_, ?_⟩
  · have := key V3.x (Or.inl rfl); rw [h] at this; linarith
  · have := key V3.y (Or.inr (Or.inl rfl)); rw [h] at this; linarith
  · have := key V3.z (Or.inr (Or.inr rfl)); rw [h] at this; linarith

theorem is_normal (T : Tri ℝ) : ((T.num.b - T.num.a).cross (T.num.c - T.num.a)).Is (Geo.normal T) :=
  ((V3.is_num _).sub (V3.is_num _)).cross ((V3.is_num _).sub (V3.is_num _))

/-- The in-plane coordinates computed by the code, over the reals. -/
noncomputable def siR (o d : V3 ℝ) (T : Tri ℝ) (r : ℝ) : ℝ :=
  let u := T.b - T.a
  let v := T.c - T.a
  let w := o + d.mulS r - T.a
  (u.dot v * w.dot v - v.dot v * w.dot u) / (u.dot v * u.dot v - u.dot u * v.dot v)
noncomputable def tiR (o d : V3 ℝ) (T : Tri ℝ) (r : ℝ) : ℝ :=
  let u := T.b - T.a
  let v := T.c - T.a
  let w := o + d.mulS r - T.a
  (u.dot v * w.dot u - u.dot u * w.dot v) / (u.dot v * u.dot v - u.dot u * v.dot v)

theorem denom_eq (T : Tri ℝ) : (T.b - T.a).dot (T.c - T.a) * (T.b - T.a).dot (T.c - T.a) -
    (T.b - T.a).dot (T.b - T.a) * (T.c - T.a).dot (T.c - T.a) = -(Geo.normal T).normSq := by
  unfold Geo.normal; rw [V3.lagrange, V3.dot_self, V3.dot_self]; ring

/-- The parameter of the intersection with the plane, over the reals. -/
noncomputable def rR (o d : V3 ℝ) (T : Tri ℝ) : ℝ := (Geo.normal T).dot (T.a - o) / (Geo.normal T).dot d

theorem inPlane (o d : V3 ℝ) (T : Tri ℝ) (hb : (Geo.normal T).dot d ≠ 0) :
    (Geo.normal T).dot (o + d.mulS (rR o d T) - T.a) = 0 := by
  have : (Geo.normal T).dot (o + d.mulS (rR o d T) - T.a) =
      rR o d T * (Geo.normal T).dot d - (Geo.normal T).dot (T.a - o) := by
    simp only [V3.dot, V3.add_x, V3.add_y, V3.add_z, V3.sub_x, V3.sub_y, V3.sub_z, V3.mulS_x, V3.mulS_y, V3.mulS_z]; ring
  rw [this, rR, div_mul_cancel₀ _ hb, sub_self]

/-- A point of the plane is in the triangle exactly if its coordinates are in range. -/
theorem inTri_iff (o d : V3 ℝ) (T : Tri ℝ) (r : ℝ) (hn : ¬ Geo.Degenerate T)
    (hp : (Geo.normal T).dot (o + d.mulS r - T.a) = 0) :
    Geo.InTri T (Geo.at' o d r) ↔ 0 ≤ siR o d T r ∧ 0 ≤ tiR o d T r ∧ siR o d T r + tiR o d T r ≤ 1 := by
  have hN : 0 < (Geo.normal T).normSq := V3.normSq_pos hn
  set u := T.b - T.a with hu
  set v := T.c - T.a with hv
  set w := o + d.mulS r - T.a with hw
  have hden := denom_eq T
  rw [← hu, ← hv] at hden
  have hs : siR o d T r = (w.cross v).dot (u.cross v) / (Geo.normal T).normSq := by
    show (u.dot v * w.dot v - v.dot v * w.dot u) / (u.dot v * u.dot v - u.dot u * v.dot v) = _
    rw [hden, div_neg, ← neg_div]
    congr 1
    simp only [V3.cross, V3.dot]; ring
  have ht : tiR o d T r = (u.cross w).dot (u.cross v) / (Geo.normal T).normSq := by
    show (u.dot v * w.dot u - u.dot u * w.dot v) / (u.dot v * u.dot v - u.dot u * v.dot v) = _
    rw [hden, div_neg, ← neg_div]
    congr 1
    simp only [V3.cross, V3.dot]; ring
  have hwx : w.x = (Geo.at' o d r).x - T.a.x := by simp [hw, Geo.at']; ring
  have hwy : w.y = (Geo.at' o d r).y - T.a.y := by simp [hw, Geo.at']; ring
  have hwz : w.z = (Geo.at' o d r).z - T.a.z := by simp [hw, Geo.at']; ring
  constructor
  · rintro ⟨s, t, h1, h2, h3, hx, hy, hz⟩
    have ex : w.x = s * u.x + t * v.x := by rw [hwx, hx]; simp [hu, hv]; ring
    have ey : w.y = s * u.y + t * v.y := by rw [hwy, hy]; simp [hu, hv]; ring
    have ez : w.z = s * u.z + t * v.z := by rw [hwz, hz]; simp [hu, hv]; ring
    have es : siR o d T r = s := by
      rw [hs, div_eq_iff hN.ne']
      show _ = s * (u.cross v).normSq
      simp only [V3.cross, V3.dot, V3.normSq, ex, ey, ez]; ring
    have et : tiR o d T r = t := by
      rw [ht, div_eq_iff hN.ne']
      show _ = t * (u.cross v).normSq
      simp only [V3.cross, V3.dot, V3.normSq, ex, ey, ez]; ring
    rw [es, et]; exact ⟨h1, h2, h3⟩
  · rintro ⟨h1, h2, h3⟩
    obtain ⟨cx, cy, cz⟩ := plane_coords u v w hp
    have hN' : (u.cross v).normSq ≠ 0 := hN.ne'
    refine ⟨_, _, h1, h2, h3, ?_, ?_, ?_⟩
    · have : w.x = siR o d T r * u.x + tiR o d T r * v.x := by
        rw [hs, ht]; show _ = _ / (u.cross v).normSq * _ + _ / (u.cross v).normSq * _
        field_simp; linarith
      have e : (Geo.at' o d r).x = T.a.x + w.x := by rw [hwx]; ring
      rw [e, this]; simp only [hu, hv, V3.sub_x]; ring
    · have : w.y = siR o d T r * u.y + tiR o d T r * v.y := by
        rw [hs, ht]; show _ = _ / (u.cross v).normSq * _ + _ / (u.cross v).normSq * _
        field_simp; linarith
      have e : (Geo.at' o d r).y = T.a.y + w.y := by rw [hwy]; ring
      rw [e, this]; simp only [hu, hv, V3.sub_y]; ring
    · have : w.z = siR o d T r * u.z + tiR o d T r * v.z := by
        rw [hs, ht]; show _ = _ / (u.cross v).normSq * _ + _ / (u.cross v).normSq * _
        field_simp; linarith
      have e : (Geo.at' o d r).z = T.a.z + w.z := by rw [hwz]; ring
      rw [e, this]; simp only [hu, hv, V3.sub_z]; ring

/-- A hit is at the parameter of the plane. -/
theorem hit_param {o d : V3 ℝ} {T : Tri ℝ} {r : ℝ} (hc : ¬ Geo.Coplanar o d T) (h : Geo.Hit o d T r) :
    (Geo.normal T).dot d ≠ 0 ∧ r = rR o d T := by
  obtain ⟨-, s, t, -, -, -, hx, hy, hz⟩ := h
  have h0 : (Geo.normal T).dot (Geo.at' o d r - T.a) = 0 := by
    have ex : (Geo.at' o d r - T.a).x = s * (T.b.x - T.a.x) + t * (T.c.x - T.a.x) := by simp [hx]; ring
    have ey : (Geo.at' o d r - T.a).y = s * (T.b.y - T.a.y) + t * (T.c.y - T.a.y) := by simp [hy]; ring
    have ez : (Geo.at' o d r - T.a).z = s * (T.b.z - T.a.z) + t * (T.c.z - T.a.z) := by simp [hz]; ring
    simp only [V3.dot, ex, ey, ez, Geo.normal, V3.cross, V3.sub_x, V3.sub_y, V3.sub_z]; ring
  have h1 : (Geo.normal T).dot (Geo.at' o d r - T.a) =
      r * (Geo.normal T).dot d - (Geo.normal T).dot (T.a - o) := by
    simp only [V3.dot, Geo.at', V3.sub_x, V3.sub_y, V3.sub_z]; ring
  rw [h1] at h0
  have hb : (Geo.normal T).dot d ≠ 0 := by
    intro hb
    rw [hb] at h0
    exact hc ⟨hb, by linarith⟩
  exact ⟨hb, by rw [rR, eq_div_iff hb]; linarith⟩

/-- `hitParam` for a non-degenerate triangle: nan without a hit, else the parameter of the hit. -/
theorem hitParam_spec {o d : V3 Num} {O D : V3 ℝ} (ho : o.Is O) (hd : d.Is D) {T : Tri ℝ}
    (hn : ¬ Geo.Degenerate T) (hc : ¬ Geo.Coplanar O D T) :
    (∃ r, Geo.Hit O D T r ∧ Num.Is (hitParam o d T.num) r) ∨
    ((∀ r, ¬ Geo.Hit O D T r) ∧ hitParam o d T.num = nan) := by
  have hN := is_normal T
  have hb := hN.dot hd
  have ha := hN.dot ((V3.is_num T.a).sub ho)
  by_cases hb0 : (Geo.normal T).dot D = 0
  · -- parallel, not in the plane
    right
    have ha0 : (Geo.normal T).dot (T.a - O) ≠ 0 := fun h => hc ⟨hb0, h⟩
    refine ⟨fun r h => (hit_param hc h).1 hb0, ?_⟩
    unfold hitParam
    have e1 : Num.eqv (((T.num.b - T.num.a).cross (T.num.c - T.num.a)).dot d) (fin 0) := (hb.eqv_iff (is_fin 0)).2 hb0
    have e2 : ¬ Num.eqv (((T.num.b - T.num.a).cross (T.num.c - T.num.a)).dot (T.num.a - o)) (fin 0) := by
      intro h; exact ha0 ((ha.eqv_iff (is_fin 0)).1 h)
    simp only [e1, e2, not_false_eq_true, and_self, if_true, and_false, if_false, not_nan_lt, Bool.false_eq_true]
    split_ifs <;> rfl
  · have e1 : ¬ Num.eqv (((T.num.b - T.num.a).cross (T.num.c - T.num.a)).dot d) (fin 0) := by
      intro h; exact hb0 ((hb.eqv_iff (is_fin 0)).1 h)
    have hr : Num.Is (((T.num.b - T.num.a).cross (T.num.c - T.num.a)).dot (T.num.a - o) /
        ((T.num.b - T.num.a).cross (T.num.c - T.num.a)).dot d) (rR O D T) := ha.div hb hb0
    set rn := ((T.num.b - T.num.a).cross (T.num.c - T.num.a)).dot (T.num.a - o) /
        ((T.num.b - T.num.a).cross (T.num.c - T.num.a)).dot d with hrn
    by_cases hneg : rR O D T < 0
    · right
      refine ⟨fun r h => ?_, ?_⟩
      · have := (hit_param hc h).2
        have := h.1
        linarith
      · unfold hitParam
        have e3 : rn < fin 0 := (hr.lt_iff (is_fin 0)).2 hneg
        simp only [e1, false_and, if_false, ← hrn, e3, if_true, Bool.false_eq_true]
        split_ifs <;> rfl
    · have e3 : ¬ rn < fin 0 := by rw [hr.lt_iff (is_fin 0)]; exact hneg
      have iu := (V3.is_num T.b).sub (V3.is_num T.a)
      have iv := (V3.is_num T.c).sub (V3.is_num T.a)
      have iw := (ho.add (hd.mulS hr)).sub (V3.is_num T.a)
      have hden := denom_eq T
      have hNp : 0 < (Geo.normal T).normSq := V3.normSq_pos hn
      have hden0 : (T.b - T.a).dot (T.c - T.a) * (T.b - T.a).dot (T.c - T.a) -
          (T.b - T.a).dot (T.b - T.a) * (T.c - T.a).dot (T.c - T.a) ≠ 0 := by rw [hden]; linarith
      have iden := ((iu.dot iv).mul (iu.dot iv)).sub ((iu.dot iu).mul (iv.dot iv))
      have is := (((iu.dot iv).mul (iw.dot iv)).sub ((iv.dot iv).mul (iw.dot iu))).div iden hden0
      have it := (((iu.dot iv).mul (iw.dot iu)).sub ((iu.dot iu).mul (iw.dot iv))).div iden hden0
      have hpl := inPlane O D T hb0
      have htri := inTri_iff O D T (rR O D T) hn hpl
      have c1 := is.lt_iff (is_fin 0)
      have c2 := (is_fin 1).lt_iff is
      have c3 := it.lt_iff (is_fin 0)
      have c4 := (is_fin 1).lt_iff (is.add it)
      by_cases hin : Geo.InTri T (Geo.at' O D (rR O D T))
      · left
        refine ⟨_, ⟨not_lt.1 hneg, hin⟩, ?_⟩
        obtain ⟨g1, g2, g3⟩ := htri.1 hin
        simp only [siR, tiR] at g1 g2 g3
        unfold hitParam
        simp only [e1, false_and, if_false, ← hrn, e3, Bool.false_eq_true]
        rw [if_neg, if_neg]
        · exact hr
        · rw [not_or]
          exact ⟨fun h => absurd (c1.1 h) (not_lt.2 g1), fun h => absurd (c2.1 h) (by linarith)⟩
        · rw [not_or]
          exact ⟨fun h => absurd (c3.1 h) (not_lt.2 g2), fun h => absurd (c4.1 h) (not_lt.2 g3)⟩
      · right
        refine ⟨fun r h => ?_, ?_⟩
        · have := (hit_param hc h).2
          rw [this] at h; exact hin h.2
        · unfold hitParam
          simp only [e1, false_and, if_false, ← hrn, e3, Bool.false_eq_true]
          split_ifs with h5 h6
          · rfl
          · rfl
          · exfalso
            apply hin
            rw [htri]
            rw [not_or] at h5 h6
            simp only [siR, tiR]
            refine ⟨not_lt.1 fun h => h6.1 (c1.2 h), not_lt.1 fun h => h5.1 (c3.2 h), not_lt.1 fun h => h5.2 (c4.2 h)⟩

/-- `hitParam` of a degenerate triangle is 0, whatever the ray. -/
theorem hitParam_degenerate {o d : V3 Num} {O D : V3 ℝ} (ho : o.Is O) (hd : d.Is D) {T : Tri ℝ}
    (hn : Geo.Degenerate T) : Num.Is (hitParam o d T.num) 0 := by
  have hN := is_normal T
  have hb := hN.dot hd
  have ha := hN.dot ((V3.is_num T.a).sub ho)
  have z : ∀ q : V3 ℝ, (Geo.normal T).dot q = 0 := by
    intro q; rw [show Geo.normal T = ⟨0, 0, 0⟩ from hn]; simp [V3.dot]
  have e1 : Num.eqv (((T.num.b - T.num.a).cross (T.num.c - T.num.a)).dot d) (fin 0) := (hb.eqv_iff (is_fin 0)).2 (z _)
  have e2 : Num.eqv (((T.num.b - T.num.a).cross (T.num.c - T.num.a)).dot (T.num.a - o)) (fin 0) :=
    (ha.eqv_iff (is_fin 0)).2 (z _)
  have e3 : ¬ (fin 0 < fin 0) := by rw [(is_fin 0).lt_iff (is_fin 0)]; exact lt_irrefl _
  have iu := (V3.is_num T.b).sub (V3.is_num T.a)
  have iv := (V3.is_num T.c).sub (V3.is_num T.a)
  have iw := (ho.add (hd.mulS (is_fin 0))).sub (V3.is_num T.a)
  have iden := ((iu.dot iv).mul (iu.dot iv)).sub ((iu.dot iu).mul (iv.dot iv))
  have is := ((iu.dot iv).mul (iw.dot iv)).sub ((iv.dot iv).mul (iw.dot iu))
  have it := ((iu.dot iv).mul (iw.dot iu)).sub ((iu.dot iu).mul (iw.dot iv))
  have hden : (T.b - T.a).dot (T.c - T.a) * (T.b - T.a).dot (T.c - T.a) -
          (T.b - T.a).dot (T.b - T.a) * (T.c - T.a).dot (T.c - T.a) = 0 := by
    rw [denom_eq, show Geo.normal T = ⟨0, 0, 0⟩ from hn]; simp [V3.normSq]
  have hs0 : ∀ w : V3 ℝ, (T.b - T.a).dot (T.c - T.a) * w.dot (T.c - T.a) -
      (T.c - T.a).dot (T.c - T.a) * w.dot (T.b - T.a) = 0 := by
    intro w
    have := z (w.cross (T.c - T.a))
    rw [← neg_eq_zero, ← this]
    simp only [Geo.normal, V3.cross, V3.dot]; ring
  have ht0 : ∀ w : V3 ℝ, (T.b - T.a).dot (T.c - T.a) * w.dot (T.b - T.a) -
      (T.b - T.a).dot (T.b - T.a) * w.dot (T.c - T.a) = 0 := by
    intro w
    have := z (w.cross (T.b - T.a))
    rw [← this]
    simp only [Geo.normal, V3.cross, V3.dot]; ring
  rw [hden] at iden
  rw [hs0] at is
  rw [ht0] at it
  have n1 := zero_div_zero is iden
  have n2 := zero_div_zero it iden
  have n1' : (((T.num.b - T.num.a).dot (T.num.c - T.num.a) * (o + d.mulS (fin 0) - T.num.a).dot (T.num.c - T.num.a) -
      (T.num.c - T.num.a).dot (T.num.c - T.num.a) * (o + d.mulS (fin 0) - T.num.a).dot (T.num.b - T.num.a)) /
      ((T.num.b - T.num.a).dot (T.num.c - T.num.a) * (T.num.b - T.num.a).dot (T.num.c - T.num.a) -
        (T.num.b - T.num.a).dot (T.num.b - T.num.a) * (T.num.c - T.num.a).dot (T.num.c - T.num.a))) = nan := n1
  have n2' : (((T.num.b - T.num.a).dot (T.num.c - T.num.a) * (o + d.mulS (fin 0) - T.num.a).dot (T.num.b - T.num.a) -
      (T.num.b - T.num.a).dot (T.num.b - T.num.a) * (o + d.mulS (fin 0) - T.num.a).dot (T.num.c - T.num.a)) /
      ((T.num.b - T.num.a).dot (T.num.c - T.num.a) * (T.num.b - T.num.a).dot (T.num.c - T.num.a) -
        (T.num.b - T.num.a).dot (T.num.b - T.num.a) * (T.num.c - T.num.a).dot (T.num.c - T.num.a))) = nan := n2
  unfold hitParam
  simp only [e1, e2, not_true_eq_false, and_false, and_self, if_true, if_false, e3, Bool.false_eq_true, n1', n2',
    nan_add, not_nan_lt, not_lt_nan, or_self]
  exact is_fin 0

/-- Never negative. -/
theorem hitParam_range (o d : V3 Num) (T : Tri Num) : hitParam o d T = nan ∨ ¬ hitParam o d T < fin 0 := by
  unfold hitParam
  simp only [Bool.false_eq_true, if_false]
  split_ifs <;> simp_all

/-! ### the first minimum -/

theorem lt_ext {x y : Num} (hx : x ≠ nan) (hy : y ≠ nan) : x < y ↔ ext x < ext y :=
  ⟨fun h => h.2.2, fun h => ⟨hx, hy, h⟩⟩

theorem firstMin_spec : ∀ (xs : List Num) (m : Num), m ≠ nan → (∀ x ∈ xs, x ≠ nan) →
    firstMin m xs ∈ m :: xs ∧ ∀ x ∈ m :: xs, ext (firstMin m xs) ≤ ext x := by
  intro xs
  induction xs with
  | nil => intro m _ _; simp [firstMin]
  | cons y ys ih =>
    intro m hm hxs
    have hy : y ≠ nan := hxs y (by simp)
    have hys : ∀ x ∈ ys, x ≠ nan := fun x h => hxs x (by simp [h])
    unfold firstMin
    split_ifs with h
    · obtain ⟨h1, h2⟩ := ih y hy hys
      rw [lt_ext hy hm] at h
      refine ⟨by simp only [List.mem_cons] at h1 ⊢; tauto, ?_⟩
      intro x hx
      simp only [List.mem_cons] at hx
      rcases hx with rfl | rfl | hx
      · exact (h2 y (by simp)).trans h.le
      · exact h2 _ (by simp)
      · exact h2 _ (by simp [hx])
    · obtain ⟨h1, h2⟩ := ih m hm hys
      rw [lt_ext hy hm, not_lt] at h
      refine ⟨by simp only [List.mem_cons] at h1 ⊢; tauto, ?_⟩
      intro x hx
      simp only [List.mem_cons] at hx
      rcases hx with rfl | rfl | hx
      · exact h2 _ (by simp)
      · exact (h2 m (by simp)).trans h
      · exact h2 _ (by simp [hx])

theorem nanToInf_ne (x : Num) : nanToInf x ≠ nan := by
  unfold nanToInf; split_ifs with h
  · simp
  · exact h

/-- `rayIntersectTriangle` of a non-empty mesh: the smallest entry. -/
theorem rayIntersect_spec (o d : V3 Num) (mesh : List (Tri Num)) (hne : mesh ≠ []) :
    ∃ T ∈ mesh, rayIntersectTriangle o d mesh = some (o + d.mulS (nanToInf (hitParam o d T))) ∧
      ∀ T' ∈ mesh, ext (nanToInf (hitParam o d T)) ≤ ext (nanToInf (hitParam o d T')) := by
  unfold rayIntersectTriangle
  cases mesh with
  | nil => exact absurd rfl hne
  | cons T Ts =>
    simp only [List.map_cons]
    obtain ⟨h1, h2⟩ := firstMin_spec (Ts.map fun T => nanToInf (hitParam o d T)) (nanToInf (hitParam o d T))
      (nanToInf_ne _) (by intro x hx; obtain ⟨T', -, rfl⟩ := List.mem_map.1 hx; exact nanToInf_ne _)
    have h1' : firstMin (nanToInf (hitParam o d T)) (Ts.map fun T => nanToInf (hitParam o d T)) ∈
        (T :: Ts).map fun T => nanToInf (hitParam o d T) := h1
    obtain ⟨T', hT', e⟩ := List.mem_map.1 h1'
    refine ⟨T', hT', by rw [e], ?_⟩
    intro S hS
    rw [e]
    exact h2 _ (by
      have : nanToInf (hitParam o d S) ∈ (T :: Ts).map fun T => nanToInf (hitParam o d T) :=
        List.mem_map.2 ⟨S, hS, rfl⟩
      exact this)

end Ray
