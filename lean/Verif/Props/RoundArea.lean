import Verif.Model.RoundedArea
import Verif.Props.Ray
import Verif.Props.RoundLines
import Verif.Props.RoundHorizon

/-! # C192: areas of triangles and quadrilaterals with rounding errors -/

open Classical

open Rounded in
/-- **C192** The area of a quadrilateral with rounding errors. -/
theorem C192_quadrilateral (u : ℝ) (hu : 0 ≤ u) (hu1 : u ≤ 1 / 100000) (A B C D : V2 ℝ) (S : ℝ) (hS : Num.Is (Ray.areaOfQuadrilateral A.num B.num C.num D.num) S)
    (out : ℝ) (h : QuadArea u A B C D out) :
    |out - S| ≤ 26 / 10 * u * (|A.y - C.y| * |D.x - B.x| + |B.y - D.y| * |A.x - C.x|) := by
  have eS := hS.unique (C24_quadrilateral_area A B C D)
  have esh : Geo.shoelace A B C D = (A.y - C.y) * (D.x - B.x) + (B.y - D.y) * (A.x - C.x) := by unfold Geo.shoelace; ring
  obtain ⟨a, b, c, d, p, q, s, h1, h2, h3, h4, h5, h6, h7, h8⟩ := h
  obtain ⟨e1, f1, rfl⟩ := h1.fac hu
  obtain ⟨e2, f2, rfl⟩ := h2.fac hu
  obtain ⟨e3, f3, rfl⟩ := h3.fac hu
  obtain ⟨e4, f4, rfl⟩ := h4.fac hu
  obtain ⟨e5, f5, rfl⟩ := h5.fac hu
  obtain ⟨e6, f6, rfl⟩ := h6.fac hu
  obtain ⟨e7, f7, rfl⟩ := h7.fac hu
  have g1 := (((f1.mul f2).mul f5).mul f7).term (x := (A.y - C.y) * (D.x - B.x))
  have g2 := (((f3.mul f4).mul f6).mul f7).term (x := (B.y - D.y) * (A.x - C.x))
  rw [abs_mul (A.y - C.y)] at g1
  rw [abs_mul (B.y - D.y)] at g2
  obtain ⟨M1, hM1⟩ : ∃ M, M = |A.y - C.y| * |D.x - B.x| := ⟨_, rfl⟩
  obtain ⟨M2, hM2⟩ : ∃ M, M = |B.y - D.y| * |A.x - C.x| := ⟨_, rfl⟩
  have hM10 : 0 ≤ M1 := by rw [hM1]; positivity
  have hM20 : 0 ≤ M2 := by rw [hM2]; positivity
  have hX : |Geo.shoelace A B C D| ≤ M1 + M2 := by
    rw [esh, hM1, hM2, ← abs_mul, ← abs_mul]
    exact abs_add_le _ _
  rw [← hM1] at g1
  rw [← hM2] at g2
  rw [← hM1, ← hM2]
  have h4u := fac4 hu hu1
  have k1 := g1.trans (mul_le_mul_of_nonneg_right h4u hM10)
  have k2 := g2.trans (mul_le_mul_of_nonneg_right h4u hM20)
  obtain ⟨s, hs⟩ : ∃ s, s = ((A.y - C.y) * e1 * ((D.x - B.x) * e2) * e5 + (B.y - D.y) * e3 * ((A.x - C.x) * e4) * e6) * e7 := ⟨_, rfl⟩
  rw [← hs] at h8
  have ks : |s - Geo.shoelace A B C D| ≤ 41 / 10 * u * (M1 + M2) := by
    rw [hs, esh, show ((A.y - C.y) * e1 * ((D.x - B.x) * e2) * e5 + (B.y - D.y) * e3 * ((A.x - C.x) * e4) * e6) * e7 -
      ((A.y - C.y) * (D.x - B.x) + (B.y - D.y) * (A.x - C.x)) = ((A.y - C.y) * (D.x - B.x) * (e1 * e2 * e5 * e7) - (A.y - C.y) * (D.x - B.x)) +
      ((B.y - D.y) * (A.x - C.x) * (e3 * e4 * e6 * e7) - (B.y - D.y) * (A.x - C.x)) by ring]
    refine (abs_add_le _ _).trans ?_
    linarith
  have ks' : abs (1 / 2 * |s| - S) ≤ 41 / 20 * u * (M1 + M2) := by
    rw [eS, show 1 / 2 * |s| - |Geo.shoelace A B C D| / 2 = 1 / 2 * (|s| - |Geo.shoelace A B C D|) by ring, abs_mul, abs_of_pos (by norm_num : (0 : ℝ) < 1 / 2)]
    have := (abs_abs_sub_abs_le s (Geo.shoelace A B C D)).trans ks
    linarith
  have hb : abs (1 / 2 * |s|) ≤ 1 / 2 * (M1 + M2) + 41 / 20 * u * (M1 + M2) := by
    rw [abs_mul, abs_abs, abs_of_pos (by norm_num : (0 : ℝ) < 1 / 2)]
    have := abs_close ks hX
    linarith
  refine (rd_close hu h8 ks' hb).trans ?_
  have : u * (u * (M1 + M2)) ≤ 1 / 100000 * (u * (M1 + M2)) := mul_le_mul_of_nonneg_right hu1 (by positivity)
  have : 0 ≤ u * (M1 + M2) := by positivity
  linarith

open Rounded in
theorem Rounded.Edge.near {u n : ℝ} (hu : 0 ≤ u) (hu1 : u ≤ 1 / 100000) {A B : V3 ℝ} (h : Edge u A B n) : |n - (A - B).norm| ≤ 502 / 100 * u * (A - B).norm := by
  obtain ⟨d, d1, d2, d3, hn⟩ := h
  have hw0 := V3.norm_nonneg (A - B)
  have kd : (d - (A - B)).norm ≤ u * (A - B).norm := sub_norm_near hu d1 d2 d3
  have kdn := (norm_diff d (A - B)).trans kd
  have ko := hn.near hu hu1
  have t1 := abs_sub_le n d.norm (A - B).norm
  have t2 := mul_le_mul_of_nonneg_left (by linarith [(abs_le.1 kdn).2] : d.norm ≤ (A - B).norm + u * (A - B).norm) (by positivity : 0 ≤ 401 / 100 * u)
  have t3 : u * (u * (A - B).norm) ≤ 1 / 100000 * (u * (A - B).norm) := mul_le_mul_of_nonneg_right hu1 (by positivity)
  have t4 : 0 ≤ u * (A - B).norm := by positivity
  linarith

theorem Rounded.fac_rho {a b ρ α β γ : ℝ} (hρ : 0 ≤ ρ) (hρ1 : ρ ≤ 1 / 1500) (hα : 0 ≤ α) (hβ : 0 ≤ β) (ha : |a - 1| ≤ α * ρ) (hb : |b - 1| ≤ β * ρ)
    (h : α + β + α * β / 1500 ≤ γ) : |a * b - 1| ≤ γ * ρ := by
  refine (Rounded.fac_mul ha hb).trans ?_
  have h1 := mul_le_mul_of_nonneg_right h hρ
  have h2 := mul_le_mul_of_nonneg_left hρ1 (by positivity : 0 ≤ α * β * ρ)
  linarith

/-- A number with a small absolute error has a small relative one. -/
theorem Rounded.to_fac {x x0 E K : ℝ} (h0 : 0 < x0) (h : |x - x0| ≤ E) (hE : E ≤ K * x0) : ∃ g, |g - 1| ≤ K ∧ x = x0 * g := by
  refine ⟨x / x0, ?_, by field_simp⟩
  rw [show x / x0 - 1 = (x - x0) / x0 by field_simp, abs_div, abs_of_pos h0, div_le_iff₀ h0]
  linarith

open Rounded in
/-- **C192** The area of a triangle with rounding errors.  `P` is the perimeter, and each edge is shorter than the other two together by at least `w`. -/
theorem C192_triangle (u : ℝ) (hu : 0 ≤ u) (hu1 : u ≤ 1 / 100000) (T : Ray.Tri ℝ) (a b c P w : ℝ) (ha : a = T.a.dist T.b) (hb : b = T.b.dist T.c)
    (hc : c = T.c.dist T.a) (hP : P = a + b + c) (hw : 0 < w) (wa : w ≤ b + c - a) (wb : w ≤ a + c - b) (wc : w ≤ a + b - c) (hflat : 1500 * u * P ≤ w)
    (S : ℝ) (hS : Num.Is (Ray.areaOfTriangle T.num) S) (out : Num) (h : TriArea u T out) :
    ∃ r, Num.Is out r ∧ |r - S| ≤ 48 * u * (P / w) * S := by
  have na : (T.a - T.b).norm = a := ha.symm
  have nb : (T.b - T.c).norm = b := hb.symm
  have nc : (T.c - T.a).norm = c := hc.symm
  have a0 : 0 ≤ a := by rw [← na]; exact V3.norm_nonneg _
  have b0 : 0 ≤ b := by rw [← nb]; exact V3.norm_nonneg _
  have c0 : 0 ≤ c := by rw [← nc]; exact V3.norm_nonneg _
  have hw3 : 3 * w ≤ P := by linarith
  have hP0 : 0 < P := by linarith
  have hher := Ray.heron T.a T.b T.c
  simp only at hher
  rw [na, nb, nc, ← hP] at hher
  have eS : S = Real.sqrt (P / 2 * (P / 2 - a) * (P / 2 - b) * (P / 2 - c)) := by
    rw [hS.unique (C25_triangle_area T), hher]
    unfold Geo.triArea Geo.normal V3.norm
    rw [Real.sqrt_div (V3.normSq_nonneg _), show (4:ℝ) = 2 ^ 2 by norm_num, Real.sqrt_sq (by norm_num)]
  obtain ⟨a', b', c', p, q, s, x, y, z, f, g, k, h1, h2, h3, i1, i2, i3, j1, j2, j3, l1, l2, l3, h⟩ := h
  have ea := h1.near hu hu1
  have eb := h2.near hu hu1
  have ec := h3.near hu hu1
  rw [na] at ea
  rw [nb] at eb
  rw [nc] at ec
  have uu : ∀ {v : ℝ}, 0 ≤ v → 0 ≤ u * v ∧ u * (u * v) ≤ 1 / 100000 * (u * v) := fun hv => ⟨mul_nonneg hu hv, mul_le_mul_of_nonneg_right hu1 (mul_nonneg hu hv)⟩
  have ua := uu a0
  have ub := uu b0
  have uc := uu c0
  have uP := uu hP0.le
  have ep : |p - (a + b)| ≤ 603 / 100 * u * (a + b) := by
    have t : |a' + b' - (a + b)| ≤ 502 / 100 * u * (a + b) := by
      rw [show a' + b' - (a + b) = (a' - a) + (b' - b) by ring]
      refine (abs_add_le _ _).trans ?_
      linarith
    refine (rd_close hu i1 t (abs_close t (le_of_eq (abs_of_nonneg (by linarith))))).trans ?_
    linarith
  have eq : |q - P| ≤ 705 / 100 * u * P := by
    have t : |p + c' - P| ≤ 603 / 100 * u * P := by
      rw [show p + c' - P = (p - (a + b)) + (c' - c) by rw [hP]; ring]
      refine (abs_add_le _ _).trans ?_
      rw [hP]
      linarith
    refine (rd_close hu i2 t (abs_close t (le_of_eq (abs_of_pos hP0)))).trans ?_
    linarith
  have es : |s - P / 2| ≤ 404 / 100 * u * P := by
    have t : |q / 2 - P / 2| ≤ 353 / 100 * u * P := by
      rw [show q / 2 - P / 2 = (q - P) / 2 by ring, abs_div, abs_of_pos (by norm_num : (0 : ℝ) < 2)]
      linarith
    refine (rd_close hu i3 t (abs_close t (le_of_eq (abs_of_pos (by linarith))))).trans ?_
    linarith
  obtain ⟨ρ, hρ⟩ : ∃ ρ, ρ = u * (P / w) := ⟨_, rfl⟩
  have eρ : ρ * w = u * P := by rw [hρ]; field_simp
  have hρ0 : 0 ≤ ρ := by rw [hρ]; positivity
  have hρ1 : ρ ≤ 1 / 1500 := by
    refine le_of_mul_le_mul_right ?_ hw
    rw [eρ]
    linarith
  have huρ : u ≤ 1 / 3 * ρ := by
    refine le_of_mul_le_mul_right ?_ hP0
    have := mul_le_mul_of_nonneg_left hw3 hρ0
    linarith
  have sub : ∀ {v v' t : ℝ}, 0 ≤ v → |v' - v| ≤ 502 / 100 * u * v → w ≤ P - 2 * v → Rd u (s - v') t → ∃ g, |g - 1| ≤ 142 / 10 * ρ ∧ t = (P / 2 - v) * g := by
    intro v v' t v0 hv hwv ht
    have uv := uu v0
    have huv : u * v ≤ u * (P / 2) := mul_le_mul_of_nonneg_left (by linarith) hu
    have t1 : |s - v' - (P / 2 - v)| ≤ 655 / 100 * u * P := by
      rw [show s - v' - (P / 2 - v) = (s - P / 2) - (v' - v) by ring]
      refine (abs_sub _ _).trans ?_
      linarith
    have t2 : |P / 2 - v| ≤ P / 2 := by rw [abs_of_nonneg (by linarith)]; linarith
    refine to_fac (E := 706 / 100 * u * P) (by linarith) ((rd_close hu ht t1 (abs_close t1 t2)).trans (by linarith)) ?_
    have := mul_le_mul_of_nonneg_left hwv hρ0
    linarith
  obtain ⟨gs, ks, es⟩ := to_fac (K := 27 / 10 * ρ) (by linarith) es (by
    have := mul_le_mul_of_nonneg_right huρ hP0.le
    have t : 0 ≤ ρ * P := by positivity
    linarith)
  obtain ⟨gx, kx, ex⟩ := sub a0 ea (by linarith) j1
  obtain ⟨gy, ky, ey⟩ := sub b0 eb (by linarith) j2
  obtain ⟨gz, kz, ez⟩ := sub c0 ec (by linarith) j3
  obtain ⟨e1, m1, l1⟩ := l1.form hu
  obtain ⟨e2, m2, l2⟩ := l2.form hu
  obtain ⟨e3, m3, l3⟩ := l3.form hu
  have r1 := fac_rho (γ := 1693 / 100) hρ0 hρ1 (by norm_num) (by norm_num) ks kx (by norm_num)
  have r2 := fac_rho (γ := 1728 / 100) hρ0 hρ1 (by norm_num) (by norm_num) r1 (m1.trans huρ) (by norm_num)
  have r3 := fac_rho (γ := 3165 / 100) hρ0 hρ1 (by norm_num) (by norm_num) r2 ky (by norm_num)
  have r4 := fac_rho (γ := 3200 / 100) hρ0 hρ1 (by norm_num) (by norm_num) r3 (m2.trans huρ) (by norm_num)
  have r5 := fac_rho (γ := 4652 / 100) hρ0 hρ1 (by norm_num) (by norm_num) r4 kz (by norm_num)
  have r6 := fac_rho (γ := 4688 / 100) hρ0 hρ1 (by norm_num) (by norm_num) r5 (m3.trans huρ) (by norm_num)
  obtain ⟨G, hG⟩ : ∃ G, G = gs * gx * e1 * gy * e2 * gz * e3 := ⟨_, rfl⟩
  rw [← hG] at r6
  have hprod : 0 ≤ P / 2 * (P / 2 - a) * (P / 2 - b) * (P / 2 - c) :=
    mul_nonneg (mul_nonneg (mul_nonneg (by linarith) (by linarith)) (by linarith)) (by linarith)
  have ek : k = P / 2 * (P / 2 - a) * (P / 2 - b) * (P / 2 - c) * G := by
    rw [l3, l2, l1, es, ex, ey, ez, hG]
    ring
  have hG0 : 0 ≤ G := by linarith [(abs_le.1 r6).1]
  rw [if_neg (not_lt.2 (by rw [ek]; exact mul_nonneg hprod hG0))] at h
  obtain ⟨r, hr, hor⟩ := h
  refine ⟨r, hor, ?_⟩
  have hsq : Real.sqrt k = S * Real.sqrt G := by rw [ek, Real.sqrt_mul hprod, eS]
  rw [hsq] at hr
  have kG : |Real.sqrt G - 1| ≤ 4688 / 100 * ρ := by
    have := sqrt_fac (k := G - 1) r6 (by linarith)
    rwa [show 1 + (G - 1) = G by ring] at this
  obtain ⟨e4, m4, hr⟩ := hr.form hu
  have r7 := fac_rho (γ := 48) hρ0 hρ1 (by norm_num) (by norm_num) kG (m4.trans huρ) (by norm_num)
  have hS0 : 0 ≤ S := by rw [eS]; exact Real.sqrt_nonneg _
  rw [hr, show S * Real.sqrt G * e4 - S = S * (Real.sqrt G * e4 - 1) by ring, abs_mul, abs_of_nonneg hS0]
  have := mul_le_mul_of_nonneg_left r7 hS0
  rw [hρ] at this
  linarith

open Rounded in
/-- **C192** If the corners are on a line, the same errors can give nan, although the area is 0. -/
theorem C192_flat (u : ℝ) (hu : 0 < u) (hu1 : u < 1) (T : Ray.Tri ℝ) (hT : T.a.dist T.b + T.b.dist T.c = T.c.dist T.a) (h1 : u * T.c.dist T.a < T.a.dist T.b)
    (h2 : u * T.c.dist T.a < T.b.dist T.c) : Num.Is (Ray.areaOfTriangle T.num) 0 ∧ TriArea u T .nan := by
  have na : (T.a - T.b).norm = T.a.dist T.b := rfl
  have nb : (T.b - T.c).norm = T.b.dist T.c := rfl
  have nc : (T.c - T.a).norm = T.c.dist T.a := rfl
  have c0 : 0 < T.c.dist T.a := by
    by_contra hc
    have hc0 : T.c.dist T.a = 0 := le_antisymm (not_lt.1 hc) (V3.norm_nonneg _)
    rw [hc0, mul_zero] at h1 h2
    linarith
  obtain ⟨a, ha⟩ : ∃ a, a = T.a.dist T.b := ⟨_, rfl⟩
  obtain ⟨b, hb⟩ : ∃ b, b = T.b.dist T.c := ⟨_, rfl⟩
  obtain ⟨c, hc⟩ : ∃ c, c = T.c.dist T.a := ⟨_, rfl⟩
  rw [← ha] at h1 na
  rw [← hb] at h2 nb
  rw [← hc] at h1 h2 c0 nc
  rw [← ha, ← hb, ← hc] at hT
  constructor
  · have hher := Ray.heron T.a T.b T.c
    simp only at hher
    rw [na, nb, nc, hT, show (c + c) / 2 - c = 0 by ring, mul_zero] at hher
    refine (C25_triangle_area T).congr ?_
    have : (Geo.normal T).normSq = 0 := by unfold Geo.normal; linarith
    unfold Geo.triArea V3.norm
    rw [this]
    simp
  · have edge : ∀ A B : V3 ℝ, Edge u A B (A - B).norm := fun A B =>
      ⟨A - B, Rd.exact hu.le _, Rd.exact hu.le _, Rd.exact hu.le _, (A - B).dot (A - B), Dot.exact hu.le _ _, by
        rw [V3.dot_self]
        exact Rd.exact hu.le _⟩
    have ea := edge T.a T.b
    have eb := edge T.b T.c
    have ec := edge T.c T.a
    rw [na] at ea
    rw [nb] at eb
    rw [nc] at ec
    have hs : Rd u ((a + b + c) / 2) (c * (1 - u)) := by
      unfold Rd
      rw [hT, show (c + c) / 2 = c by ring, show c * (1 - u) - c = -(u * c) by ring, abs_neg, abs_of_pos (mul_pos hu c0), abs_of_pos c0]
    refine ⟨a, b, c, _, _, c * (1 - u), _, _, _, _, _, _, ea, eb, ec, Rd.exact hu.le _, Rd.exact hu.le _, hs, Rd.exact hu.le _, Rd.exact hu.le _, Rd.exact hu.le _,
      Rd.exact hu.le _, Rd.exact hu.le _, Rd.exact hu.le _, ?_⟩
    rw [if_pos]
    refine mul_neg_of_pos_of_neg (mul_pos (mul_pos (mul_pos c0 (by linarith)) ?_) ?_) ?_
    · linarith
    · linarith
    · have := mul_pos hu c0
      linarith

open Rounded in
example : Num.Is (Ray.areaOfTriangle (Ray.Tri.num ⟨⟨0, 0, 0⟩, ⟨1, 0, 0⟩, ⟨2, 0, 0⟩⟩)) 0 ∧ TriArea (1 / 2 ^ 53) ⟨⟨0, 0, 0⟩, ⟨1, 0, 0⟩, ⟨2, 0, 0⟩⟩ .nan := by
  have e1 : V3.dist (⟨0, 0, 0⟩ : V3 ℝ) ⟨1, 0, 0⟩ = 1 := by simp [V3.dist, V3.norm, V3.normSq]
  have e2 : V3.dist (⟨1, 0, 0⟩ : V3 ℝ) ⟨2, 0, 0⟩ = 1 := by norm_num [V3.dist, V3.norm, V3.normSq]
  have e3 : V3.dist (⟨2, 0, 0⟩ : V3 ℝ) ⟨0, 0, 0⟩ = 2 := by simp [V3.dist, V3.norm, V3.normSq]
  refine C192_flat (1 / 2 ^ 53) (by norm_num) (by norm_num) ⟨⟨0, 0, 0⟩, ⟨1, 0, 0⟩, ⟨2, 0, 0⟩⟩ ?_ ?_ ?_ <;> simp only [e1, e2, e3] <;> norm_num

open Rounded in
theorem Rounded.TriArea.exists {u : ℝ} (hu : 0 ≤ u) (T : Ray.Tri ℝ) : ∃ out, TriArea u T out := by
  have edge : ∀ A B : V3 ℝ, ∃ n, Edge u A B n := fun A B => ⟨_, A - B, Rd.exact hu _, Rd.exact hu _, Rd.exact hu _, NormOf.exact hu _⟩
  obtain ⟨a, ea⟩ := edge T.a T.b
  obtain ⟨b, eb⟩ := edge T.b T.c
  obtain ⟨c, ec⟩ := edge T.c T.a
  have key : ∀ k : ℝ, ∃ out : Num, if k < 0 then out = .nan else ∃ r, Rd u (Real.sqrt k) r ∧ Num.Is out r := by
    intro k
    split_ifs
    · exact ⟨_, rfl⟩
    · exact ⟨_, _, Rd.exact hu _, Num.is_fin _⟩
  obtain ⟨out, h⟩ := key (((a + b + c) / 2 * ((a + b + c) / 2 - a)) * ((a + b + c) / 2 - b) * ((a + b + c) / 2 - c))
  exact ⟨out, a, b, c, _, _, _, _, _, _, _, _, _, ea, eb, ec, Rd.exact hu _, Rd.exact hu _, Rd.exact hu _, Rd.exact hu _, Rd.exact hu _, Rd.exact hu _, Rd.exact hu _,
    Rd.exact hu _, Rd.exact hu _, h⟩

open Rounded in
/-- A triangle with the edges 3, 4 and 5. -/
example : ∃ out r, TriArea (1 / 2 ^ 53) ⟨⟨0, 0, 0⟩, ⟨3, 0, 0⟩, ⟨0, 4, 0⟩⟩ out ∧ Num.Is out r ∧ |r - 6| ≤ 1 / 10 ^ 12 := by
  obtain ⟨out, h⟩ := TriArea.exists (u := 1 / 2 ^ 53) (by norm_num) ⟨⟨0, 0, 0⟩, ⟨3, 0, 0⟩, ⟨0, 4, 0⟩⟩
  have e1 : V3.dist (⟨0, 0, 0⟩ : V3 ℝ) ⟨3, 0, 0⟩ = 3 := by simp [V3.dist, V3.norm, V3.normSq]
  have e2 : V3.dist (⟨3, 0, 0⟩ : V3 ℝ) ⟨0, 4, 0⟩ = 5 := by
    show Real.sqrt _ = 5
    rw [show (5 : ℝ) = Real.sqrt (5 ^ 2) by rw [Real.sqrt_sq (by norm_num)]]
    congr 1
    norm_num [V3.normSq]
  have e3 : V3.dist (⟨0, 4, 0⟩ : V3 ℝ) ⟨0, 0, 0⟩ = 4 := by simp [V3.dist, V3.norm, V3.normSq]
  have hS : Geo.triArea ⟨⟨0, 0, 0⟩, ⟨3, 0, 0⟩, ⟨0, 4, 0⟩⟩ = 6 := by
    have : (Geo.normal ⟨⟨0, 0, 0⟩, ⟨3, 0, 0⟩, ⟨0, 4, 0⟩⟩).normSq = 12 ^ 2 := by norm_num [Geo.normal, V3.cross, V3.normSq]
    unfold Geo.triArea V3.norm
    rw [this, Real.sqrt_sq (by norm_num)]
    norm_num
  obtain ⟨r, h1, h2⟩ := C192_triangle (1 / 2 ^ 53) (by norm_num) (by norm_num) ⟨⟨0, 0, 0⟩, ⟨3, 0, 0⟩, ⟨0, 4, 0⟩⟩ 3 5 4 12 2 e1.symm e2.symm e3.symm (by norm_num)
    (by norm_num) (by norm_num) (by norm_num) (by norm_num) (by norm_num) 6 ((C25_triangle_area _).congr hS) out h
  exact ⟨out, r, h, h1, h2.trans (by norm_num)⟩

open Rounded in
example : ∃ out, QuadArea (1 / 2 ^ 53) ⟨0, 0⟩ ⟨2, 0⟩ ⟨2, 3⟩ ⟨0, 3⟩ out ∧ |out - 6| ≤ 1 / 10 ^ 13 := by
  have hu : (0 : ℝ) ≤ 1 / 2 ^ 53 := by norm_num
  have h : ∃ out, QuadArea (1 / 2 ^ 53) ⟨0, 0⟩ ⟨2, 0⟩ ⟨2, 3⟩ ⟨0, 3⟩ out := ⟨_, _, _, _, _, _, _, _, Rd.exact hu _, Rd.exact hu _, Rd.exact hu _, Rd.exact hu _, Rd.exact hu _,
    Rd.exact hu _, Rd.exact hu _, Rd.exact hu _⟩
  obtain ⟨out, h⟩ := h
  have hS : Num.Is (Ray.areaOfQuadrilateral (V2.num ⟨0, 0⟩) (V2.num ⟨2, 0⟩) (V2.num ⟨2, 3⟩) (V2.num ⟨0, 3⟩)) 6 :=
    (C24_quadrilateral_area _ _ _ _).congr (by norm_num [Geo.shoelace])
  have hb := C192_quadrilateral (1 / 2 ^ 53) hu (by norm_num) _ _ _ _ 6 hS out h
  refine ⟨out, h, hb.trans ?_⟩
  norm_num
