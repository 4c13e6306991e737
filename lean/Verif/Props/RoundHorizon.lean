import Verif.Model.RoundedHorizon
import Verif.Props.View
import Verif.Props.RoundDistance
import Verif.Props.RoundRay
import Verif.Props.RoundLens
import Verif.Props.RoundObject

/-! # C190: the horizon with rounding errors -/

namespace Rounded

open Projection Camera View

theorem sqrt_fac {k K : ℝ} (hk : |k| ≤ K) (hK : K ≤ 1) : |Real.sqrt (1 + k) - 1| ≤ K := by
  have h0 : 0 ≤ 1 + k := by linarith [(abs_le.1 hk).1]
  have hs := Real.sqrt_nonneg (1 + k)
  refine le_trans ?_ hk
  have e : k = (Real.sqrt (1 + k) - 1) * (Real.sqrt (1 + k) + 1) := by
    rw [show (Real.sqrt (1 + k) - 1) * (Real.sqrt (1 + k) + 1) = Real.sqrt (1 + k) ^ 2 - 1 by ring, Real.sq_sqrt h0]
    ring
  conv_rhs => rw [e]
  rw [abs_mul, abs_of_pos (by linarith : 0 < Real.sqrt (1 + k) + 1)]
  exact le_mul_of_one_le_right (abs_nonneg _) (by linarith)

theorem fac4 {u : ℝ} (hu : 0 ≤ u) (hu1 : u ≤ 1 / 100000) : (1 + u) ^ 4 - 1 ≤ 41 / 10 * u := by
  have h2 : u ^ 2 ≤ 1 / 100000 * u := by nlinarith
  have h3 : u ^ 3 ≤ 1 / 100000 * u := by nlinarith
  have h4 : u ^ 4 ≤ 1 / 100000 * u := by nlinarith [sq_nonneg (u ^ 2)]
  nlinarith

/-- The computed distance to the horizon. -/
theorem horizon_near {u h : ℝ} (hu : 0 ≤ u) (hu1 : u ≤ 1 / 100000) (hh : 0 < h) (hsmall : 10 * u * rEarth ≤ h) {out : Num} (ho : HorizonDistance u h out) :
    ∃ v, Num.Is out v ∧ |v - Real.sqrt (2 * rEarth ^ 2 * (1 - rEarth / (rEarth + h)))| ≤
      (21 / 10 * (rEarth / h) + 6) * u * Real.sqrt (2 * rEarth ^ 2 * (1 - rEarth / (rEarth + h))) := by
  have hR : (0 : ℝ) < rEarth := by norm_num [rEarth]
  have hRh : 0 < rEarth + h := by linarith
  obtain ⟨p, m, s, q, o, w, k1, k2, k3, k4, k5, k6, ho⟩ := ho
  obtain ⟨g1, f1, rfl⟩ := k1.fac hu
  obtain ⟨g2, f2, rfl⟩ := k2.fac hu
  obtain ⟨g3, f3, rfl⟩ := k3.fac hu
  obtain ⟨g4, f4, rfl⟩ := k4.fac hu
  obtain ⟨g5, f5, rfl⟩ := k5.fac hu
  obtain ⟨g6, f6, rfl⟩ := k6.fac hu
  have b3 : |g3 - 1| ≤ u := by simpa [Fac] using f3
  have b4 : |g4 - 1| ≤ u := by simpa [Fac] using f4
  have p3 : 99999 / 100000 ≤ g3 := by linarith [(abs_le.1 b3).1]
  -- the error of the quotient
  have hq : |g4 / g3 - 1| ≤ 201 / 100 * u := by
    rw [show g4 / g3 - 1 = (g4 - g3) / g3 by field_simp, abs_div, abs_of_pos (by linarith : 0 < g3), div_le_iff₀ (by linarith)]
    have h1 := abs_sub_le g4 1 g3
    rw [abs_sub_comm 1 g3] at h1
    nlinarith
  obtain ⟨α, hα⟩ : ∃ α, α = -(rEarth / h) * (g4 / g3 - 1) := ⟨_, rfl⟩
  have hαb : |α| ≤ 201 / 100 * (u * (rEarth / h)) := by
    rw [hα, abs_mul, abs_neg, abs_of_pos (by positivity : 0 < rEarth / h)]
    have := mul_le_mul_of_nonneg_left hq (by positivity : 0 ≤ rEarth / h)
    linarith
  obtain ⟨T, hT⟩ : ∃ T, T = u * (rEarth / h) := ⟨_, rfl⟩
  have hT0 : 0 ≤ T := by rw [hT]; positivity
  have hT1 : T ≤ 1 / 10 := by
    rw [hT, ← mul_div_assoc, div_le_iff₀ hh]
    linarith
  rw [← hT] at hαb
  have eo : 1 - rEarth / ((rEarth + h) * g3) * g4 = h / (rEarth + h) * (1 + α) := by
    rw [hα]
    field_simp
    ring
  obtain ⟨W, hW⟩ : ∃ W, W = 2 * rEarth ^ 2 * (1 - rEarth / (rEarth + h)) := ⟨_, rfl⟩
  have hW' : W = 2 * rEarth ^ 2 * (h / (rEarth + h)) := by rw [hW]; field_simp; ring
  have hW0 : 0 < W := by rw [hW']; positivity
  have fG : Fac u 4 (g1 * g2 * g5 * g6) := ((f1.mul f2).mul f5).mul f6
  obtain ⟨G, hG⟩ : ∃ G, G = g1 * g2 * g5 * g6 := ⟨_, rfl⟩
  rw [← hG] at fG
  have bG : |G - 1| ≤ 41 / 10 * u := le_trans fG (fac4 hu hu1)
  obtain ⟨κ, hκ⟩ : ∃ κ, κ = (1 + α) * G - 1 := ⟨_, rfl⟩
  have bκ : |κ| ≤ 203 / 100 * T + 42 / 10 * u := by
    rw [hκ, show (1 + α) * G - 1 = α * (G - 1) + (α + (G - 1)) by ring]
    have t1 := abs_add_le (α * (G - 1)) (α + (G - 1))
    have t2 := abs_add_le α (G - 1)
    have t3 : |α * (G - 1)| ≤ 201 / 100 * T * (41 / 10 * u) := by
      rw [abs_mul]
      exact mul_le_mul hαb bG (abs_nonneg _) (by positivity)
    have t4 : T * u ≤ T * (1 / 100000) := mul_le_mul_of_nonneg_left hu1 hT0
    linarith
  have ew : 2 * (rEarth ^ 2 * g1) * g2 * ((1 - rEarth / ((rEarth + h) * g3) * g4) * g5) * g6 = W * (1 + κ) := by
    rw [eo, hκ, hG, hW']
    ring
  have hκ1 : 0 < 1 + κ := by linarith [(abs_le.1 bκ).1]
  rw [ew] at ho
  rcases ho with ⟨h0, -⟩ | ⟨-, d, hd, hout⟩
  · exact absurd h0 (not_lt.2 (mul_pos hW0 hκ1).le)
  · refine ⟨d, hout, ?_⟩
    rw [← hW]
    obtain ⟨g7, f7, rfl⟩ := hd.fac hu
    have b7 : |g7 - 1| ≤ u := by simpa [Fac] using f7
    rw [Real.sqrt_mul hW0.le]
    obtain ⟨S, hS⟩ : ∃ S, S = Real.sqrt W := ⟨_, rfl⟩
    have hS0 : 0 ≤ S := by rw [hS]; exact Real.sqrt_nonneg _
    obtain ⟨σ, hσ⟩ : ∃ σ, σ = Real.sqrt (1 + κ) - 1 := ⟨_, rfl⟩
    have bσ : |σ| ≤ 203 / 100 * T + 42 / 10 * u := by rw [hσ]; exact sqrt_fac bκ (by linarith)
    rw [← hS, show Real.sqrt (1 + κ) = 1 + σ by rw [hσ]; ring, show S * (1 + σ) * g7 - S = (σ * (g7 - 1) + (σ + (g7 - 1))) * S by ring, abs_mul, abs_of_nonneg hS0]
    refine mul_le_mul_of_nonneg_right ?_ hS0
    have t1 := abs_add_le (σ * (g7 - 1)) (σ + (g7 - 1))
    have t2 := abs_add_le σ (g7 - 1)
    have t3 : |σ * (g7 - 1)| ≤ (203 / 100 * T + 42 / 10 * u) * u := by
      rw [abs_mul]
      exact mul_le_mul bσ b7 (abs_nonneg _) (by positivity)
    have t4 : T * u ≤ T * (1 / 100000) := mul_le_mul_of_nonneg_left hu1 hT0
    have t5 : u * u ≤ u * (1 / 100000) := mul_le_mul_of_nonneg_left hu1 hu
    have e : (21 / 10 * (rEarth / h) + 6) * u = 21 / 10 * T + 6 * u := by rw [hT]; ring
    rw [e]
    linarith

end Rounded

open Rounded View in
/-- **C190** The distance to the horizon with rounding errors.  The difference `1 - R / (R + h)` loses digits, so the error is relative to `R / h`. -/
theorem C190_distance (u h : ℝ) (hu : 0 ≤ u) (hu1 : u ≤ 1 / 100000) (hh : 0 < h) (hsmall : 10 * u * rEarth ≤ h) (out : Num) (ho : HorizonDistance u h out) :
    ∃ v v0, Num.Is out v ∧ Num.Is (distanceToHorizon h) v0 ∧ |v - v0| ≤ (21 / 10 * (rEarth / h) + 6) * u * v0 := by
  obtain ⟨v, hv, hb⟩ := horizon_near hu hu1 hh hsmall ho
  exact ⟨v, _, hv, horizon_value hh.le, hb⟩

open Rounded View Projection Camera in
/-- The height of the point of a row at the distance of the horizon. -/
theorem Rounded.horizon_height (I : Intr) (hfx : I.fx ≠ 0) (hfy : I.fy ≠ 0) {u e : ℝ} (hu : 0 ≤ u) (hu1 : u ≤ 1 / 600000) (he1 : e ≤ 1 / 1000) (o : Orient) (Rinv : M3)
    (hR : Near e Rinv o.mat.Rinv) (p : V2 ℝ) {v v0 K : ℝ} {D : Num} (hD : Num.Is D v0) (h0 : 0 ≤ v0) (hv : 0 ≤ v) (hvb : |v - v0| ≤ K * v0) {out P : V3 Num}
    {Q : V3 ℝ} (hP : spaceFromImage ⟨.rectilinear, I, o, noDistortion⟩ p.num { D := some D } = .ok P) (hQ : P.Is Q) (ho : SpaceFromImageD u I o.pos Rinv p v out) :
    ∃ q : V3 ℝ, out.Is q ∧ |q.z - Q.z| ≤ (2 * e + 70 * u) * (1 + K) * v0 + u * |o.pos.z| + K * v0 := by
  obtain ⟨w, q, q0, hq, hw, hq0, hb⟩ := C152_distance I hfx hfy u e hu hu1 he1 o Rinv hR p v hv out ho
  refine ⟨q, hq, ?_⟩
  have he : 0 ≤ e := (abs_nonneg _).trans hR.1
  have hoff := getRay_offset ⟨.rectilinear, I, o, noDistortion⟩ p.num true
  obtain ⟨s, -, -, hs, hdir⟩ := getRay_dir ⟨.rectilinear, I, o, noDistortion⟩ hfx hfy (V2.is_num p) true
  have hn := dirR_norm_pos ⟨.rectilinear, I, o, noDistortion⟩ p
  have e1 := pointAt_is hdir hoff hD h0
  have e2 := pointAt_is hdir hoff (Num.is_fin v) hv
  have eQ : Q = _ := (show P.Is Q from hQ).unique (by cases hP; exact e1)
  have eq0 : q0 = _ := (show w.Is q0 from hq0).unique (by cases hw; exact e2)
  have hz : |(dirR ⟨.rectilinear, I, o, noDistortion⟩ p).z * s| ≤ 1 := by
    rw [hs rfl, mul_one_div, abs_div, abs_of_pos hn, div_le_one hn]
    exact nrm_coord _ 2
  have ez : q0.z - Q.z = (dirR ⟨.rectilinear, I, o, noDistortion⟩ p).z * s * (v - v0) := by
    rw [eQ, eq0]
    simp only [V3.add_z, V3.mulS_z]
    ring
  have b1 : |q0.z - Q.z| ≤ K * v0 := by
    rw [ez, abs_mul]
    exact (mul_le_of_le_one_left (abs_nonneg _) hz).trans hvb
  have b2 : |q.z - q0.z| ≤ (2 * e + 70 * u) * v + u * |o.pos.z| := hb 2
  have b3 : v ≤ (1 + K) * v0 := by linarith [(abs_le.1 hvb).2]
  have b4 := mul_le_mul_of_nonneg_left b3 (by positivity : 0 ≤ 2 * e + 70 * u)
  have := abs_sub_le q.z q0.z Q.z
  linarith

open Rounded View Projection Camera in
/-- **C190** The row of the horizon with rounding errors: it is a row of the image (not nan), and the point that is seen in it at the distance of the horizon is at most `2 E`
further from height zero than the one of any other row. -/
theorem C190_row (I : Intr) (hfx : I.fx ≠ 0) (hfy : I.fy ≠ 0) (hh : 0 < I.h) (u e : ℝ) (hu : 0 ≤ u) (hu1 : u ≤ 1 / 600000) (he1 : e ≤ 1 / 1000) (o : Orient)
    (Rinv : M3) (hR : Near e Rinv o.mat.Rinv) (hz : 0 < o.pos.z) (hsmall : 10 * u * rEarth ≤ o.pos.z) (x v0 K E : ℝ)
    (hv0 : Num.Is (distanceToHorizon o.pos.z) v0) (hK : K = (21 / 10 * (rEarth / o.pos.z) + 6) * u)
    (hE : E = (2 * e + 70 * u) * (1 + K) * v0 + u * o.pos.z + K * v0) (Q : ℕ → V3 ℝ)
    (hQ : ∀ y < ⌈I.h⌉₊, ∃ P, spaceFromImage ⟨.rectilinear, I, o, noDistortion⟩ (V2.num ⟨x, y⟩) { D := some (distanceToHorizon o.pos.z) } = .ok P ∧ P.Is (Q y))
    (out : Option ℕ) (ho : HorizonRow u I o.pos Rinv x out) :
    ∃ y, out = some y ∧ y < ⌈I.h⌉₊ ∧ ∀ y' < ⌈I.h⌉₊, |(Q y).z| ≤ |(Q y').z| + 2 * E := by
  obtain ⟨D, P, hD, hP, rfl⟩ := ho
  have ev : v0 = _ := hv0.unique (horizon_value hz.le)
  have h0 : 0 ≤ v0 := by rw [ev]; exact Real.sqrt_nonneg _
  obtain ⟨v, hv, hb⟩ := horizon_near hu (by linarith) hz hsmall hD
  rw [← ev, ← hK] at hb
  have hK1 : K ≤ 1 := by
    have : u * (rEarth / o.pos.z) ≤ 1 / 10 := by
      rw [← mul_div_assoc, div_le_iff₀ hz]
      linarith
    rw [hK]
    linarith
  have hv1 : 0 ≤ v := by
    have := (abs_le.1 hb).1
    have := mul_le_of_le_one_left h0 hK1
    linarith
  have real : ∀ y < ⌈I.h⌉₊, ∃ q : V3 ℝ, (P y).Is q ∧ |q.z - (Q y).z| ≤ E := by
    intro y hy
    obtain ⟨W, hW, hWQ⟩ := hQ y hy
    rcases hP y hy with ⟨rfl, -⟩ | ⟨d, hd, hPy⟩
    · exact absurd hv (by simp [Num.Is])
    · have ed := hd.unique hv
      subst ed
      obtain ⟨q, hq, hqb⟩ := horizon_height I hfx hfy hu hu1 he1 o Rinv hR _ hv0 h0 hv1 hb hW hWQ hPy
      rw [abs_of_pos hz, ← hE] at hqb
      exact ⟨q, hq, hqb⟩
  obtain ⟨h1, h2⟩ := nanargmin_spec ((List.range ⌈I.h⌉₊).map fun y => Num.abs (P y).z) (by
    intro z hz
    simp only [List.mem_map, List.mem_range] at hz
    obtain ⟨y, hy, rfl⟩ := hz
    obtain ⟨q, hq, -⟩ := real y hy
    exact hq.2.2.abs.not_inf)
  have hpos : 0 < ⌈I.h⌉₊ := Nat.ceil_pos.mpr hh
  cases hr : nanargmin ((List.range ⌈I.h⌉₊).map fun y => Num.abs (P y).z) with
  | none =>
    obtain ⟨q, hq, -⟩ := real 0 hpos
    exact absurd (h1.1 hr _ (List.mem_map.mpr ⟨0, List.mem_range.mpr hpos, rfl⟩)) hq.2.2.abs.ne_nan
  | some y =>
    obtain ⟨z, h3, h4, h5, -⟩ := h2 y hr
    rw [List.getElem?_map] at h3
    obtain ⟨y', h7, h8⟩ := Option.map_eq_some_iff.mp h3
    have hlt : y < ⌈I.h⌉₊ := by
      by_contra hc
      rw [List.getElem?_eq_none (by simpa using hc)] at h7
      simp at h7
    rw [List.getElem?_range hlt] at h7
    simp only [Option.some.injEq] at h7
    subst h7
    subst h8
    refine ⟨y, rfl, hlt, fun y' hy' => ?_⟩
    obtain ⟨q, hq, hqb⟩ := real y hlt
    obtain ⟨q', hq', hqb'⟩ := real y' hy'
    have hle : |q.z| ≤ |q'.z| :=
      (hq.2.2.abs.le_iff hq'.2.2.abs).mp (h5 _ (List.mem_map.mpr ⟨y', List.mem_range.mpr hy', rfl⟩) hq'.2.2.abs.ne_nan)
    have t1 := abs_sub_abs_le_abs_sub (Q y).z q.z
    rw [abs_sub_comm] at t1
    have t2 := abs_sub_abs_le_abs_sub q'.z (Q y').z
    linarith

open Rounded View Projection Camera in
/-- **C190** If the exact row of the horizon is better than all other rows by more than the rounding errors, it is found. -/
theorem C190_same_row (I : Intr) (hfx : I.fx ≠ 0) (hfy : I.fy ≠ 0) (hh : 0 < I.h) (u e : ℝ) (hu : 0 ≤ u) (hu1 : u ≤ 1 / 600000) (he1 : e ≤ 1 / 1000) (o : Orient)
    (Rinv : M3) (hR : Near e Rinv o.mat.Rinv) (hz : 0 < o.pos.z) (hsmall : 10 * u * rEarth ≤ o.pos.z) (x v0 K E : ℝ)
    (hv0 : Num.Is (distanceToHorizon o.pos.z) v0) (hK : K = (21 / 10 * (rEarth / o.pos.z) + 6) * u)
    (hE : E = (2 * e + 70 * u) * (1 + K) * v0 + u * o.pos.z + K * v0) (Q : ℕ → V3 ℝ)
    (hQ : ∀ y < ⌈I.h⌉₊, ∃ P, spaceFromImage ⟨.rectilinear, I, o, noDistortion⟩ (V2.num ⟨x, y⟩) { D := some (distanceToHorizon o.pos.z) } = .ok P ∧ P.Is (Q y))
    (y0 : ℕ) (hgap : ∀ y < ⌈I.h⌉₊, y ≠ y0 → |(Q y0).z| + 2 * E < |(Q y).z|)
    (hy0 : y0 < ⌈I.h⌉₊) (out : Option ℕ) (ho : HorizonRow u I o.pos Rinv x out) :
    out = some y0 ∧ horizonRow ⟨.rectilinear, I, o, noDistortion⟩ x = .ok (some y0) := by
  obtain ⟨y, h1, h2, h3⟩ := C190_row I hfx hfy hh u e hu hu1 he1 o Rinv hR hz hsmall x v0 K E hv0 hK hE Q hQ out ho
  have hE0 : 0 ≤ E := by
    have := h3 y h2
    linarith
  constructor
  · by_contra hne
    have hy : y ≠ y0 := fun h => hne (by rw [h1, h])
    have := hgap y h2 hy
    have := h3 y0 hy0
    linarith
  · obtain ⟨Q', y', g1, g2, g3, g4, -⟩ := C81_horizon_real ⟨.rectilinear, I, o, noDistortion⟩ ⟨hfx, hfy⟩ x hz.le hh (fun y _ => ⟨⟨x, y⟩, V2.is_num _⟩)
    have same : ∀ y < ⌈I.h⌉₊, Q' y = Q y := by
      intro y hy
      obtain ⟨P, a1, a2⟩ := hQ y hy
      obtain ⟨P', b1, b2⟩ := g3 y hy
      rw [a1] at b1
      cases b1
      exact b2.unique a2
    rw [g1]
    by_contra hne
    have hy : y' ≠ y0 := fun h => hne (by rw [h])
    have t1 := hgap y' g2 hy
    have t2 := g4 y0 hy0
    rw [same y' g2, same y0 hy0] at t2
    linarith

namespace Rounded

open Projection Camera View

theorem HorizonDistance.exists {u : ℝ} (hu : 0 ≤ u) (h : ℝ) : ∃ out, HorizonDistance u h out ∧ (out = .nan ∨ ∃ d, Num.Is out d) := by
  by_cases hw : 2 * rEarth ^ 2 * (1 - rEarth / (rEarth + h)) < 0
  · exact ⟨.nan, ⟨_, _, _, _, _, _, Rd.exact hu _, Rd.exact hu _, Rd.exact hu _, Rd.exact hu _, Rd.exact hu _, Rd.exact hu _, .inl ⟨hw, rfl⟩⟩, .inl rfl⟩
  · exact ⟨.fin (Real.sqrt (2 * rEarth ^ 2 * (1 - rEarth / (rEarth + h)))), ⟨_, _, _, _, _, _, Rd.exact hu _, Rd.exact hu _, Rd.exact hu _, Rd.exact hu _, Rd.exact hu _,
      Rd.exact hu _, .inr ⟨not_lt.1 hw, _, Rd.exact hu _, Num.is_fin _⟩⟩, .inr ⟨_, Num.is_fin _⟩⟩

theorem HorizonRow.exists {u : ℝ} (hu : 0 ≤ u) (I : Intr) (t : V3 ℝ) (Rinv : M3) (x : ℝ) : ∃ out, HorizonRow u I t Rinv x out := by
  obtain ⟨D, hD, c⟩ := HorizonDistance.exists hu t.z
  rcases c with rfl | ⟨d, hd⟩
  · exact ⟨_, _, fun _ => V3.nan, hD, fun _ _ => .inl ⟨rfl, rfl⟩, rfl⟩
  · choose P hP using fun y : ℕ => SpaceFromImageD.exists hu I t Rinv ⟨x, y⟩ d
    exact ⟨_, _, P, hD, fun y _ => .inr ⟨d, hd, hP y⟩, rfl⟩

/-- The exact height of a point at a distance, seen by the camera that looks down. -/
theorem exOrient_height (I : Intr) (hfx : I.fx ≠ 0) (hfy : I.fy ≠ 0) (p : V2 ℝ) {v0 : ℝ} {D : Num} (hD : Num.Is D v0) (h0 : 0 ≤ v0) {P : V3 Num} {Q : V3 ℝ}
    (hP : spaceFromImage ⟨.rectilinear, I, exOrient, noDistortion⟩ p.num { D := some D } = .ok P) (hQ : P.Is Q) :
    Q.z = 10 - v0 / Real.sqrt (((p.x - I.cx) / I.fx) ^ 2 + ((p.y - I.cy) / I.fy) ^ 2 + 1) := by
  have hoff := getRay_offset ⟨.rectilinear, I, exOrient, noDistortion⟩ p.num true
  obtain ⟨s, -, -, hs, hdir⟩ := getRay_dir ⟨.rectilinear, I, exOrient, noDistortion⟩ hfx hfy (V2.is_num p) true
  have e1 := pointAt_is hdir hoff hD h0
  have eQ : Q = _ := hQ.unique (by cases hP; exact e1)
  have hd : dirR ⟨.rectilinear, I, exOrient, noDistortion⟩ p = ⟨(p.x - I.cx) / I.fx, -((p.y - I.cy) / I.fy), -1⟩ := by
    unfold dirR
    rw [exOrient_mat.1]
    ext <;> simp [rayR, M3.applyR, M3.one, M3.T, V3.dot]
  rw [eQ, hs rfl, hd]
  have hn : V3.norm ⟨(p.x - I.cx) / I.fx, -((p.y - I.cy) / I.fy), -1⟩ = Real.sqrt (((p.x - I.cx) / I.fx) ^ 2 + ((p.y - I.cy) / I.fy) ^ 2 + 1) := by
    unfold V3.norm
    congr 1
    simp only [V3.normSq]
    ring
  rw [hn]
  simp only [V3.add_z, V3.mulS_z]
  show -1 * (1 / _) * v0 + (10 : ℝ) = _
  ring

end Rounded

open Rounded View Projection Camera in
/-- For a camera 10 m above the ground the error of the distance is less than a hundredth of a millimetre. -/
example : ∃ out v v0, HorizonDistance (1 / 2 ^ 53) 10 out ∧ Num.Is out v ∧ Num.Is (distanceToHorizon 10) v0 ∧ |v - v0| ≤ 1 / 10 ^ 5 := by
  obtain ⟨out, ho, -⟩ := HorizonDistance.exists (u := 1 / 2 ^ 53) (by norm_num) 10
  obtain ⟨v, v0, h1, h2, h3⟩ := C190_distance (1 / 2 ^ 53) 10 (by norm_num) (by norm_num) (by norm_num) (by norm_num [rEarth]) out ho
  refine ⟨out, v, v0, ho, h1, h2, h3.trans ?_⟩
  have ev : v0 ≤ 12000 := by
    rw [h2.unique (horizon_value (by norm_num))]
    exact Real.sqrt_le_iff.2 (by norm_num [rEarth])
  norm_num [rEarth]
  linarith

open Rounded View Projection Camera in
/-- An image of two rows, taken by a camera that looks down: the upper row is closer to the horizon, also with rounding errors. -/
example : ∃ out, HorizonRow (1 / 2 ^ 53) ⟨100, 100, 50, 25, 100, 2⟩ exOrient.pos exOrient.mat.Rinv 50 out ∧ out = some 0 ∧
    horizonRow ⟨.rectilinear, ⟨100, 100, 50, 25, 100, 2⟩, exOrient, noDistortion⟩ 50 = .ok (some 0) := by
  have hz : exOrient.pos.z = 10 := rfl
  obtain ⟨out, ho⟩ := HorizonRow.exists (u := 1 / 2 ^ 53) (by norm_num) ⟨100, 100, 50, 25, 100, 2⟩ exOrient.pos exOrient.mat.Rinv 50
  refine ⟨out, ho, ?_⟩
  obtain ⟨v0, hv0, hlo, hhi⟩ : ∃ v0, Num.Is (distanceToHorizon exOrient.pos.z) v0 ∧ 11000 ≤ v0 ∧ v0 ≤ 12000 := by
    refine ⟨_, horizon_value (by rw [hz]; norm_num), Real.le_sqrt_of_sq_le (by norm_num [rEarth, hz]), Real.sqrt_le_iff.2 (by norm_num [rEarth, hz])⟩
  obtain ⟨Q, -, -, -, hQ, -⟩ := C81_horizon_real ⟨.rectilinear, ⟨100, 100, 50, 25, 100, 2⟩, exOrient, noDistortion⟩ ⟨by norm_num, by norm_num⟩ 50
    (by show 0 ≤ exOrient.pos.z; rw [hz]; norm_num) (by norm_num) (fun y _ => ⟨⟨50, y⟩, V2.is_num _⟩)
  have hc : ⌈(2 : ℝ)⌉₊ = 2 := by norm_num
  have val : ∀ y < ⌈(2 : ℝ)⌉₊, (Q y).z = 10 - v0 / Real.sqrt (((50 - 50) / 100) ^ 2 + (((y : ℝ) - 25) / 100) ^ 2 + 1) := by
    intro y hy
    obtain ⟨P, h1, h2⟩ := hQ y hy
    exact exOrient_height ⟨100, 100, 50, 25, 100, 2⟩ (by norm_num) (by norm_num) ⟨50, y⟩ hv0 (by linarith) h1 h2
  refine C190_same_row ⟨100, 100, 50, 25, 100, 2⟩ (by norm_num) (by norm_num) (by norm_num) (1 / 2 ^ 53) 0 (by norm_num) (by norm_num) (by norm_num) exOrient _
    (Near.refl le_rfl _) (by rw [hz]; norm_num) (by rw [hz]; norm_num [rEarth]) 50 v0 _ _ hv0 rfl rfl Q hQ 0 ?_ (by norm_num) out ho
  intro y hy hne
  have hy1 : y = 1 := by
    have : y < 2 := by simpa using hy
    omega
  subst hy1
  rw [val 0 (by rw [hc]; norm_num), val 1 (by rw [hc]; norm_num)]
  have s0 : (10307 / 10000 : ℝ) ≤ Real.sqrt (((50 - 50) / 100) ^ 2 + (((0 : ℕ) : ℝ) - 25) ^ 2 / 100 ^ 2 + 1) := Real.le_sqrt_of_sq_le (by norm_num)
  have s1 : Real.sqrt (((50 - 50) / 100) ^ 2 + (((1 : ℕ) : ℝ) - 25) ^ 2 / 100 ^ 2 + 1) ≤ (10285 / 10000 : ℝ) := Real.sqrt_le_iff.2 (by norm_num)
  rw [← div_pow] at s0 s1
  obtain ⟨a, ha⟩ : ∃ a, a = Real.sqrt (((50 - 50) / 100) ^ 2 + ((((0 : ℕ) : ℝ) - 25) / 100) ^ 2 + 1) := ⟨_, rfl⟩
  obtain ⟨b, hb⟩ : ∃ b, b = Real.sqrt (((50 - 50) / 100) ^ 2 + ((((1 : ℕ) : ℝ) - 25) / 100) ^ 2 + 1) := ⟨_, rfl⟩
  have hb1 : 1 ≤ b := by rw [hb]; exact Real.le_sqrt_of_sq_le (by norm_num)
  rw [← ha] at s0 ⊢
  rw [← hb] at s1 ⊢
  have q0 : v0 / a ≤ v0 * (10000 / 10307) := by
    rw [div_le_iff₀ (by linarith)]
    nlinarith
  have q1 : v0 * (10000 / 10285) ≤ v0 / b := by
    rw [le_div_iff₀ (by linarith)]
    nlinarith
  have a0 : 10 - v0 / a ≤ 0 := by
    have : 10 ≤ v0 / a := by
      rw [le_div_iff₀ (by linarith)]
      have : a ≤ 2 := by rw [ha]; exact Real.sqrt_le_iff.2 (by norm_num)
      linarith
    linarith
  rw [abs_of_nonpos a0, abs_of_nonpos (by linarith), hz]
  norm_num [rEarth]
  linarith
