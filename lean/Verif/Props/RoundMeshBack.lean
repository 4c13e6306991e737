import Verif.Model.RoundedMeshImage
import Verif.Props.RoundMeshImage
import Verif.Props.RoundTrip

/-! # C198: from a pixel to a mesh and back, with rounding errors -/

open Classical

namespace Rounded

/-- The factor of a hit is not negative. -/
theorem MeshHit.factor {u : ℝ} {o v : V3 ℝ} {mesh : List (Ray.Tri ℝ)} {P : V3 ℝ} (h : MeshHit u o v mesh (some P)) : ∃ q, 0 ≤ q ∧ Along u o v q P := by
  obtain ⟨rs, hf, ⟨-, h1⟩ | ⟨q, hq, -, P', hP', hal⟩⟩ := h
  · simp at h1
  rw [Option.some_inj] at hP'
  subst hP'
  refine ⟨q, ?_, hal⟩
  obtain ⟨i, hi, e'⟩ := List.getElem_of_mem hq
  have hl := hf.length_eq
  have ht := List.Forall₂.get hf (hl ▸ hi) hi
  simp only [List.get_eq_getElem] at ht
  rw [e'] at ht
  obtain ⟨r0, ⟨_, _, _, _, b, a, -, -, -, -, -, -, hp⟩, hno, hso⟩ := ht
  have hr0 : r0 = some q := by
    cases r0 with
    | none => simpa using hno rfl
    | some q1 =>
      obtain ⟨_, oo, -, -, c1, c2⟩ := hso q1 rfl
      by_cases hoo : oo = none
      · simpa using c1 hoo
      · exact (c2 hoo).symm
  split at hp
  · rw [hr0] at hp
    simp at hp
  · obtain ⟨q2, -, hp⟩ := hp
    split at hp
    · rw [hr0] at hp
      simp at hp
    · rename_i hneg
      rw [hr0, Option.some_inj] at hp
      rw [hp]
      exact not_lt.1 hneg

/-- The factor of a point that is computed along a ray is not much smaller than its distance in units of the length of the exact direction. -/
theorem Along.far {u q s : ℝ} (hu : 0 ≤ u) (hu1 : u ≤ 1 / 100000) {o d v P : V3 ℝ} (hal : Along u o v q P) (hq0 : 0 ≤ q) (hd1 : 1 ≤ d.norm)
    (hv : (v - d).norm ≤ 1 / 80 * d.norm) (hs : 0 < s) (hsd : s * d.norm = o.dist P) (t2 : u * size o ≤ 1 / 50 * s) : 3 / 5 * s ≤ q := by
  obtain ⟨a, b, c, i1, i3, i5, i2, i4, i6⟩ := hal
  have hδ : 0 < d.norm := by linarith
  have hvn := abs_le.1 ((norm_diff v d).trans hv)
  have hvd : v.norm ≤ 81 / 80 * d.norm := by linarith
  -- the distance of the point
  have hco : ∀ {x y a P : ℝ}, Rd u (q * y) a → Rd u (x + a) P → |P - (x + q * y)| ≤ 21 / 10 * (u * |q * y|) + u * |x| := by
    intro x y a P ha hP
    have k1 : |a - q * y| ≤ 0 + u * |q * y| := rd_close hu ha (by simp) le_rfl
    have k2 : |x + a - (x + q * y)| ≤ u * |q * y| := by rw [add_sub_add_left_eq_sub]; linarith
    have k3 := rd_close hu hP k2 (abs_close k2 (abs_add_le x (q * y)))
    have k4 : u * (u * |q * y|) ≤ 1 / 100000 * (u * |q * y|) := mul_le_mul_of_nonneg_right hu1 (by positivity)
    have k5 : 0 ≤ u * |q * y| := by positivity
    linarith
  have hdist : o.dist P ≤ 102 / 100 * (q * d.norm) + u * size o := by
    have t1 := norm_sum (P - Geo.at' o v q)
    have t2 : |(P - Geo.at' o v q).x| ≤ _ := hco i1 i2
    have t3 : |(P - Geo.at' o v q).y| ≤ _ := hco i3 i4
    have t4 : |(P - Geo.at' o v q).z| ≤ _ := hco i5 i6
    have t5 : o.dist P ≤ (P - Geo.at' o v q).norm + q * v.norm := by
      rw [← dist_sub, ← abs_of_nonneg hq0, ← nrm_mulS, abs_of_nonneg hq0]
      refine le_trans (le_of_eq ?_) (nrm_add _ _)
      congr 1
      ext <;> simp [Geo.at'] <;> ring
    have cj : ∀ j, |q * v.get j| ≤ q * v.norm := fun j => by
      rw [abs_mul, abs_of_nonneg hq0]
      exact mul_le_mul_of_nonneg_left (nrm_coord v j) hq0
    have c0 : |q * v.x| ≤ _ := cj 0
    have c1 : |q * v.y| ≤ _ := cj 1
    have c2 : |q * v.z| ≤ _ := cj 2
    have m0 := mul_le_mul_of_nonneg_left c0 hu
    have m1 := mul_le_mul_of_nonneg_left c1 hu
    have m2 := mul_le_mul_of_nonneg_left c2 hu
    have hqv : 0 ≤ q * v.norm := mul_nonneg hq0 (V3.norm_nonneg _)
    have m3 := mul_le_mul_of_nonneg_right hu1 hqv
    have m4 := mul_le_mul_of_nonneg_left hvd hq0
    have m5 : u * size o = u * |o.x| + u * |o.y| + u * |o.z| := by unfold size; ring
    have m6 : 0 ≤ q * d.norm := mul_nonneg hq0 hδ.le
    linarith
  have t3 := mul_le_mul_of_nonneg_left hd1 hs.le
  have t4 : 3 / 5 * s * d.norm ≤ q * d.norm := by
    have : 0 ≤ s * d.norm := mul_nonneg hs.le hδ.le
    linarith
  exact le_of_mul_le_mul_right t4 hδ

end Rounded

open Projection Rounded Camera in
theorem Rounded.one_le_direction (k : Kind) (I : Intr) (o : Orient) (p : V2 ℝ) : 1 ≤ (o.mat.Rinv.applyR (rayR k I p)).norm := by
  have hinv : o.mat.Rinv = o.mat.R.T := by cases o <;> exact Spatial.inv_rot _ _ _
  have hnorm : (o.mat.Rinv.applyR (rayR k I p)).norm = (rayR k I p).norm := by
    rw [hinv]
    unfold V3.norm
    rw [M3.normSq_applyR (A := o.mat.R.T) (rigid_mat o).RT]
  rw [hnorm]
  exact one_le_ray k I p

open Projection Rounded Camera in
/-- **C198** From a pixel to a mesh and back: whatever the mesh, a point that is reported for the pixel has an image close to the pixel, also where the ray meets
the mesh at a flat angle or near to an edge and another triangle is hit because of rounding errors.  `s` is the distance of the point in units of the length of the
direction. -/
theorem C198_back (I : Intr) (hfx : I.fx ≠ 0) (hfy : I.fy ≠ 0) (u e : ℝ) (hu : 0 ≤ u) (hu1 : u ≤ 1 / 100000) (he1 : e ≤ 1 / 1000)
    (o : Orient) (R Rinv : M3) (hR : Near e R o.mat.R) (hRi : Near e Rinv o.mat.Rinv) (p : V2 ℝ) (hide : Bool) (r d : V3 ℝ)
    (hr : (Projection.getRay .rectilinear I p.num).Is r) (hd : (Camera.getRay ⟨.rectilinear, I, o, noDistortion⟩ p.num).2.Is d)
    (mesh : List (Ray.Tri ℝ)) (P : V3 ℝ) (h : SpaceFromImageMesh u .rectilinear I o.pos Rinv p mesh (some P)) (s : ℝ) (hs : s * d.norm = o.pos.dist P) (hs0 : 6 * minDepth ≤ s)
    (hsmall : (e + 9 * u) * size r + 5 / 3 * u * size o.pos / s ≤ 1 / 30) (out : V2 Num) (ho : ImageFromSpace u I o.pos R P hide out) :
    ∃ w : V2 ℝ, out.Is w ∧
      |w.x - p.x| ≤ ((12 * e + 97 * u) * size r + 6 * u * size o.pos / s) * (|I.fx| + |p.x - I.cx|) + u * |I.cx| ∧
      |w.y - p.y| ≤ ((12 * e + 97 * u) * size r + 6 * u * size o.pos / s) * (|I.fy| + |p.y - I.cy|) + u * |I.cy| := by
  have he : 0 ≤ e := (abs_nonneg _).trans hR.1
  have hrr : r = rayR .rectilinear I p := hr.unique (getRay_is .rectilinear hfx hfy (V2.is_num p))
  have hdd : d = o.mat.Rinv.applyR r := hd.unique (M3.apply_is hr)
  have hmp : 0 < minDepth := by norm_num [minDepth]
  have hsp : 0 < s := by linarith
  obtain ⟨v, hdir, h⟩ := h
  obtain ⟨q, hq0, hal⟩ := h.factor
  obtain ⟨hδ, hv⟩ := direction_rel_near hu hu1 he1 I hfx hfy o Rinv hRi p hd hdir
  have hn := direction_near I hu hu1 he1 o Rinv hRi p v hdir
  rw [← hrr, ← hdd] at hn
  have hS : 0 ≤ size r := size_nonneg r
  have hO : 0 ≤ size o.pos := size_nonneg _
  have hts : 0 ≤ u * size o.pos / s := div_nonneg (mul_nonneg hu hO) hsp.le
  have e0 : 5 / 3 * u * size o.pos / s = 5 / 3 * (u * size o.pos / s) := by ring
  have hes9 : 0 ≤ (e + 9 * u) * size r := by positivity
  have hd1 : 1 ≤ d.norm := by rw [hdd, hrr]; exact one_le_direction _ I o p
  have hle := hal.far hu hu1 hq0 hd1 (hv.trans (mul_le_mul_of_nonneg_right (by linarith) hδ.le)) hsp hs
    ((div_le_iff₀ hsp).1 (by linarith))
  obtain ⟨a, b, c, i1, i3, i5, i2, i4, i6⟩ := hal
  have hT : ∀ j, |o.pos.get j| ≤ size o.pos := by
    intro j
    have h1 := abs_nonneg o.pos.x
    have h2 := abs_nonneg o.pos.y
    have h3 := abs_nonneg o.pos.z
    unfold size
    fin_cases j
    · show |o.pos.x| ≤ _; linarith
    · show |o.pos.y| ≤ _; linarith
    · show |o.pos.z| ≤ _; linarith
  have hpt : ∀ j, |(P - o.pos).get j - q * d.get j| ≤ q * ((e + 9 * u) * size r + 5 / 3 * u * size o.pos / s) := by
    rw [mul_comm q] at i1 i3 i5
    rw [add_comm] at i2 i4 i6
    intro j
    fin_cases j
    · exact point_near hu hu1 he he1 hS hsp (hT 0) hle (hn 0).1 (hn 0).2 i1 i2
    · exact point_near hu hu1 he he1 hS hsp (hT 1) hle (hn 1).1 (hn 1).2 i3 i4
    · exact point_near hu hu1 he he1 hS hsp (hT 2) hle (hn 2).1 (hn 2).2 i5 i6
  rw [hdd, hrr] at hpt
  have hes : (e + 6 * u) * size r ≤ 1 / 30 := by
    have h1 : 0 ≤ u * size r := by positivity
    linarith
  rw [hrr] at hsmall hes ⊢
  obtain ⟨w, w1, w2, w3⟩ := back I hfx hfy hu hu1 he1 o R hR p hide (f := q) (by linarith) (by linarith) hes _ hpt out ho
  have fin : ∀ G : ℝ, 0 ≤ G → ((8 * e + 67 * u) * size (rayR .rectilinear I p) + 10 / 3 * ((e + 9 * u) * size (rayR .rectilinear I p) + 5 / 3 * u * size o.pos / s)) * G ≤
      ((12 * e + 97 * u) * size (rayR .rectilinear I p) + 6 * u * size o.pos / s) * G := by
    intro G hG
    refine mul_le_mul_of_nonneg_right ?_ hG
    rw [← hrr]
    have h1 : 0 ≤ e * size r := by positivity
    have e2 : 6 * u * size o.pos / s = 6 * (u * size o.pos / s) := by ring
    rw [e0, e2]
    linarith
  have f1 := fin (|I.fx| + |p.x - I.cx|) (by positivity)
  have f2 := fin (|I.fy| + |p.y - I.cy|) (by positivity)
  exact ⟨w, w1, by linarith, by linarith⟩

open Projection Rounded Camera in
/-- **C198** The same for all three projections, for pixels whose rays lead away from the camera plane. -/
theorem C198_back_any (k : Kind) (I : Intr) (hfx : I.fx ≠ 0) (hfy : I.fy ≠ 0) (u e : ℝ) (hu : 0 ≤ u) (hu1 : u ≤ 1 / 200000) (he1 : e ≤ 1 / 2000)
    (o : Orient) (R Rinv : M3) (hR : Near e R o.mat.R) (hRi : Near e Rinv o.mat.Rinv) (p : V2 ℝ) (hx : |(p.x - I.cx) / I.fx| < Real.pi ∨ k = .rectilinear)
    (hy : k = .equirectangular → |(p.y - I.cy) / I.fy| < Real.pi / 2)
    (hpole : k = .equirectangular → 201 / 100 * u * |(p.y - I.cy) / I.fy| ≤ |Real.cos ((p.y - I.cy) / I.fy)| / 2) (r d : V3 ℝ)
    (hr : (Projection.getRay k I p.num).Is r) (hd : (Camera.getRay ⟨k, I, o, noDistortion⟩ p.num).2.Is d) (hrz : r.z ≤ -(1 / 10))
    (mesh : List (Ray.Tri ℝ)) (P : V3 ℝ) (h : SpaceFromImageMesh u k I o.pos Rinv p mesh (some P)) (s : ℝ) (hs : s * d.norm = o.pos.dist P) (hs0 : 40 * minDepth ≤ s)
    (Z : ℝ) (hZ : Z = (7 * e + 76 * u) * raySize k I p + 5 * u * size o.pos / s) (hZ1 : Z ≤ 1 / 80) (out : V2 Num) (ho : ImageAny u k I o.pos R P out) :
    ∃ w : V2 ℝ, out.Is w ∧
      |w.x - p.x| ≤ (7 * Z + 25 * u) * (|I.fx| + |p.x - I.cx|) + u * |I.cx| ∧
      |w.y - p.y| ≤ (7 * Z + 25 * u) * (|I.fy| + |p.y - I.cy|) + u * |I.cy| := by
  have he : 0 ≤ e := (abs_nonneg _).trans hR.1
  have hrr : r = rayR k I p := hr.unique (getRay_is k hfx hfy (V2.is_num p))
  have hdd : d = o.mat.Rinv.applyR r := hd.unique (M3.apply_is hr)
  have hmp : 0 < minDepth := by norm_num [minDepth]
  have hsp : 0 < s := by linarith
  obtain ⟨v, hdir, h⟩ := h
  obtain ⟨q, hq0, hal⟩ := h.factor
  have hO : 0 ≤ size o.pos := size_nonneg _
  have hts : 0 ≤ u * size o.pos / s := div_nonneg (mul_nonneg hu hO) hsp.le
  have e0 : 5 / 3 * u * size o.pos / s = 5 / 3 * (u * size o.pos / s) := by ring
  have e1 : 5 * u * size o.pos / s = 5 * (u * size o.pos / s) := by ring
  have hp2 : k = .equirectangular → 201 / 100 * u * |(p.y - I.cy) / I.fy| ≤ |Real.cos ((p.y - I.cy) / I.fy)| / 2 ∧ Real.cos ((p.y - I.cy) / I.fy) ≠ 0 :=
    fun hk => ⟨hpole hk, (Real.cos_pos_of_mem_Ioo ⟨by linarith [(abs_lt.1 (hy hk)).1], (abs_lt.1 (hy hk)).2⟩).ne'⟩
  have hd1 : 1 ≤ d.norm := by rw [hdd, hrr]; exact one_le_direction _ I o p
  have hN0 : 0 ≤ raySize k I p := by
    cases k with
    | rectilinear => exact size_nonneg _
    | cylindrical => simp only [raySize, panSize]; positivity
    | equirectangular => simp only [raySize, panSize]; positivity
  have heN : 0 ≤ e * raySize k I p := by positivity
  have huN : 0 ≤ u * raySize k I p := by positivity
  rw [e1] at hZ
  have hsm : u * raySize k I p ≤ 1 / 100 := by linarith
  obtain ⟨hSN, hle, n, -, hn, -, hj⟩ := direction_any k I hu hu1 (by linarith) o Rinv hRi p hp2 hsm false v hdir
  obtain ⟨hδ, hv⟩ := direction_any_near k hu hu1 (by linarith) I hfx hfy o Rinv hRi p hp2 hsm hd hdir
  rw [← hrr] at hSN hle hj
  rw [← hdd] at hle hj
  rw [hn rfl] at hj
  have hfar := hal.far hu (by linarith) hq0 hd1 (hv.trans (by linarith)) hsp hs ((div_le_iff₀ hsp).1 (by linarith))
  obtain ⟨a, b, c, i1, i3, i5, i2, i4, i6⟩ := hal
  rw [mul_comm q] at i1 i3 i5
  rw [add_comm] at i2 i4 i6
  have hg : PointAt u o.pos v q P.num := by
    unfold PointAt
    rw [if_neg (not_lt.2 hq0)]
    exact ⟨a, b, c, P.x, P.y, P.z, i1, i2, i3, i4, i5, i6, V3.is_num P⟩
  obtain ⟨P2, hP2, hb⟩ := close_any k I hfx hfy hu hu1 he1 o R hR p hx hy (N := raySize k I p) (s := s) (f := q) (Z := Z) r d hrr hdd hSN hrz hsp hfar hs0
    (dir := v) (fun j => by have := hj j; rwa [one_mul] at this) (fun j => (hle j).trans hSN) (by rw [e0, hZ]; linarith) hZ1 P.num hg
  have : P2 = P := hP2.unique (V3.is_num P)
  rw [this] at hb
  exact hb out ho

open Projection Rounded Camera in
/-- The example camera of C197 sees a triangle at height 5. -/
example : ∃ P, SpaceFromImageMesh (1 / 2 ^ 53) .rectilinear ⟨100, 100, 50, 25, 100, 50⟩ exOrient.pos exOrient.mat.Rinv ⟨50, 25⟩ [exTriUnder (1 / 4)] (some P) ∧
    ∃ out, ImageFromSpace (1 / 2 ^ 53) ⟨100, 100, 50, 25, 100, 50⟩ exOrient.pos exOrient.mat.R P true out ∧ ∃ w : V2 ℝ, out.Is w ∧ |w.x - 50| ≤ 1 / 1000 := by
  obtain ⟨out, h⟩ := SpaceFromImageMesh.exists (u := 1 / 2 ^ 53) (by norm_num) .rectilinear ⟨100, 100, 50, 25, 100, 50⟩ exOrient.pos exOrient.mat.Rinv ⟨50, 25⟩ [exTriUnder (1 / 4)]
  obtain ⟨a1, a2, a3, a4⟩ := exUnder_clear (1 / 4) (by norm_num) (by norm_num) (3 * 0 + 18 * (1 / 2 ^ 53)) (by norm_num)
  have hp : exOrient.pos = ⟨0, 0, 10⟩ := rfl
  have hD : V3.dist (⟨0, 0, 10⟩ : V3 ℝ) ⟨0, 0, 5⟩ = 5 := by
    rw [← dist_sub, V3.norm, V3.normSq, Real.sqrt_eq_iff_mul_self_eq_of_pos (by norm_num)]
    simp; norm_num
  have hQ : Geo.at' exOrient.pos ⟨0, 0, -1⟩ 5 = ⟨0, 0, 5⟩ := a2.2.2.2.1.symm
  have hda : V3.dist exOrient.pos (exTriUnder (1 / 4)).a ≤ 11 := by
    rw [← dist_sub, hp]
    refine (norm_sum _).trans ?_
    norm_num [exTriUnder, abs_of_pos, abs_of_neg]
  have hc : Geo.ClearHitTurned (1 / 2 ^ 53) (3 * 0 + 18 * (1 / 2 ^ 53)) exOrient.pos ⟨0, 0, -1⟩ (exTriUnder (1 / 4)) (1 / 100) 5 :=
    ⟨a1, by norm_num, 1, 1, 1 / 4, 1 / 4, 1 / 10, ⟨0, 0, 5⟩, a2, a3, by norm_num, by norm_num, by norm_num, by rw [hp] at hda ⊢; rw [hD]; norm_num; linarith⟩
  obtain ⟨P, rfl, hP⟩ := C197_nearest ⟨100, 100, 50, 25, 100, 50⟩ (by norm_num) (by norm_num) (1 / 2 ^ 53) 0 (by norm_num) (by norm_num) (by norm_num) exOrient _ (Near.refl le_rfl _)
    ⟨50, 25⟩ ⟨0, 0, -1⟩ (exOrient_ray _ _ (by norm_num)) [exTriUnder (1 / 4)] (1 / 100) (fun T hT => Or.inr ⟨5, by rw [List.mem_singleton.1 hT]; exact hc⟩)
    (exTriUnder (1 / 4)) (by simp) 5 hc
    (fun T hT t ht => by
      obtain ⟨-, -, k, σ, s, r, e, Q, ⟨-, -, -, hQ, -⟩, ⟨-, -, hsr, -⟩, -⟩ := ht
      rw [List.mem_singleton.1 hT] at hsr
      have := congrArg V3.z hsr
      rw [hQ] at this
      simp [exTriUnder, Geo.at', exOrient, Orient.pos] at this
      linarith) out h
  have hz := hP 2
  rw [hQ, hp, hD] at hz
  have hz' : |P.z - 5| ≤ 1 / 50 := by
    refine le_trans (a := |P.z - 5|) hz ?_
    norm_num [V3.get]
  have hone : (⟨0, 0, -1⟩ : V3 ℝ).norm = 1 := by unfold V3.norm V3.normSq; norm_num
  have hfar : 4 ≤ exOrient.pos.dist P := by
    rw [← dist_sub, hp]
    have := nrm_coord (P - ⟨0, 0, 10⟩) 2
    have e : (P - ⟨0, 0, 10⟩).get 2 = P.z - 10 := rfl
    rw [e] at this
    have h1 := neg_abs_le (P.z - 10)
    have h2 := (abs_le.1 hz').2
    linarith
  have hsz : size (⟨0, 0, -1⟩ : V3 ℝ) = 1 := by norm_num [size]
  have hso : size exOrient.pos = 10 := by rw [hp]; norm_num [size]
  obtain ⟨o2, h2⟩ := ImageFromSpace.exists (u := 1 / 2 ^ 53) (by norm_num) ⟨100, 100, 50, 25, 100, 50⟩ exOrient.pos exOrient.mat.R P true
  have hinv : 1 / exOrient.pos.dist P ≤ 1 / 4 := one_div_le_one_div_of_le (by norm_num) hfar
  have e1 : ∀ c : ℝ, c * (1 / 2 ^ 53) * 10 / exOrient.pos.dist P = c * (1 / 2 ^ 53) * 10 * (1 / exOrient.pos.dist P) := fun c => by ring
  obtain ⟨w, w1, w2, -⟩ := C198_back ⟨100, 100, 50, 25, 100, 50⟩ (by norm_num) (by norm_num) (1 / 2 ^ 53) 0 (by norm_num) (by norm_num) (by norm_num) exOrient _ _
    (Near.refl le_rfl _) (Near.refl le_rfl _) ⟨50, 25⟩ true ⟨0, 0, -1⟩ ⟨0, 0, -1⟩
    ((getRay_is .rectilinear (by norm_num) (by norm_num) (V2.is_num _)).congr (by ext <;> norm_num [rayR])) (exOrient_ray _ _ (by norm_num)) _ P h
    (exOrient.pos.dist P) (by rw [hone, mul_one]) (by norm_num [minDepth] at hfar ⊢; linarith) (by rw [hsz, hso, e1]; norm_num at hinv ⊢; linarith) o2 h2
  refine ⟨P, h, o2, h2, w, w1, w2.trans ?_⟩
  rw [hsz, hso, e1]
  norm_num at hinv ⊢
  linarith

open Projection Rounded Camera in
/-- The same for all projections. -/
example (k : Kind) : ∃ P, SpaceFromImageMesh (1 / 2 ^ 53) k ⟨100, 100, 50, 25, 100, 50⟩ exOrient.pos exOrient.mat.Rinv ⟨50, 25⟩ [exTriUnder (1 / 4)] (some P) ∧
    ∃ out, ImageAny (1 / 2 ^ 53) k ⟨100, 100, 50, 25, 100, 50⟩ exOrient.pos exOrient.mat.R P out ∧ ∃ w : V2 ℝ, out.Is w ∧ |w.x - 50| ≤ 1 / 1000 := by
  obtain ⟨out, h⟩ := SpaceFromImageMesh.exists (u := 1 / 2 ^ 53) (by norm_num) k ⟨100, 100, 50, 25, 100, 50⟩ exOrient.pos exOrient.mat.Rinv ⟨50, 25⟩ [exTriUnder (1 / 4)]
  obtain ⟨a1, a2, a3, a4⟩ := exUnder_clear (1 / 4) (by norm_num) (by norm_num) (96 * (1 / 2 ^ 53)) (by norm_num)
  have hsz := exUnder_size k
  have hone : (⟨0, 0, -1⟩ : V3 ℝ).norm = 1 := by unfold V3.norm V3.normSq; norm_num
  have hp : exOrient.pos = ⟨0, 0, 10⟩ := rfl
  have hD : V3.dist (⟨0, 0, 10⟩ : V3 ℝ) ⟨0, 0, 5⟩ = 5 := by
    rw [← dist_sub, V3.norm, V3.normSq, Real.sqrt_eq_iff_mul_self_eq_of_pos (by norm_num)]
    simp; norm_num
  have hQ : Geo.at' exOrient.pos ⟨0, 0, -1⟩ 5 = ⟨0, 0, 5⟩ := a2.2.2.2.1.symm
  have hda : V3.dist exOrient.pos (exTriUnder (1 / 4)).a ≤ 11 := by
    rw [← dist_sub, hp]
    refine (norm_sum _).trans ?_
    norm_num [exTriUnder, abs_of_pos, abs_of_neg]
  have hc : Geo.ClearHitTurned (1 / 2 ^ 53) (96 * (1 / 2 ^ 53)) exOrient.pos ⟨0, 0, -1⟩ (exTriUnder (1 / 4)) (1 / 100) 5 :=
    ⟨a1, by norm_num, 1, 1, 1 / 4, 1 / 4, 1 / 10, ⟨0, 0, 5⟩, a2, a3, by norm_num, by norm_num, by norm_num, by rw [hp] at hda ⊢; rw [hD]; norm_num; linarith⟩
  obtain ⟨P, rfl, hP⟩ := C197_nearest_any k ⟨100, 100, 50, 25, 100, 50⟩ (by norm_num) (by norm_num) (1 / 2 ^ 53) 0 (by norm_num) (by norm_num) (by norm_num) exOrient _ (Near.refl le_rfl _)
    ⟨50, 25⟩ (fun _ => by norm_num) (by linarith) ⟨0, 0, -1⟩ (exUnder_ray k)
    (96 * (1 / 2 ^ 53)) (by norm_num) (by rw [hone]; linarith) [exTriUnder (1 / 4)] (1 / 100) (fun T hT => Or.inr ⟨5, by rw [List.mem_singleton.1 hT]; exact hc⟩)
    (exTriUnder (1 / 4)) (by simp) 5 hc
    (fun T hT t ht => by
      obtain ⟨-, -, k, σ, s, r, e, Q, ⟨-, -, -, hQ, -⟩, ⟨-, -, hsr, -⟩, -⟩ := ht
      rw [List.mem_singleton.1 hT] at hsr
      have := congrArg V3.z hsr
      rw [hQ] at this
      simp [exTriUnder, Geo.at', exOrient, Orient.pos] at this
      linarith) out h
  have hz := hP 2
  rw [hQ, hp, hD] at hz
  have hz' : |P.z - 5| ≤ 1 / 50 := by
    refine le_trans (a := |P.z - 5|) hz ?_
    norm_num [V3.get]
  have hfar : 4 ≤ exOrient.pos.dist P := by
    rw [← dist_sub, hp]
    have := nrm_coord (P - ⟨0, 0, 10⟩) 2
    have e : (P - ⟨0, 0, 10⟩).get 2 = P.z - 10 := rfl
    rw [e] at this
    have h1 := neg_abs_le (P.z - 10)
    have h2 := (abs_le.1 hz').2
    linarith
  have hso : size exOrient.pos = 10 := by rw [hp]; norm_num [size]
  obtain ⟨o2, h2⟩ := ImageAny.exists (u := 1 / 2 ^ 53) (by norm_num) k ⟨100, 100, 50, 25, 100, 50⟩ exOrient.pos exOrient.mat.R P
  have hinv : 1 / exOrient.pos.dist P ≤ 1 / 4 := one_div_le_one_div_of_le (by norm_num) hfar
  have e1 : 5 * (1 / 2 ^ 53) * 10 / exOrient.pos.dist P = 5 * (1 / 2 ^ 53) * 10 * (1 / exOrient.pos.dist P) := by ring
  obtain ⟨Z, hZ⟩ : ∃ Z, Z = (7 * 0 + 76 * (1 / 2 ^ 53)) * raySize k ⟨100, 100, 50, 25, 100, 50⟩ ⟨50, 25⟩ + 5 * (1 / 2 ^ 53) * size exOrient.pos / exOrient.pos.dist P := ⟨_, rfl⟩
  have hZ1 : Z ≤ 1 / 10 ^ 8 := by rw [hZ, hso, e1]; linarith
  obtain ⟨w, w1, w2, -⟩ := C198_back_any k ⟨100, 100, 50, 25, 100, 50⟩ (by norm_num) (by norm_num) (1 / 2 ^ 53) 0 (by norm_num) (by norm_num) (by norm_num) exOrient _ _
    (Near.refl le_rfl _) (Near.refl le_rfl _) ⟨50, 25⟩ (Or.inl (by norm_num [Real.pi_pos])) (fun _ => by norm_num [Real.pi_pos]) (fun _ => by norm_num) ⟨0, 0, -1⟩ ⟨0, 0, -1⟩
    ((getRay_is k (by norm_num) (by norm_num) (V2.is_num _)).congr (by cases k <;> simp [rayR])) (exUnder_ray k) (by norm_num) _ P h
    (exOrient.pos.dist P) (by rw [hone, mul_one]) (by norm_num [minDepth] at hfar ⊢; linarith) Z hZ (by linarith) o2 h2
  refine ⟨P, h, o2, h2, w, w1, w2.trans ?_⟩
  norm_num at hZ1 ⊢
  linarith
