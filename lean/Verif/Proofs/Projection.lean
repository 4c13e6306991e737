import Verif.Proofs.Num
import Verif.Model.Projection

/-! Helper lemmas for the projection properties. -/

open Classical Num

namespace V3
theorem Is.mulS {p : V3 Num} {q : V3 ℝ} {s : Num} {r : ℝ} (h : p.Is q) (hs : Num.Is s r) :
    (p.mulS s).Is (q.mulS r) := ⟨h.1.mul hs, h.2.1.mul hs, h.2.2.mul hs⟩
theorem Is.neg {p : V3 Num} {q : V3 ℝ} (h : p.Is q) : (-p).Is (-q) :=
  ⟨h.1.neg, h.2.1.neg, h.2.2.neg⟩
theorem Is.add {p p' : V3 Num} {q q' : V3 ℝ} (h : p.Is q) (h' : p'.Is q') : (p + p').Is (q + q') :=
  ⟨h.1.add h'.1, h.2.1.add h'.2.1, h.2.2.add h'.2.2⟩
theorem Is.sub {p p' : V3 Num} {q q' : V3 ℝ} (h : p.Is q) (h' : p'.Is q') : (p - p').Is (q - q') :=
  ⟨h.1.sub h'.1, h.2.1.sub h'.2.1, h.2.2.sub h'.2.2⟩
theorem is_num (q : V3 ℝ) : (num q).Is q := ⟨rfl, rfl, rfl⟩
theorem Is.unique {p : V3 Num} {q q' : V3 ℝ} (h : p.Is q) (h' : p.Is q') : q = q' := by
  ext
  · exact h.1.unique h'.1
  · exact h.2.1.unique h'.2.1
  · exact h.2.2.unique h'.2.2
theorem Is.congr {p : V3 Num} {q q' : V3 ℝ} (h : p.Is q) (e : q = q') : p.Is q' := e ▸ h
theorem Is.finite {p : V3 Num} {q : V3 ℝ} (h : p.Is q) : p.Finite :=
  ⟨h.1.finite, h.2.1.finite, h.2.2.finite⟩
theorem Is.get {p : V3 Num} {q : V3 ℝ} (h : p.Is q) (i : Fin 3) : Num.Is (p.get i) (q.get i) := by
  fin_cases i
  · exact h.1
  · exact h.2.1
  · exact h.2.2
theorem Is.dot {p p' : V3 Num} {q q' : V3 ℝ} (h : p.Is q) (h' : p'.Is q') :
    Num.Is (p.dot p') (q.dot q') := by
  unfold V3.dot
  exact ((h.1.mul h'.1).add (h.2.1.mul h'.2.1)).add (h.2.2.mul h'.2.2)
theorem Is.divS {p : V3 Num} {q : V3 ℝ} {s : Num} {r : ℝ} (h : p.Is q) (hs : Num.Is s r) (hr : r ≠ 0) :
    (p.divS s).Is (q.divS r) := ⟨h.1.div hs hr, h.2.1.div hs hr, h.2.2.div hs hr⟩
theorem normSq_nonneg (q : V3 ℝ) : 0 ≤ q.normSq := by unfold normSq; positivity
theorem Is.normN {p : V3 Num} {q : V3 ℝ} (h : p.Is q) : Num.Is p.normN q.norm := by
  unfold V3.normN V3.norm
  have h1 := ((h.1.mul h.1).add (h.2.1.mul h.2.1)).add (h.2.2.mul h.2.2)
  have h2 : q.x * q.x + q.y * q.y + q.z * q.z = q.normSq := by unfold normSq; ring
  rw [h2] at h1
  exact h1.sqrt (normSq_nonneg q)
theorem norm_pos_of_ne {q : V3 ℝ} (h : q.normSq ≠ 0) : 0 < q.norm :=
  Real.sqrt_pos.2 (lt_of_le_of_ne (normSq_nonneg q) (Ne.symm h))
end V3

namespace V2
theorem is_num (q : V2 ℝ) : (num q).Is q := ⟨rfl, rfl⟩
theorem Is.unique {p : V2 Num} {q q' : V2 ℝ} (h : p.Is q) (h' : p.Is q') : q = q' := by
  ext
  · exact h.1.unique h'.1
  · exact h.2.unique h'.2
theorem Is.congr {p : V2 Num} {q q' : V2 ℝ} (h : p.Is q) (e : q = q') : p.Is q' := e ▸ h
theorem not_is_nan (q : V2 ℝ) : ¬ (V2.nan).Is q := fun h => h.1
end V2

namespace Projection

/-- The un-normed ray over the reals. -/
noncomputable def rayR (k : Kind) (I : Intr) (p : V2 ℝ) : V3 ℝ :=
  let a := (p.x - I.cx) / I.fx
  let b := (p.y - I.cy) / I.fy
  match k with
  | .rectilinear => ⟨a, -b, -1⟩
  | .cylindrical => ⟨Real.sin a, -b, -Real.cos a⟩
  | .equirectangular => ⟨Real.sin a, -Real.tan b, -Real.cos a⟩

theorem rayR_normSq_pos (k : Kind) (I : Intr) (p : V2 ℝ) : 0 < (rayR k I p).normSq := by
  cases k <;> simp only [rayR, V3.normSq]
  · positivity
  · nlinarith [Real.sin_sq_add_cos_sq ((p.x - I.cx) / I.fx), sq_nonneg (-((p.y - I.cy) / I.fy))]
  · nlinarith [Real.sin_sq_add_cos_sq ((p.x - I.cx) / I.fx),
      sq_nonneg (-(Real.tan ((p.y - I.cy) / I.fy)))]

theorem getRay_is (k : Kind) {I : Intr} (hfx : I.fx ≠ 0) (hfy : I.fy ≠ 0) {pn : V2 Num} {p : V2 ℝ}
    (hp : pn.Is p) : (getRay k I pn false).Is (rayR k I p) := by
  obtain ⟨hx, hy⟩ := hp
  cases k <;> simp only [getRay, getRayRect, getRayCyl, getRayEqui, normRay, rayR] <;>
    refine ⟨?_, ?_, ?_⟩ <;> simp only [V3.neg_x, V3.neg_y, V3.neg_z, Bool.false_eq_true, if_false] <;> num_is <;> ring_nf

theorem neg_divS (r : V3 ℝ) (n : ℝ) : -((-r).divS n) = r.mulS (1 / n) := by
  ext <;> simp <;> ring

/-- The normed ray is the un-normed ray times a positive number. -/
theorem getRay_normed_is (k : Kind) {I : Intr} (hfx : I.fx ≠ 0) (hfy : I.fy ≠ 0) {pn : V2 Num} {p : V2 ℝ}
    (hp : pn.Is p) : (getRay k I pn true).Is ((rayR k I p).mulS (1 / (rayR k I p).norm)) := by
  have key : ∀ ray : V3 Num, ray.Is (-(rayR k I p)) →
      (-(normRay true ray)).Is ((rayR k I p).mulS (1 / (rayR k I p).norm)) := by
    intro ray h
    have hn : (-(rayR k I p)).norm = (rayR k I p).norm := by simp [V3.norm, V3.normSq]
    have h1 := h.normN
    rw [hn] at h1
    have h2 := (h.divS h1 (V3.norm_pos_of_ne (rayR_normSq_pos k I p).ne').ne').neg
    rw [neg_divS] at h2
    exact h2
  have hu : ∀ (ray : V3 Num), (-ray).Is (rayR k I p) → ray.Is (-(rayR k I p)) := by
    intro ray h
    have := h.neg
    have e : ∀ x : Num, ∀ r, Num.Is (- -x) r → Num.Is x r := by
      intro x r hx
      cases x with
      | fin a =>
        by_cases ha : a = 0
        · subst ha
          have : (- -(fin 0)) = fin 0 := by
            show Num.neg (Num.neg (fin 0)) = _
            simp [Num.neg]
          rwa [this] at hx
        · have : (- -(fin a)) = fin a := by
            show Num.neg (Num.neg (fin a)) = _
            simp [Num.neg, ha]
          rwa [this] at hx
      | nzero =>
        have : (- -nzero) = nzero := by
          show Num.neg (Num.neg nzero) = _
          simp [Num.neg]
        rwa [this] at hx
      | pinf => exact hx
      | ninf => exact hx
      | nan => exact hx
    exact ⟨e _ _ this.1, e _ _ this.2.1, e _ _ this.2.2⟩
  have h0 := getRay_is k hfx hfy hp
  cases k <;> exact key _ (hu _ h0)

/-- The (normed or un-normed) ray is a positive multiple of `rayR`. -/
theorem getRay_exists (k : Kind) {I : Intr} (hfx : I.fx ≠ 0) (hfy : I.fy ≠ 0) {pn : V2 Num} {p : V2 ℝ}
    (hp : pn.Is p) (normed : Bool) :
    ∃ s : ℝ, 0 < s ∧ (normed = false → s = 1) ∧ (normed = true → s = 1 / (rayR k I p).norm) ∧
      (getRay k I pn normed).Is ((rayR k I p).mulS s) := by
  cases normed
  · refine ⟨1, one_pos, fun _ => rfl, by simp, ?_⟩
    refine (getRay_is k hfx hfy hp).congr ?_
    ext <;> simp
  · exact ⟨_, one_div_pos.2 (V3.norm_pos_of_ne (rayR_normSq_pos k I p).ne'), by simp, fun _ => rfl,
      getRay_normed_is k hfx hfy hp⟩

/-! ### imageFromCamera -/

theorem snap_far {p : V3 Num} {q : V3 ℝ} (h : p.Is q) (hz : 1 / 10 ^ 10 ≤ |q.z|) : snap p = p := by
  unfold snap
  rw [if_neg]
  rw [h.2.2.abs.lt_iff (is_fin _)]
  exact not_lt.2 hz

theorem snap_near {p : V3 Num} {q : V3 ℝ} (h : Num.Is p.z q.z) (hz : |q.z| < 1 / 10 ^ 10) :
    snap p = ⟨.fin 0, .fin 0, .fin 0⟩ := by
  unfold snap
  rw [if_pos]
  rw [h.abs.lt_iff (is_fin _)]
  exact hz

theorem projRect_is {I : Intr} {p : V3 Num} {q : V3 ℝ} (h : p.Is q) (hz : q.z ≠ 0) (hide : Bool)
    (hf : hide = true → q.z < 0) :
    (projRect I p hide).Is ⟨-q.x * I.fx / q.z + I.cx, q.y * I.fy / q.z + I.cy⟩ := by
  obtain ⟨hx, hy, hz'⟩ := h
  unfold projRect
  simp only
  rw [if_neg]
  · constructor <;> simp only <;> num_is <;> rfl
  · rintro ⟨h1, h2⟩
    rw [(is_fin 0).lt_iff hz'] at h2
    exact absurd (hf h1) (not_lt.2 h2.le)

theorem arg_polar {r θ : ℝ} (hr : 0 < r) (h1 : -Real.pi < θ) (h2 : θ ≤ Real.pi) :
    Complex.arg ⟨r * Real.cos θ, r * Real.sin θ⟩ = θ := by
  have h := Complex.arg_mul_cos_add_sin_mul_I hr ⟨h1, h2⟩
  have e : ((r : ℂ) * (Complex.cos θ + Complex.sin θ * Complex.I)) = ⟨r * Real.cos θ, r * Real.sin θ⟩ := by
    apply Complex.ext
    · simp [← Complex.ofReal_cos, ← Complex.ofReal_sin]
    · simp [← Complex.ofReal_cos, ← Complex.ofReal_sin]
  rw [e] at h
  exact h

/-- `arctan2` in polar coordinates, strictly inside the half turn. -/
theorem arctan2_polar {y x : Num} {r θ : ℝ} (hr : 0 < r) (h1 : -Real.pi < θ) (h2 : θ < Real.pi)
    (hy : Num.Is y (r * Real.sin θ)) (hx : Num.Is x (r * Real.cos θ)) : Num.Is (arctan2 y x) θ := by
  have h := hy.arctan2 hx ?_
  · rwa [arg_polar hr h1 h2.le] at h
  · by_cases hs : Real.sin θ = 0
    · right
      have : θ = 0 := (Real.sin_eq_zero_iff_of_lt_of_lt h1 h2).1 hs
      subst this
      simpa using hr
    · left
      exact mul_ne_zero hr.ne' hs

theorem projCyl_polar {I : Intr} {p : V3 Num} {r θ b : ℝ} (hr : 0 < r) (h1 : -Real.pi < θ)
    (h2 : θ < Real.pi) (h : p.Is ⟨r * Real.sin θ, -(r * b), -(r * Real.cos θ)⟩) :
    (projCyl I p).Is ⟨I.fx * θ + I.cx, I.fy * b + I.cy⟩ := by
  obtain ⟨hx, hy, hz⟩ := h
  simp only at hx hy hz
  have ha : Num.Is (arctan2 (-p.x) (-p.z)) (-θ) := by
    apply arctan2_polar hr (by linarith) (by linarith)
    · exact hx.neg.congr (by rw [Real.sin_neg]; ring)
    · exact hz.neg.congr (by rw [Real.cos_neg]; ring)
  have hs : Num.Is (Num.sqrt (p.x.npow 2 + p.z.npow 2)) r := by
    have h0 := (hx.npow 2).add (hz.npow 2)
    have e : (r * Real.sin θ) ^ 2 + (-(r * Real.cos θ)) ^ 2 = r ^ 2 := by
      nlinarith [Real.sin_sq_add_cos_sq θ]
    rw [e] at h0
    have := h0.sqrt (by positivity)
    rwa [Real.sqrt_sq hr.le] at this
  have hY : Num.Is (-(fin I.fy) * p.y / Num.sqrt (p.x.npow 2 + p.z.npow 2) + fin I.cy) (I.fy * b + I.cy) := by
    refine ((((is_fin I.fy).neg.mul hy).div hs hr.ne').add (is_fin I.cy)).congr ?_
    field_simp
  unfold projCyl
  simp only
  rw [if_neg hY.ne_nan]
  refine ⟨?_, hY⟩
  exact (((is_fin I.fx).neg.mul ha).add (is_fin I.cx)).congr (by ring)

theorem projEqui_polar {I : Intr} {p : V3 Num} {r θ b : ℝ} (hr : 0 < r) (h1 : -Real.pi < θ)
    (h2 : θ < Real.pi) (h3 : -(Real.pi / 2) < b) (h4 : b < Real.pi / 2)
    (h : p.Is ⟨r * Real.sin θ, -(r * Real.tan b), -(r * Real.cos θ)⟩) :
    (projEqui I p).Is ⟨I.fx * θ + I.cx, I.fy * b + I.cy⟩ := by
  obtain ⟨hx, hy, hz⟩ := h
  simp only at hx hy hz
  have ha : Num.Is (arctan2 (-p.x) (-p.z)) (-θ) := by
    apply arctan2_polar hr (by linarith) (by linarith)
    · exact hx.neg.congr (by rw [Real.sin_neg]; ring)
    · exact hz.neg.congr (by rw [Real.cos_neg]; ring)
  have hs : Num.Is (Num.sqrt (p.x.npow 2 + p.z.npow 2)) r := by
    have h0 := (hx.npow 2).add (hz.npow 2)
    have e : (r * Real.sin θ) ^ 2 + (-(r * Real.cos θ)) ^ 2 = r ^ 2 := by
      nlinarith [Real.sin_sq_add_cos_sq θ]
    rw [e] at h0
    have := h0.sqrt (by positivity)
    rwa [Real.sqrt_sq hr.le] at this
  have hc : 0 < Real.cos b := Real.cos_pos_of_mem_Ioo ⟨h3, h4⟩
  have hb : Num.Is (arctan2 p.y (Num.sqrt (p.x.npow 2 + p.z.npow 2))) (-b) := by
    have hpi := Real.pi_pos
    apply arctan2_polar (r := r / Real.cos b) (by positivity) (by linarith) (by linarith)
    · refine hy.congr ?_
      rw [Real.sin_neg, Real.tan_eq_sin_div_cos]; ring
    · refine hs.congr ?_
      rw [Real.cos_neg]; field_simp
  unfold projEqui
  refine ⟨?_, ?_⟩
  · exact (((is_fin I.fx).neg.mul ha).add (is_fin I.cx)).congr (by ring)
  · exact (((is_fin I.fy).neg.mul hb).add (is_fin I.cy)).congr (by ring)

end Projection
