import Verif.Proofs.SplineExists

/-! # The interpolated inverse of a radius function -/

open LensModel LensSpec SplineSpec

namespace LensInverse

theorem knots_range {r : ℝ} (h : r ∈ knots) : r ∈ Set.Icc (0:ℝ) (19 / 10) := by
  unfold knots at h
  simp only [List.mem_map, List.mem_range] at h
  obtain ⟨j, hj, rfl⟩ := h
  have : (j : ℝ) ≤ 19 := by exact_mod_cast (by omega : j ≤ 19)
  exact ⟨by positivity, by linarith⟩

/-- The inverse follows the spline through the twenty samples. -/
theorem invert_evaluates {s : Spline} (hs : Fitpack s) {func : Num → Num} {g : ℝ → ℝ}
    (hfg : ∀ n r, Num.Is n r → Num.Is (func n) (g r)) (hg : StrictMonoOn g (Set.Icc 0 (19 / 10))) :
    ∃ q, NotAKnot 19 (fun j => g (j / 10)) (fun j => (j : ℝ) / 10) q ∧ ∀ v t, Num.Is v t → ∀ i : ℕ, i < 19 →
      (i = 0 ∨ g (i / 10) ≤ t) → (i = 18 ∨ t ≤ g ((i + 1 : ℕ) / 10)) → Num.Is (invertFunction s knots func v) ((q i).at t) := by
  have e : (knots.map fun r => (r, (func (.fin r)).rv)) = knots.map fun r => (r, g r) := by
    apply List.map_congr_left
    intro r _
    rw [(hfg _ _ (Num.is_fin r)).rv_eq]
  have hinc : ((knots.map fun r => (r, g r)).map Prod.snd).Pairwise (· < ·) := by
    rw [List.map_map, List.pairwise_map]
    refine List.Pairwise.imp_of_mem ?_ knots_pairwise
    intro a b ha hb h
    exact hg (knots_range ha) (knots_range hb) h
  have len : ((knots.map fun r => (r, g r)).map Prod.snd).length = 20 := by simp [knots]
  have len' : ((knots.map fun r => (r, g r)).map Prod.fst).length = 20 := by simp [knots]
  have h2 := (hs.isSome_iff ((knots.map fun r => (r, g r)).map Prod.snd) ((knots.map fun r => (r, g r)).map Prod.fst)).2
    ⟨by rw [len, len'], by rw [len]; norm_num, hinc⟩
  obtain ⟨F, hF⟩ := Option.isSome_iff_exists.1 h2
  have inv : invertFunction s knots func = F := by
    unfold invertFunction
    rw [e, rising_of_increasing hinc]
    simp only [hF]
  obtain ⟨q, N, ev⟩ := hs.evaluates _ _ _ hF
  have y : ∀ j, j < 20 → ((knots.map fun r => (r, g r)).map Prod.snd).getD j 0 = g (j / 10) := by
    intro j hj
    rw [List.getD_eq_getElem?_getD]
    simp [knots_get hj]
  have x : ∀ j, j < 20 → ((knots.map fun r => (r, g r)).map Prod.fst).getD j 0 = (j : ℝ) / 10 := by
    intro j hj
    rw [List.getD_eq_getElem?_getD]
    simp [knots_get hj]
  rw [len] at N ev
  refine ⟨q, N.congr (fun i hi => y i (by omega)) (fun i hi => x i (by omega)), ?_⟩
  intro v t hv i hi h1 h2
  rw [inv]
  apply ev v t hv i (by omega)
  · rw [y i (by omega)]; exact h1
  · rw [y (i + 1) (by omega)]; exact h2.imp (by omega) id

/-- A curve `(f r, u r)` with the derivatives of its two parts. -/
structure Curve (f u f1 u1 f2 u2 : ℝ → ℝ) : Prop where
  f : ∀ r, HasDerivAt f (f1 r) r
  u : ∀ r, HasDerivAt u (u1 r) r
  f1 : ∀ r, HasDerivAt f1 (f2 r) r
  u1 : ∀ r, HasDerivAt u1 (u2 r) r

theorem slopes {fa fr fb K ua ur ub : ℝ} (h1 : fa < fr) (h2 : fr < fb)
    (h : |(ur - ua) * (fb - fa) - (fr - fa) * (ub - ua)| ≤ K / 2 * ((fr - fa) * (fb - fr) * (fb - fa))) :
    |6 * ((ub - ur) / (fb - fr) - (ur - ua) / (fr - fa))| ≤ 3 * K * ((fr - fa) + (fb - fr)) := by
  have p1 : 0 < fr - fa := sub_pos.2 h1
  have p2 : 0 < fb - fr := sub_pos.2 h2
  have e : 6 * ((ub - ur) / (fb - fr) - (ur - ua) / (fr - fa)) =
      -6 * ((ur - ua) * (fb - fa) - (fr - fa) * (ub - ua)) / ((fr - fa) * (fb - fr)) := by
    field_simp; ring
  rw [e, abs_div, abs_mul, abs_of_pos (mul_pos p1 p2), div_le_iff₀ (mul_pos p1 p2)]
  have : |(-6 : ℝ)| = 6 := by norm_num
  rw [this]
  nlinarith

/-- The second derivatives of the spline through the twenty samples of a curve, if the slope of the curve changes slowly. -/
theorem Curve.moments {f u f1 u1 f2 u2 : ℝ → ℝ} (D : Curve f u f1 u1 f2 u2) {q : ℕ → Cubic}
    (N : NotAKnot 19 (fun j => f (j / 10)) (fun j => u (j / 10)) q) (pos : ∀ r ∈ Set.Icc (0:ℝ) (19 / 10), 0 < f1 r)
    (K B : ℕ → ℝ) {γ : ℝ} (hγ0 : 0 < γ) (hγ1 : γ ≤ 1)
    (hK : ∀ i : ℕ, i < 18 → ∀ r ∈ Set.Icc ((i : ℝ) / 10) ((i + 2) / 10), |u2 r * f1 r - u1 r * f2 r| ≤ K i * f1 r ^ 3)
    (hB0 : ∀ i, 0 < B i) (hB1 : ∀ i, B i ≤ B (i + 1)) (hB2 : ∀ i, B (i + 2) ≤ (2 - γ) * B (i + 1))
    (hstart : f (1 / 10) - f 0 ≤ f (2 / 10) - f (1 / 10) ∨ B 2 = B 1) (hKB : ∀ i : ℕ, i < 18 → 3 * K i ≤ γ * B (i + 1)) :
    (∀ i : ℕ, i < 19 → f ((i : ℝ) / 10) < f ((i + 1 : ℕ) / 10)) ∧ ∀ i : ℕ, i < 18 → |moment (fun j => f (j / 10)) q (i + 1)| ≤ B (i + 1) := by
  have contf : Continuous f := continuous_iff_continuousAt.2 fun r => (D.f r).continuousAt
  have monof : StrictMonoOn f (Set.Icc 0 (19 / 10)) := by
    apply strictMonoOn_of_deriv_pos (convex_Icc _ _) contf.continuousOn
    intro x hx
    rw [(D.f x).deriv]
    exact pos x (interior_subset hx)
  have mem : ∀ i : ℕ, i ≤ 19 → (i : ℝ) / 10 ∈ Set.Icc (0:ℝ) (19 / 10) := by
    intro i hi
    have : (i : ℝ) ≤ 19 := by exact_mod_cast hi
    exact ⟨by positivity, by linarith⟩
  have inc : ∀ i : ℕ, i < 19 → f ((i : ℝ) / 10) < f ((i + 1 : ℕ) / 10) := by
    intro i hi
    apply monof (mem i (by omega)) (mem (i + 1) (by omega))
    push_cast; linarith
  refine ⟨inc, ?_⟩
  have := NotAKnot.moments_close (n := 16) N inc (fun _ => 0) B hγ0 hγ1 (by simp) (by simp) hB0 hB1 hB2 ?_ ?_
  · intro i hi
    have := this i hi
    rwa [sub_zero] at this
  · simp only [gap]
    simpa using hstart
  · intro i hi
    have i0 := inc i (by omega)
    have i1 := inc (i + 1) (by omega)
    have w : (i : ℝ) ≤ 17 := by exact_mod_cast (by omega : i ≤ 17)
    have i00 : (0 : ℝ) ≤ i := by positivity
    have c := chord D.f D.u D.f1 D.u1 (a := (i : ℝ) / 10) (b := (i + 2) / 10) (K := K i)
      (fun r hr => pos r ⟨le_trans (by positivity) hr.1, hr.2.trans (by linarith)⟩)
      (hK i hi) (r := ((i + 1 : ℕ) : ℝ) / 10) ⟨by push_cast; linarith, by push_cast; linarith⟩
    have e2 : ((i : ℝ) + 2) / 10 = ((i + 1 + 1 : ℕ) : ℝ) / 10 := by push_cast; ring
    rw [e2] at c
    have sl := slopes i0 i1 c
    have g0 : 0 < gap (fun j : ℕ => f ((j : ℝ) / 10)) i + gap (fun j : ℕ => f ((j : ℝ) / 10)) (i + 1) := by
      simp only [gap]; linarith
    have e : SplineSpec.residual (fun j : ℕ => f ((j : ℝ) / 10)) (fun j : ℕ => u ((j : ℝ) / 10)) (fun _ => 0) i =
        6 * ((u ((i + 1 + 1 : ℕ) / 10) - u ((i + 1 : ℕ) / 10)) / (f ((i + 1 + 1 : ℕ) / 10) - f ((i + 1 : ℕ) / 10)) -
          (u ((i + 1 : ℕ) / 10) - u ((i : ℕ) / 10)) / (f ((i + 1 : ℕ) / 10) - f ((i : ℕ) / 10))) := by
      simp only [SplineSpec.residual, mean, gap]; ring
    rw [e]
    refine sl.trans ?_
    have kb := mul_le_mul_of_nonneg_right (hKB i hi) g0.le
    simp only [gap] at kb ⊢
    linarith

/-- The distance of a curve from its chord between two samples, as needed for the error of a piece. -/
theorem Curve.chord_at {f u f1 u1 f2 u2 : ℝ → ℝ} (D : Curve f u f1 u1 f2 u2) {i : ℕ} {κ r : ℝ}
    (pos : ∀ r ∈ Set.Icc ((i : ℝ) / 10) ((i + 1 : ℕ) / 10), 0 < f1 r)
    (hK : ∀ r ∈ Set.Icc ((i : ℝ) / 10) ((i + 1 : ℕ) / 10), |u2 r * f1 r - u1 r * f2 r| ≤ κ * f1 r ^ 3)
    (hr : r ∈ Set.Icc ((i : ℝ) / 10) ((i + 1 : ℕ) / 10)) (inc : f ((i : ℝ) / 10) < f ((i + 1 : ℕ) / 10)) :
    |u r - (u (i / 10) + (f r - f (i / 10)) * mean (fun j => f (j / 10)) (fun j => u (j / 10)) i)| ≤
      κ / 2 * ((f r - f (i / 10)) * (f ((i + 1 : ℕ) / 10) - f r)) := by
  have c := chord D.f D.u D.f1 D.u1 pos hK hr
  have p : 0 < f ((i + 1 : ℕ) / 10) - f ((i : ℝ) / 10) := sub_pos.2 inc
  have e : u r - (u (i / 10) + (f r - f (i / 10)) * mean (fun j : ℕ => f ((j : ℝ) / 10)) (fun j : ℕ => u ((j : ℝ) / 10)) i) =
      ((u r - u (i / 10)) * (f ((i + 1 : ℕ) / 10) - f ((i : ℝ) / 10)) - (f r - f (i / 10)) * (u ((i + 1 : ℕ) / 10) - u (i / 10))) /
        (f ((i + 1 : ℕ) / 10) - f ((i : ℝ) / 10)) := by
    simp only [mean, gap]
    field_simp
    ring
  rw [e, abs_div, abs_of_pos p, div_le_iff₀ p]
  linarith

/-- Distorting a point and undistorting it with a radius function that makes `R` of the distorted radius. -/
theorem transform_twice {L : Radial} {f g : Num → Num} {n : V2 Num} {p : V2 ℝ} (hn : n.Is p)
    (hx : L.scale.x ≠ 0) (hy : L.scale.y ≠ 0) {r : ℝ} (hrd : radius L.scale L.offset p = r) (hr : r ≠ 0) {G R : ℝ} (hG : 0 < G)
    (hf : ∀ m, Num.Is m r → Num.Is (f m) G) (hg : ∀ m, Num.Is m G → Num.Is (g m) R) :
    (transform L g (transform L f n)).Is ⟨R / r * (p.x - L.offset.x) + L.offset.x, R / r * (p.y - L.offset.y) + L.offset.y⟩ := by
  subst hrd
  have h1 := transform_is hn hx hy hr hf
  set r := radius L.scale L.offset p with hrd
  have hr0 : 0 < r := lt_of_le_of_ne (radius_nonneg _ _ _) (Ne.symm hr)
  have hrad : radius L.scale L.offset ⟨G / r * (p.x - L.offset.x) + L.offset.x,
      G / r * (p.y - L.offset.y) + L.offset.y⟩ = G := by
    rw [radius_stretched (by positivity), ← hrd]; field_simp
  have h2 := transform_is h1 hx hy (by rw [hrad]; exact hG.ne') (R := R) (by rw [hrad]; exact hg)
  rw [hrad] at h2
  refine h2.congr ?_
  ext <;> simp <;> field_simp

/-- The sample before a radius. -/
theorem sample {r : ℝ} (h0 : 0 ≤ r) (h1 : r ≤ 19 / 10) : ∃ i : ℕ, i < 19 ∧ r ∈ Set.Icc ((i : ℝ) / 10) ((i + 1 : ℕ) / 10) := by
  obtain ⟨i, hi, a, b⟩ := locate (fun j => (j : ℝ) / 10) 18 r
  refine ⟨i, hi, ?_, ?_⟩
  · rcases a with a | a
    · subst a; simpa using h0
    · exact a
  · rcases b with b | b
    · subst b; norm_num; linarith
    · exact b

end LensInverse
