import Mathlib.Tactic.IntervalCases
import Verif.Proofs.LensInverse
import Verif.Props.Drawn
import Verif.Props.Lens

/-! # How well the interpolated inverse of a lens undoes the distortion: C181 -/

open LensModel LensSpec SplineSpec LensInverse

/-- A function that computes the specified interpolation exists. -/
theorem C181_exists : ∃ s : Spline, Fitpack s := by
  classical
  refine ⟨fun ys xs => if h : ys.length = xs.length ∧ 4 ≤ ys.length ∧ ys.Pairwise (· < ·) then
    some (exists_evaluates ys xs h.2.1 h.2.2).choose else none, ?_, ?_⟩
  · intro ys xs
    by_cases h : ys.length = xs.length ∧ 4 ≤ ys.length ∧ ys.Pairwise (· < ·)
    · simp [h]
    · simp [h]
  · intro ys xs F hF
    by_cases h : ys.length = xs.length ∧ 4 ≤ ys.length ∧ ys.Pairwise (· < ·)
    · rw [dif_pos h] at hF
      cases hF
      exact (exists_evaluates ys xs h.2.1 h.2.2).choose_spec
    · rw [dif_neg h] at hF
      cases hF

/-- The polynomial `t`. -/
def SplineSpec.Cubic.id : Cubic := ⟨0, 1, 0, 0⟩

theorem SplineSpec.Cubic.id_at (t : ℝ) : Cubic.id.at t = t := by simp [Cubic.id, Cubic.at]

theorem SplineSpec.notAKnot_id (n : ℕ) (y : ℕ → ℝ) : NotAKnot n y y fun _ => Cubic.id where
  left _ _ := Cubic.id_at _
  right _ _ := Cubic.id_at _
  slope _ _ := rfl
  bend _ _ := rfl
  first := rfl
  last := rfl

/-- **C181** The specified interpolation has all properties that the other theorems about lenses assume of it. -/
theorem C181_good (s : Spline) (hs : Fitpack s) : GoodSpline s where
  exists_of_increasing ys xs h1 h2 h3 := (hs.isSome_iff ys xs).2 ⟨h1, h2, h3⟩
  interpolates := by
    intro ys xs f hf i y x hy hx n hn
    obtain ⟨q, N, ev⟩ := hs.evaluates ys xs f hf
    obtain ⟨e, h4, hp⟩ := (hs.isSome_iff ys xs).1 (by rw [hf]; rfl)
    obtain ⟨hi, -⟩ := List.getElem?_eq_some_iff.1 hy
    have ey : ys.getD i 0 = y := by rw [List.getD_eq_getElem?_getD, hy]; rfl
    have ex : xs.getD i 0 = x := by rw [List.getD_eq_getElem?_getD, hx]; rfl
    by_cases c : i + 1 < ys.length
    · have := ev n y hn i c (Or.inr ey.le) (Or.inr (by rw [← ey]; exact (increasing_getD hp c).le))
      rwa [← ey, N.left i (by omega), ex] at this
    · obtain ⟨j, rfl⟩ : ∃ j, i = j + 1 := ⟨i - 1, by omega⟩
      have := ev n y hn j hi (Or.inr (by rw [← ey]; exact (increasing_getD hp hi).le)) (Or.inr ey.ge)
      rwa [← ey, N.right j (by omega), ex] at this
  identity := by
    intro ys f hf n r hn
    obtain ⟨q, N, ev⟩ := hs.evaluates ys ys f hf
    obtain ⟨e, h4, hp⟩ := (hs.isSome_iff ys ys).1 (by rw [hf]; rfl)
    obtain ⟨k, hk⟩ : ∃ k, ys.length = k + 4 := ⟨ys.length - 4, by omega⟩
    rw [hk] at N ev
    obtain ⟨i, hi, h1, h2⟩ := locate (ys.getD · 0) (k + 2) r
    have := ev n r hn i (by omega) h1 (h2.imp (by omega) id)
    rwa [NotAKnot.unique (n := k) N (notAKnot_id _ _) (fun i h => increasing_getD hp (by omega)) hi, Cubic.id_at] at this
  raises ys xs h := by
    rw [← Option.not_isSome_iff_eq_none, hs.isSome_iff]
    exact fun h' => h h'.2.2

/-- **C181** The interpolation is determined by the points: two functions that compute it raise for the same points, and else agree at every number. -/
theorem C181_unique (s s' : Spline) (hs : Fitpack s) (hs' : Fitpack s') (ys xs : List ℝ) :
    (s ys xs).isSome = (s' ys xs).isSome ∧ ∀ F F', s ys xs = some F → s' ys xs = some F' → ∀ v t, Num.Is v t → ∃ r, Num.Is (F v) r ∧ Num.Is (F' v) r := by
  refine ⟨Bool.eq_iff_iff.2 ((hs.isSome_iff ys xs).trans (hs'.isSome_iff ys xs).symm), ?_⟩
  intro F F' hF hF' v t hv
  obtain ⟨q, N, ev⟩ := hs.evaluates _ _ _ hF
  obtain ⟨q', N', ev'⟩ := hs'.evaluates _ _ _ hF'
  obtain ⟨e, h4, hp⟩ := (hs.isSome_iff ys xs).1 (by rw [hF]; rfl)
  obtain ⟨k, hk⟩ : ∃ k, ys.length = k + 4 := ⟨ys.length - 4, by omega⟩
  rw [hk] at N ev N' ev'
  obtain ⟨i, hi, h1, h2⟩ := locate (ys.getD · 0) (k + 2) t
  have a := ev v t hv i (by omega) h1 (h2.imp (by omega) id)
  have b := ev' v t hv i (by omega) h1 (h2.imp (by omega) id)
  rw [NotAKnot.unique (n := k) N N' (fun i h => increasing_getD hp (by omega)) hi] at a
  exact ⟨_, a, b⟩

theorem LensInverse.limit {a c K P : ℝ} (hcP : 0 ≤ c * P) (hK : 0 ≤ K) (h : ∀ K', 0 < K' → K ≤ K' → a ≤ c * K' * P) : a ≤ c * K * P := by
  apply le_of_forall_pos_le_add
  intro ε hε
  have q : 0 < ε / (c * P + 1) := by positivity
  have := h (K + ε / (c * P + 1)) (by linarith) (by linarith)
  have e : c * P * (ε / (c * P + 1)) ≤ ε := by
    rw [mul_div_assoc', div_le_iff₀ (by linarith)]; nlinarith
  linarith

/-- The inverse of a radius function whose slope changes slowly, between the samples. -/
theorem LensInverse.error {s : Spline} (hs : Fitpack s) {func : Num → Num} {g g1 g2 : ℝ → ℝ} (hfg : ∀ n r, Num.Is n r → Num.Is (func n) (g r))
    (d1 : ∀ r, HasDerivAt g (g1 r) r) (d2 : ∀ r, HasDerivAt g1 (g2 r) r) (pos : ∀ r ∈ Set.Icc (0:ℝ) (19 / 10), 0 < g1 r)
    {K ρ : ℝ} (hK0 : 0 ≤ K) (hρ : 1 ≤ ρ) (hK : ∀ r ∈ Set.Icc (0:ℝ) (19 / 10), |g2 r| ≤ K * g1 r ^ 3)
    (first : g (1 / 10) - g 0 ≤ ρ * (g (2 / 10) - g (1 / 10))) (last : g (19 / 10) - g (18 / 10) ≤ ρ * (g (18 / 10) - g (17 / 10)))
    {i : ℕ} (hi : i < 19) {r : ℝ} (hr : r ∈ Set.Icc ((i : ℝ) / 10) ((i + 1 : ℕ) / 10)) :
    ∃ R, (∀ v, Num.Is v (g r) → Num.Is (invertFunction s knots func v) R) ∧
      |R - r| ≤ (4 + 6 * ρ) / 2 * K * ((g r - g (i / 10)) * (g ((i + 1 : ℕ) / 10) - g r)) ∧
      (0 < i → i < 18 → |R - r| ≤ 2 * K * ((g r - g (i / 10)) * (g ((i + 1 : ℕ) / 10) - g r))) := by
  have cont : Continuous g := continuous_iff_continuousAt.2 fun r => (d1 r).continuousAt
  have mono : StrictMonoOn g (Set.Icc 0 (19 / 10)) := by
    apply strictMonoOn_of_deriv_pos (convex_Icc _ _) cont.continuousOn
    intro x hx
    rw [(d1 x).deriv]
    exact pos x (interior_subset hx)
  obtain ⟨q, N, ev⟩ := invert_evaluates hs hfg mono
  have i19 : (i : ℝ) ≤ 18 := by exact_mod_cast (by omega : i ≤ 18)
  have i0 : (0 : ℝ) ≤ i := by positivity
  have sub : Set.Icc ((i : ℝ) / 10) ((i + 1 : ℕ) / 10) ⊆ Set.Icc (0:ℝ) (19 / 10) := by
    intro x hx
    have := hx.2
    push_cast at this
    exact ⟨le_trans (by positivity) hx.1, by linarith⟩
  have l : g (i / 10) ≤ g r := mono.monotoneOn (sub ⟨le_rfl, hr.1.trans hr.2⟩) (sub hr) hr.1
  have u : g r ≤ g ((i + 1 : ℕ) / 10) := mono.monotoneOn (sub hr) (sub ⟨hr.1.trans hr.2, le_rfl⟩) hr.2
  refine ⟨(q i).at (g r), fun v hv => ev v _ hv i hi (Or.inr l) (Or.inr u), ?_⟩
  set P := (g r - g (i / 10)) * (g ((i + 1 : ℕ) / 10) - g r) with hP
  have P0 : 0 ≤ P := mul_nonneg (sub_nonneg.2 l) (sub_nonneg.2 u)
  have D : Curve g (fun r => r) g1 (fun _ => 1) g2 (fun _ => 0) :=
    ⟨d1, fun r => hasDerivAt_id r, d2, fun r => hasDerivAt_const r 1⟩
  -- a positive bound instead of `K`
  have main : ∀ K', 0 < K' → K ≤ K' → |(q i).at (g r) - r| ≤ (4 + 6 * ρ) / 2 * K' * P ∧ (0 < i → i < 18 → |(q i).at (g r) - r| ≤ 2 * K' * P) := by
    intro K' hp hle
    have hK' : ∀ r ∈ Set.Icc (0:ℝ) (19 / 10), |0 * g1 r - 1 * g2 r| ≤ K' * g1 r ^ 3 := by
      intro x hx
      rw [zero_mul, one_mul, zero_sub, abs_neg]
      exact (hK x hx).trans (mul_le_mul_of_nonneg_right hle (by have := pos x hx; positivity))
    obtain ⟨inc, M⟩ := D.moments N pos (fun _ => K') (fun _ => 3 * K') one_pos le_rfl
      (fun j hj x hx => by
        have : (j : ℝ) ≤ 17 := by exact_mod_cast (by omega : j ≤ 17)
        exact hK' x ⟨le_trans (by positivity) hx.1, hx.2.trans (by linarith)⟩)
      (fun _ => by positivity) (fun _ => le_rfl) (fun _ => by linarith) (Or.inr rfl) (fun _ _ => by linarith)
    have ch := D.chord_at (i := i) (κ := K') (r := r) (fun x hx => pos x (sub hx)) (fun x hx => hK' x (sub hx)) hr (inc i hi)
    have gp : ∀ j : ℕ, j < 19 → 0 < gap (fun j : ℕ => g ((j : ℝ) / 10)) j := fun j hj => sub_pos.2 (inc j hj)
    have inner : ∀ j : ℕ, 0 < j → j < 19 → |moment (fun j : ℕ => g ((j : ℝ) / 10)) q j| ≤ 3 * K' := by
      intro j j0 j1
      obtain ⟨k, rfl⟩ : ∃ k, j = k + 1 := ⟨j - 1, by omega⟩
      exact M k (by omega)
    have e0 : |moment (fun j : ℕ => g ((j : ℝ) / 10)) q 0| ≤ 3 * K' * (1 + 2 * ρ) := by
      have := end_close (gp 0 (by omega)) (gp 1 (by omega)) (N.start (by omega)) (inner 1 (by omega) (by omega)) (inner 2 (by omega) (by omega))
        (ρ := ρ) (by simp only [gap]; norm_num; linarith)
      linarith
    have e1 : |moment (fun j : ℕ => g ((j : ℝ) / 10)) q 19| ≤ 3 * K' * (1 + 2 * ρ) := by
      have := end_close (e0 := moment (fun j : ℕ => g ((j : ℝ) / 10)) q 19) (gp 18 (by omega)) (gp 17 (by omega))
        (by have := NotAKnot.stop (n := 17) N; linarith) (inner 18 (by omega) (by omega)) (inner 17 (by omega) (by omega))
        (ρ := ρ) (by simp only [gap]; norm_num; linarith)
      linarith
    have big : 3 * K' ≤ 3 * K' * (1 + 2 * ρ) := le_mul_of_one_le_right (by positivity) (by linarith)
    have all : ∀ j : ℕ, j < 20 → |moment (fun j : ℕ => g ((j : ℝ) / 10)) q j| ≤ 3 * K' * (1 + 2 * ρ) := by
      intro j hj
      rcases Nat.eq_zero_or_pos j with h | h
      · rw [h]; exact e0
      · by_cases h' : j = 19
        · rw [h']; exact e1
        · exact (inner j h (by omega)).trans big
    constructor
    · have := N.piece_error hi (inc i hi) l u ch (all i (by omega)) (all (i + 1) (by omega))
      refine this.trans (le_of_eq ?_)
      rw [hP]; ring
    · intro h0 h1
      have := N.piece_error hi (inc i hi) l u ch (inner i h0 (by omega)) (inner (i + 1) (by omega) (by omega))
      refine this.trans (le_of_eq ?_)
      rw [hP]; ring
  exact ⟨limit (by positivity) hK0 fun K' h h' => (main K' h h').1, fun h0 h1 => limit (by positivity) hK0 fun K' h h' => (main K' h h').2 h0 h1⟩

/-- **C181** Both lens models, and any other radius function: undistorting a distorted point gives a point on the same line through the centre, whose
distance from the centre (in units of the scale) is off by at most a multiple of the change of the slope of the radius function, times the product of the distances to the samples
around it. -/
theorem C181_error (s : Spline) (hs : Fitpack s) (L : Radial) (hx : L.scale.x ≠ 0) (hy : L.scale.y ≠ 0) (g g1 g2 : ℝ → ℝ)
    (hg : ∀ n r, Num.Is n r → Num.Is (L.conv n) (g r)) (hinv : L.inv = invertFunction s knots L.conv) (g0 : g 0 = 0)
    (d1 : ∀ r, HasDerivAt g (g1 r) r) (d2 : ∀ r, HasDerivAt g1 (g2 r) r) (pos : ∀ r ∈ Set.Icc (0:ℝ) (19 / 10), 0 < g1 r)
    (K ρ : ℝ) (hK0 : 0 ≤ K) (hρ : 1 ≤ ρ) (hK : ∀ r ∈ Set.Icc (0:ℝ) (19 / 10), |g2 r| ≤ K * g1 r ^ 3)
    (first : g (1 / 10) - g 0 ≤ ρ * (g (2 / 10) - g (1 / 10))) (last : g (19 / 10) - g (18 / 10) ≤ ρ * (g (18 / 10) - g (17 / 10)))
    (p : V2 ℝ) (n : V2 Num) (hn : n.Is p) (r : ℝ) (hr : radius L.scale L.offset p = r) (hr0 : 0 < r) (i : ℕ) (hi : i < 19)
    (hri : i / 10 ≤ r ∧ r ≤ (i + 1 : ℕ) / 10) :
    ∃ q R, (L.lens.imageFromDistorted (L.lens.distortedFromImage n)).Is q ∧ Stretched L.offset (R / r) p q ∧
      |R - r| ≤ (4 + 6 * ρ) / 2 * K * ((g r - g (i / 10)) * (g ((i + 1 : ℕ) / 10) - g r)) ∧
      (0 < i → i < 18 → |R - r| ≤ 2 * K * ((g r - g (i / 10)) * (g ((i + 1 : ℕ) / 10) - g r))) := by
  obtain ⟨R, hR, e1, e2⟩ := LensInverse.error hs hg d1 d2 pos hK0 hρ hK first last hi hri
  have cont : Continuous g := continuous_iff_continuousAt.2 fun r => (d1 r).continuousAt
  have i19 : (i : ℝ) ≤ 18 := by exact_mod_cast (by omega : i ≤ 18)
  have r19 : r ≤ 19 / 10 := by have := hri.2; push_cast at this; linarith
  have mono : StrictMonoOn g (Set.Icc 0 (19 / 10)) := by
    apply strictMonoOn_of_deriv_pos (convex_Icc _ _) cont.continuousOn
    intro x hx
    rw [(d1 x).deriv]
    exact pos x (interior_subset hx)
  have G : 0 < g r := by
    rw [← g0]
    exact mono ⟨le_rfl, by norm_num⟩ ⟨hr0.le, r19⟩ hr0
  have := transform_twice (L := L) (f := L.conv) (g := L.inv) hn hx hy hr hr0.ne' G (fun m hm => hg m r hm) (by rw [hinv]; exact hR)
  exact ⟨_, R, this, ⟨by simp, by simp⟩, e1, e2⟩

theorem LensInverse.brown_deriv (k1 k2 k3 r : ℝ) : HasDerivAt (brownPoly k1 k2 k3) (1 + 3 * k1 * r ^ 2 + 5 * k2 * r ^ 4 + 7 * k3 * r ^ 6) r ∧
    HasDerivAt (fun r : ℝ => 1 + 3 * k1 * r ^ 2 + 5 * k2 * r ^ 4 + 7 * k3 * r ^ 6) (6 * k1 * r + 20 * k2 * r ^ 3 + 42 * k3 * r ^ 5) r := by
  constructor
  · have := (hasDerivAt_id r).mul (((((hasDerivAt_pow 2 r).const_mul k1).const_add 1).add ((hasDerivAt_pow 4 r).const_mul k2)).add ((hasDerivAt_pow 6 r).const_mul k3))
    refine HasDerivAt.congr_deriv this ?_
    simp; ring
  · have := ((((hasDerivAt_pow 2 r).const_mul (3 * k1)).const_add 1).add ((hasDerivAt_pow 4 r).const_mul (5 * k2))).add ((hasDerivAt_pow 6 r).const_mul (7 * k3))
    refine HasDerivAt.congr_deriv this ?_
    simp; ring

/-- **C181** A Brown lens with coefficients that are not negative undistorts a distorted point with this error, for all radii up to 1.9. -/
theorem C181_brown (s : Spline) (hs : Fitpack s) (I : Projection.Intr) (hfx : I.fx ≠ 0) (hfy : I.fy ≠ 0) (k1 k2 k3 : ℝ) (h1 : 0 ≤ k1) (h2 : 0 ≤ k2) (h3 : 0 ≤ k3)
    (p : V2 ℝ) (n : V2 Num) (hn : n.Is p) (r : ℝ) (hr : radius ⟨I.fx, I.fy⟩ ⟨I.cx, I.cy⟩ p = r) (hr0 : 0 < r) (i : ℕ) (hi : i < 19)
    (hri : i / 10 ≤ r ∧ r ≤ (i + 1 : ℕ) / 10) :
    ∃ q R, ((brown s I k1 k2 k3).lens.imageFromDistorted ((brown s I k1 k2 k3).lens.distortedFromImage n)).Is q ∧ Stretched ⟨I.cx, I.cy⟩ (R / r) p q ∧
      |R - r| ≤ 13 / 2 * (12 * k1 + 138 * k2 + 1040 * k3) *
        ((brownPoly k1 k2 k3 r - brownPoly k1 k2 k3 (i / 10)) * (brownPoly k1 k2 k3 ((i + 1 : ℕ) / 10) - brownPoly k1 k2 k3 r)) := by
  have f1 : ∀ r : ℝ, 1 ≤ 1 + 3 * k1 * r ^ 2 + 5 * k2 * r ^ 4 + 7 * k3 * r ^ 6 := by
    intro r
    have : 0 ≤ 3 * k1 * r ^ 2 + 5 * k2 * r ^ 4 + 7 * k3 * r ^ 6 := by positivity
    linarith
  obtain ⟨q, R, a, b, c, -⟩ := C181_error s hs (brown s I k1 k2 k3) hfx hfy (brownPoly k1 k2 k3) _ _ (fun n r h => brownRadius_is h) rfl (by simp [brownPoly])
    (fun r => (brown_deriv k1 k2 k3 r).1) (fun r => (brown_deriv k1 k2 k3 r).2) (fun r _ => lt_of_lt_of_le one_pos (f1 r))
    (12 * k1 + 138 * k2 + 1040 * k3) (3 / 2) (by positivity) (by norm_num)
    (fun r hr => by
      have r0 := hr.1
      have p3 : r ^ 3 ≤ (19 / 10) ^ 3 := pow_le_pow_left₀ r0 hr.2 3
      have p5 : r ^ 5 ≤ (19 / 10) ^ 5 := pow_le_pow_left₀ r0 hr.2 5
      rw [abs_of_nonneg (by positivity)]
      have m1 := mul_le_mul_of_nonneg_left hr.2 h1
      have m2 := mul_le_mul_of_nonneg_left p3 h2
      have m3 := mul_le_mul_of_nonneg_left p5 h3
      have cub := one_le_pow₀ (f1 r) (n := 3)
      have : 6 * k1 * r + 20 * k2 * r ^ 3 + 42 * k3 * r ^ 5 ≤ 12 * k1 + 138 * k2 + 1040 * k3 := by norm_num at m1 m2 m3 ⊢; linarith
      exact this.trans (le_mul_of_one_le_right (by positivity) cub))
    (by simp only [brownPoly]; norm_num; linarith) (by simp only [brownPoly]; norm_num; linarith) p n hn r hr hr0 i hi hri
  refine ⟨q, R, a, b, c.trans (le_of_eq ?_)⟩
  norm_num

/-- The hypotheses hold together. -/
example : ∃ s : Spline, Fitpack s ∧ radius ⟨100, 100⟩ ⟨50, 25⟩ ⟨80, 65⟩ = (1 : ℝ) / 2 ∧ ((4 : ℕ) / 10 : ℝ) ≤ 1 / 2 ∧ (1 / 2 : ℝ) ≤ ((4 + 1 : ℕ) : ℝ) / 10 := by
  obtain ⟨s, hs⟩ := C181_exists
  refine ⟨s, hs, ?_, by norm_num, by norm_num⟩
  unfold radius
  rw [show ((80 - 50) / 100 : ℝ) ^ 2 + ((65 - 25) / 100) ^ 2 = (1 / 2) ^ 2 by norm_num, Real.sqrt_sq (by norm_num)]

theorem LensInverse.amgm {a b t : ℝ} (h1 : a ≤ t) (h2 : t ≤ b) (h : b - a ≤ 105 / 1000) : (t - a) * (b - t) ≤ 3 / 1000 := by
  nlinarith [sq_nonneg ((t - a) - (b - t))]

theorem LensInverse.small_steps {j : ℕ} (h : j ≤ 10) :
    (1 / 10000 * ((65 * (((j + 1 + 1 : ℕ) : ℝ) / 10) ^ 3 + 27 / 100 * ((j + 1 + 1 : ℕ) + 5 : ℝ) ^ 3) / 2) * (3 / 1000) : ℝ) ≤ ((j + 1 : ℕ) / 10) / 800 := by
  interval_cases j <;> norm_num

set_option maxHeartbeats 400000 in
/-- The Brown lenses of the test: one coefficient of at most 0.01. -/
theorem LensInverse.brown_small {s : Spline} (hs : Fitpack s) {k : ℝ} (hk0 : 0 < k) (hk1 : k ≤ 1 / 100) {r : ℝ} (hr0 : 0 < r) (hr1 : r ≤ 11 / 10) :
    ∃ R, (∀ v, Num.Is v (brownPoly k 0 0 r) → Num.Is (invertFunction s knots (brownRadius k 0 0) v) R) ∧ |R - r| ≤ r / 800 := by
  set f : ℝ → ℝ := brownPoly k 0 0 with hf
  set f1 : ℝ → ℝ := fun r => 1 + 3 * k * r ^ 2 with hf1
  set f2 : ℝ → ℝ := fun r => 6 * k * r with hf2
  set u : ℝ → ℝ := fun r => k ^ 2 * (3 * r ^ 5 + 3 * k * r ^ 7 + k ^ 2 * r ^ 9) with hu
  set u1 : ℝ → ℝ := fun r => k ^ 2 * (15 * r ^ 4 + 21 * k * r ^ 6 + 9 * k ^ 2 * r ^ 8) with hu1
  set u2 : ℝ → ℝ := fun r => k ^ 2 * (60 * r ^ 3 + 126 * k * r ^ 5 + 72 * k ^ 2 * r ^ 7) with hu2
  have ef : ∀ r, f r = r + k * r ^ 3 := by intro r; simp only [hf, brownPoly]; ring
  have D : Curve f u f1 u1 f2 u2 := by
    refine ⟨fun r => ?_, fun r => ?_, fun r => ?_, fun r => ?_⟩
    · refine HasDerivAt.congr_deriv (brown_deriv k 0 0 r).1 ?_
      simp only [hf1]; ring
    · have := (((((hasDerivAt_pow 5 r).const_mul 3).add ((hasDerivAt_pow 7 r).const_mul (3 * k))).add ((hasDerivAt_pow 9 r).const_mul (k ^ 2))).const_mul (k ^ 2))
      refine HasDerivAt.congr_deriv this ?_
      simp only [hu1]; push_cast; ring
    · have := ((hasDerivAt_pow 2 r).const_mul (3 * k)).const_add 1
      refine HasDerivAt.congr_deriv this ?_
      simp only [hf2]; push_cast; ring
    · have := (((((hasDerivAt_pow 4 r).const_mul 15).add ((hasDerivAt_pow 6 r).const_mul (21 * k))).add ((hasDerivAt_pow 8 r).const_mul (9 * k ^ 2))).const_mul (k ^ 2))
      refine HasDerivAt.congr_deriv this ?_
      simp only [hu2]; push_cast; ring
  have f1pos : ∀ r, 1 ≤ f1 r := by intro r; have : 0 ≤ 3 * k * r ^ 2 := by positivity
                                   simp only [hf1]; linarith
  have mono : StrictMonoOn f (Set.Icc 0 (19 / 10)) := fun a ha b _ hab => brownPoly_mono hk0.le le_rfl le_rfl a b ha.1 hab
  obtain ⟨q, N, ev⟩ := invert_evaluates hs (func := brownRadius k 0 0) (g := f) (fun n r h => brownRadius_is h) mono
  set p : Cubic := ⟨0, 1, 0, -k⟩ with hp
  have pu : ∀ r, r - p.at (f r) = u r := by
    intro r
    simp only [hp, Cubic.at, ef, hu]; ring
  have N' : NotAKnot 19 (fun j : ℕ => f ((j : ℝ) / 10)) (fun j : ℕ => u ((j : ℝ) / 10)) (fun i => (q i).sub p) :=
    (N.sub p).congr (fun _ _ => rfl) (fun i _ => pu _)
  -- how much the slope of the remaining curve changes
  have bound : ∀ b r : ℝ, 0 ≤ r → r ≤ b → b ≤ 19 / 10 → |u2 r * f1 r - u1 r * f2 r| ≤ 65 * k ^ 2 * b ^ 3 * f1 r ^ 3 := by
    intro b r r0 rb b1
    have b0 : 0 ≤ b := r0.trans rb
    have e : u2 r * f1 r - u1 r * f2 r = k ^ 2 * (60 * r ^ 3 + 216 * k * r ^ 5 + 324 * k ^ 2 * r ^ 7 + 162 * k ^ 3 * r ^ 9) := by
      simp only [hu1, hu2, hf1, hf2]; ring
    rw [e, abs_of_nonneg (by positivity)]
    have e' : u2 r * f1 r = k ^ 2 * (60 * r ^ 3 + 216 * k * r ^ 5 + 324 * k ^ 2 * r ^ 7 + 162 * k ^ 3 * r ^ 9) + u1 r * f2 r := by linarith
    have n1 : 0 ≤ u1 r * f2 r := by simp only [hu1, hf2]; positivity
    have kr : k * r ^ 2 ≤ 37 / 1000 := by
      have : r ^ 2 ≤ (19 / 10) ^ 2 := pow_le_pow_left₀ r0 (rb.trans b1) 2
      calc k * r ^ 2 ≤ 1 / 100 * (19 / 10) ^ 2 := mul_le_mul hk1 this (by positivity) (by norm_num)
        _ ≤ _ := by norm_num
    have kr0 : 0 ≤ k * r ^ 2 := by positivity
    have u2le : u2 r ≤ 65 * k ^ 2 * b ^ 3 := by
      have e : u2 r = k ^ 2 * r ^ 3 * (60 + 126 * (k * r ^ 2) + 72 * (k * r ^ 2) ^ 2) := by simp only [hu2]; ring
      have p3 : r ^ 3 ≤ b ^ 3 := pow_le_pow_left₀ r0 rb 3
      have l : 60 + 126 * (k * r ^ 2) + 72 * (k * r ^ 2) ^ 2 ≤ 65 := by nlinarith
      rw [e]
      calc k ^ 2 * r ^ 3 * (60 + 126 * (k * r ^ 2) + 72 * (k * r ^ 2) ^ 2) ≤ k ^ 2 * b ^ 3 * 65 := by gcongr
        _ = _ := by ring
    have u20 : 0 ≤ u2 r := by simp only [hu2]; positivity
    have c1 := f1pos r
    calc _ ≤ u2 r * f1 r := by linarith
      _ ≤ u2 r * f1 r ^ 3 := mul_le_mul_of_nonneg_left (le_self_pow₀ c1 (by norm_num)) u20
      _ ≤ _ := mul_le_mul_of_nonneg_right u2le (by positivity)
  obtain ⟨inc, M⟩ := D.moments N' (fun r _ => lt_of_lt_of_le one_pos (f1pos r)) (fun i => 65 * k ^ 2 * ((i + 2 : ℝ) / 10) ^ 3) (fun i => 27 / 100 * k ^ 2 * (i + 5 : ℝ) ^ 3)
    (γ := 41 / 100) (by norm_num) (by norm_num)
    (fun i hi r hr => by
      have : (i : ℝ) ≤ 17 := by exact_mod_cast (by omega : i ≤ 17)
      exact bound _ r (le_trans (by positivity) hr.1) hr.2 (by linarith))
    (fun i => by positivity) (fun i => by gcongr; linarith)
    (fun i => by
      have i0 : (0 : ℝ) ≤ i := by positivity
      have : ((i + 2 : ℕ) + 5 : ℝ) ^ 3 ≤ (2 - 41 / 100) * ((i + 1 : ℕ) + 5 : ℝ) ^ 3 := by
        push_cast
        have : 0 ≤ 59 / 100 * (i : ℝ) ^ 3 + (2862 / 100 - 21) * (i : ℝ) ^ 2 + (17172 / 100 - 147) * (i : ℝ) + (34344 / 100 - 343) := by positivity
        nlinarith
      have := mul_le_mul_of_nonneg_left this (show 0 ≤ 27 / 100 * k ^ 2 by positivity)
      linarith)
    (Or.inl (by simp only [ef]; nlinarith))
    (fun i hi => by
      have i0 : (0 : ℝ) ≤ i := by positivity
      have i1 : (i : ℝ) ≤ 17 := by exact_mod_cast (by omega : i ≤ 17)
      have l : (i + 2 : ℝ) ≤ 19 / 23 * (i + 6) := by linarith
      have := pow_le_pow_left₀ (by positivity) l 3
      have e : 3 * (65 * k ^ 2 * ((i + 2 : ℝ) / 10) ^ 3) = k ^ 2 * (195 / 1000 * (i + 2 : ℝ) ^ 3) := by ring
      have e' : 41 / 100 * (27 / 100 * k ^ 2 * ((i + 1 : ℕ) + 5 : ℝ) ^ 3) = k ^ 2 * (41 / 100 * (27 / 100) * (i + 6 : ℝ) ^ 3) := by push_cast; ring
      rw [e, e']
      apply mul_le_mul_of_nonneg_left _ (by positivity)
      have c : 0 ≤ (i + 6 : ℝ) ^ 3 := by positivity
      rw [mul_pow] at this
      norm_num at this ⊢
      linarith)
  obtain ⟨i, hi19, hri⟩ := sample hr0.le (hr1.trans (by norm_num))
  have hi : i < 12 := by
    have := hri.1.trans hr1
    have : (i : ℝ) < 12 := by linarith
    exact_mod_cast this
  have i11 : (i : ℝ) ≤ 11 := by exact_mod_cast (by omega : i ≤ 11)
  have sub : Set.Icc ((i : ℝ) / 10) ((i + 1 : ℕ) / 10) ⊆ Set.Icc (0:ℝ) (19 / 10) := by
    intro x hx
    have := hx.2
    push_cast at this
    exact ⟨le_trans (by positivity) hx.1, by linarith⟩
  have l : f (i / 10) ≤ f r := mono.monotoneOn (sub ⟨le_rfl, hri.1.trans hri.2⟩) (sub hri) hri.1
  have up : f r ≤ f ((i + 1 : ℕ) / 10) := mono.monotoneOn (sub hri) (sub ⟨hri.1.trans hri.2, le_rfl⟩) hri.2
  refine ⟨(q i).at (f r), fun v hv => ev v _ hv i hi19 (Or.inr l) (Or.inr up), ?_⟩
  have ch := D.chord_at (i := i) (κ := 65 * k ^ 2 * (((i + 1 : ℕ) : ℝ) / 10) ^ 3) (r := r) (fun x hx => lt_of_lt_of_le one_pos (f1pos x))
    (fun x hx => bound _ x (le_trans (by positivity) hx.1) hx.2 (by push_cast; linarith)) hri (inc i hi19)
  have er : (q i).at (f r) - r = ((q i).sub p).at (f r) - u r := by rw [Cubic.sub_at, ← pu r]; ring
  rw [er]
  have k2 : k ^ 2 ≤ 1 / 10000 := by nlinarith
  have step : f ((i + 1 : ℕ) / 10) - f (i / 10) ≤ 105 / 1000 := by
    have e : f ((i + 1 : ℕ) / 10) - f (i / 10) = 1 / 10 + k * ((3 * (i : ℝ) ^ 2 + 3 * i + 1) / 1000) := by rw [ef, ef]; push_cast; ring
    have : 3 * (i : ℝ) ^ 2 + 3 * i + 1 ≤ 397 := by nlinarith [show (0:ℝ) ≤ i by positivity]
    have c : 0 ≤ 3 * (i : ℝ) ^ 2 + 3 * i + 1 := by positivity
    rw [e]
    nlinarith
  rcases Nat.eq_zero_or_pos i with h0 | h0
  · subst h0
    have m1 := M 0 (by omega)
    have m2 := M 1 (by omega)
    have m0 : |moment (fun j : ℕ => f ((j : ℝ) / 10)) (fun i => (q i).sub p) 0| ≤ 210 * k ^ 2 := by
      have := end_close (sub_pos.2 (inc 0 (by omega))) (sub_pos.2 (inc 1 (by omega))) (N'.start (by omega)) m1 m2 (ρ := 1) (by simp only [ef]; norm_num; nlinarith)
      refine this.trans ?_
      push_cast
      nlinarith [sq_nonneg k]
    have := N'.piece_error (by omega) (inc 0 (by omega)) l up ch m0 (m1.trans (by push_cast; nlinarith [sq_nonneg k]))
    refine this.trans ?_
    have e0 : f ((0 : ℕ) / 10) = 0 := by simp [ef]
    rw [e0] at step ⊢
    rw [sub_zero] at step ⊢
    have fr : f r ≤ 10001 / 10000 * r := by
      rw [ef]
      have : r ≤ 1 / 10 := by have := hri.2; norm_num at this; linarith
      have : r ^ 2 ≤ 1 / 100 := by nlinarith
      have : k * r ^ 2 ≤ 1 / 10000 := by nlinarith
      nlinarith
    have fr0 : 0 ≤ f r := by rw [ef]; positivity
    have c : (65 * k ^ 2 * (((0 + 1 : ℕ) : ℝ) / 10) ^ 3 + 210 * k ^ 2) / 2 ≤ 106 / 10000 := by norm_num; linarith
    have c0 : 0 ≤ (65 * k ^ 2 * (((0 + 1 : ℕ) : ℝ) / 10) ^ 3 + 210 * k ^ 2) / 2 := by positivity
    have f01 : f ((0 + 1 : ℕ) / 10) ≤ 1001 / 10000 := by rw [ef]; norm_num; linarith
    calc _ ≤ 106 / 10000 * (10001 / 10000 * r * (1001 / 10000)) := by
          apply mul_le_mul c _ (mul_nonneg fr0 (sub_nonneg.2 up)) (by norm_num)
          exact mul_le_mul fr (by linarith) (sub_nonneg.2 up) (by positivity)
      _ ≤ r / 800 := by linarith
  · obtain ⟨j, rfl⟩ : ∃ j, i = j + 1 := ⟨i - 1, by omega⟩
    have m1 := M j (by omega)
    have m2 := M (j + 1) (by omega)
    have j0 : (0 : ℝ) ≤ j := by positivity
    have j1 : (j : ℝ) ≤ 10 := by push_cast at i11; linarith
    have := N'.piece_error (by omega) (inc (j + 1) (by omega)) l up ch (m1.trans (by gcongr; linarith)) m2
    refine this.trans ?_
    have amgm := amgm l up step
    have am0 : 0 ≤ (f r - f ((j + 1 : ℕ) / 10)) * (f ((j + 1 + 1 : ℕ) / 10) - f r) := mul_nonneg (sub_nonneg.2 l) (sub_nonneg.2 up)
    have c : (65 * k ^ 2 * (((j + 1 + 1 : ℕ) : ℝ) / 10) ^ 3 + 27 / 100 * k ^ 2 * ((j + 1 + 1 : ℕ) + 5 : ℝ) ^ 3) / 2 ≤
        1 / 10000 * ((65 * (((j + 1 + 1 : ℕ) : ℝ) / 10) ^ 3 + 27 / 100 * ((j + 1 + 1 : ℕ) + 5 : ℝ) ^ 3) / 2) := by
      have : 0 ≤ (65 * (((j + 1 + 1 : ℕ) : ℝ) / 10) ^ 3 + 27 / 100 * ((j + 1 + 1 : ℕ) + 5 : ℝ) ^ 3) / 2 := by positivity
      have := mul_le_mul_of_nonneg_right k2 this
      linarith
    calc _ ≤ 1 / 10000 * ((65 * (((j + 1 + 1 : ℕ) : ℝ) / 10) ^ 3 + 27 / 100 * ((j + 1 + 1 : ℕ) + 5 : ℝ) ^ 3) / 2) * (3 / 1000) :=
          mul_le_mul c amgm am0 (by positivity)
      _ ≤ ((j + 1 : ℕ) / 10) / 800 := by
          exact small_steps (by omega)
      _ ≤ r / 800 := by have := hri.1; linarith
