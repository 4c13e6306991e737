import Verif.Proofs.Camera
import Verif.Spec.Lens

/-! Helper lemmas for lenses. -/

open Classical Num

namespace LensModel

open LensSpec

theorem brownRadius_is {k1 k2 k3 : ℝ} {n : Num} {r : ℝ} (h : Num.Is n r) :
    Num.Is (brownRadius k1 k2 k3 n) (brownPoly k1 k2 k3 r) := by
  unfold brownRadius brownPoly
  num_is
  all_goals rfl

theorem abcRadius_is {a b c : ℝ} {n : Num} {r : ℝ} (h : Num.Is n r) :
    Num.Is (abcRadius a b c n) (abcPoly a b c r) := by
  unfold abcRadius abcPoly
  num_is
  all_goals rfl

theorem radius_nonneg (s o p : V2 ℝ) : 0 ≤ radius s o p := Real.sqrt_nonneg _

/-- The inner part of both conversions, for a point off the centre. -/
theorem transform_is {L : Radial} {f : Num → Num} {n : V2 Num} {p : V2 ℝ} (hn : n.Is p) (hx : L.scale.x ≠ 0)
    (hy : L.scale.y ≠ 0) (hr : radius L.scale L.offset p ≠ 0) {R : ℝ}
    (hf : ∀ m, Num.Is m (radius L.scale L.offset p) → Num.Is (f m) R) :
    (transform L f n).Is ⟨R / radius L.scale L.offset p * (p.x - L.offset.x) + L.offset.x,
      R / radius L.scale L.offset p * (p.y - L.offset.y) + L.offset.y⟩ := by
  have qx := (hn.1.sub (is_fin L.offset.x)).div (is_fin L.scale.x) hx
  have qy := (hn.2.sub (is_fin L.offset.y)).div (is_fin L.scale.y) hy
  have hr' := ((qx.mul qx).add (qy.mul qy)).sqrt (add_nonneg (mul_self_nonneg _) (mul_self_nonneg _))
  have er : Real.sqrt ((p.x - L.offset.x) / L.scale.x * ((p.x - L.offset.x) / L.scale.x) +
      (p.y - L.offset.y) / L.scale.y * ((p.y - L.offset.y) / L.scale.y)) = radius L.scale L.offset p := by
    unfold radius; congr 1; ring
  rw [er] at hr'
  have hF := hf _ hr'
  constructor
  · refine ((((qx.div hr' hr).mul hF).mul (is_fin L.scale.x)).add (is_fin L.offset.x)).congr ?_
    field_simp
  · refine ((((qy.div hr' hr).mul hF).mul (is_fin L.scale.y)).add (is_fin L.offset.y)).congr ?_
    field_simp

theorem radius_stretched {s o p : V2 ℝ} {c : ℝ} (hc : 0 ≤ c) :
    radius s o ⟨c * (p.x - o.x) + o.x, c * (p.y - o.y) + o.y⟩ = c * radius s o p := by
  unfold radius
  rw [← Real.sqrt_sq hc, ← Real.sqrt_mul (by positivity), Real.sqrt_sq hc]
  congr 1
  simp only [add_sub_cancel_right]
  ring

/-- Transforming with `f` and then with `g`, where `g` undoes `f` at the radius of the point. -/
theorem transform_transform {L : Radial} {f g : Num → Num} {n : V2 Num} {p : V2 ℝ} (hn : n.Is p)
    (hx : L.scale.x ≠ 0) (hy : L.scale.y ≠ 0) (hr : radius L.scale L.offset p ≠ 0) {R : ℝ} (hR : 0 < R)
    (hf : ∀ m, Num.Is m (radius L.scale L.offset p) → Num.Is (f m) R)
    (hg : ∀ m, Num.Is m R → Num.Is (g m) (radius L.scale L.offset p)) :
    (transform L g (transform L f n)).Is p := by
  have h1 := transform_is hn hx hy hr hf
  set r := radius L.scale L.offset p with hrd
  have hr0 : 0 < r := lt_of_le_of_ne (radius_nonneg _ _ _) (Ne.symm hr)
  have hrad : radius L.scale L.offset ⟨R / r * (p.x - L.offset.x) + L.offset.x,
      R / r * (p.y - L.offset.y) + L.offset.y⟩ = R := by
    rw [radius_stretched (by positivity), ← hrd]; field_simp
  have h2 := transform_is h1 hx hy (by rw [hrad]; exact hR.ne') (R := r) (by rw [hrad]; exact hg)
  rw [hrad] at h2
  refine h2.congr ?_
  ext <;> simp <;> field_simp <;> ring

theorem transform_centre {L : Radial} {f : Num → Num} {n : V2 Num} (hn : n.Is L.offset) (hx : L.scale.x ≠ 0)
    (hy : L.scale.y ≠ 0) : transform L f n = V2.nan := by
  have qx := ((hn.1.sub (is_fin L.offset.x)).div (is_fin L.scale.x) hx).congr (b := 0) (by simp)
  have qy := ((hn.2.sub (is_fin L.offset.y)).div (is_fin L.scale.y) hy).congr (b := 0) (by simp)
  have hr := (((qx.mul qx).add (qy.mul qy)).congr (b := 0) (by simp)).sqrt le_rfl
  rw [Real.sqrt_zero] at hr
  unfold transform V2.nan
  simp only [zero_div_zero qx hr, zero_div_zero qy hr, nan_mul, nan_add]

/-! ### the inverse radius function -/

theorem rising_of_increasing {l : List (ℝ × ℝ)} (h : (l.map Prod.snd).Pairwise (· < ·)) : rising l = l := by
  cases l with
  | nil => rfl
  | cons q t =>
    simp only [rising, List.cons.injEq, true_and]
    induction t generalizing q with
    | nil => rfl
    | cons q' t ih =>
      simp only [List.map_cons, List.pairwise_cons, List.mem_cons, forall_eq_or_imp] at h
      simp only [risingAux]
      rw [if_pos (by linarith [h.1.1])]
      rw [ih q' (by simp only [List.map_cons, List.pairwise_cons]; exact h.2)]

theorem knots_get {j : ℕ} (hj : j < 20) : knots[j]? = some ((j : ℝ) / 10) := by
  unfold knots; simp [hj]

theorem knots_mem {r : ℝ} (h : r ∈ knots) : r ∈ Set.Ico (0:ℝ) 2 := by
  unfold knots at h
  simp only [List.mem_map, List.mem_range] at h
  obtain ⟨j, hj, rfl⟩ := h
  have : (j : ℝ) < 20 := by exact_mod_cast hj
  exact ⟨by positivity, by linarith⟩

theorem knots_pairwise : knots.Pairwise (· < ·) := by
  unfold knots
  rw [List.pairwise_map]
  refine List.pairwise_lt_range.imp ?_
  intro a b h
  have : (a : ℝ) < b := by exact_mod_cast h
  linarith

/-- If the radius function is strictly increasing below 2, the inverse is exact at the
sampled radii. -/
theorem invertFunction_knots {s : Spline} (hs : GoodSpline s) {func : Num → Num} {g : ℝ → ℝ}
    (hfg : ∀ n r, Num.Is n r → Num.Is (func n) (g r)) (hg : StrictMonoOn g (Set.Ico 0 2)) {j : ℕ} (hj : j < 20)
    (m : Num) (hm : Num.Is m (g ((j : ℝ) / 10))) :
    Num.Is (invertFunction s knots func m) ((j : ℝ) / 10) := by
  have e : (knots.map fun r => (r, (func (.fin r)).rv)) = knots.map fun r => (r, g r) := by
    apply List.map_congr_left
    intro r _
    rw [(hfg _ _ (is_fin r)).rv_eq]
  have hinc : ((knots.map fun r => (r, g r)).map Prod.snd).Pairwise (· < ·) := by
    rw [List.map_map, List.pairwise_map]
    refine List.Pairwise.imp_of_mem ?_ knots_pairwise
    intro a b ha hb h
    exact hg (knots_mem ha) (knots_mem hb) h
  unfold invertFunction
  rw [e, rising_of_increasing hinc]
  have h2 := hs.exists_of_increasing ((knots.map fun r => (r, g r)).map Prod.snd)
    ((knots.map fun r => (r, g r)).map Prod.fst) (by simp) (by simp [knots]) hinc
  obtain ⟨f, hf⟩ := Option.isSome_iff_exists.1 h2
  rw [hf]
  exact hs.interpolates _ _ f hf j _ _ (by simp [knots_get hj]) (by simp [knots_get hj]) m hm

/-- If the radius function is the identity, so is the inverse. -/
theorem invertFunction_id {s : Spline} (hs : GoodSpline s) {func : Num → Num}
    (hfg : ∀ n r, Num.Is n r → Num.Is (func n) r) (m : Num) (r : ℝ) (hm : Num.Is m r) :
    Num.Is (invertFunction s knots func m) r := by
  have e : (knots.map fun r => (r, (func (.fin r)).rv)) = knots.map fun r => (r, r) := by
    apply List.map_congr_left
    intro r _
    rw [(hfg _ _ (is_fin r)).rv_eq]
  have hinc : ((knots.map fun r => (r, r)).map Prod.snd).Pairwise (· < ·) := by
    rw [List.map_map, List.pairwise_map]; exact knots_pairwise
  unfold invertFunction
  rw [e, rising_of_increasing hinc]
  have e2 : (knots.map fun r => (r, r)).map Prod.fst = (knots.map fun r => (r, r)).map Prod.snd := by
    simp only [List.map_map]; rfl
  rw [e2]
  cases hf : s ((knots.map fun r => (r, r)).map Prod.snd) ((knots.map fun r => (r, r)).map Prod.snd) with
  | none => exact hm
  | some f => exact hs.identity _ f hf m r hm

theorem brownPoly_mono {k1 k2 k3 : ℝ} (h1 : 0 ≤ k1) (h2 : 0 ≤ k2) (h3 : 0 ≤ k3) (a b : ℝ) (ha : 0 ≤ a) (h : a < b) :
    brownPoly k1 k2 k3 a < brownPoly k1 k2 k3 b := by
  have hb : 0 ≤ b := ha.trans h.le
  unfold brownPoly
  have e2 : a ^ 2 ≤ b ^ 2 := by gcongr
  have e4 : a ^ 4 ≤ b ^ 4 := by gcongr
  have e6 : a ^ 6 ≤ b ^ 6 := by gcongr
  have m2 := mul_le_mul_of_nonneg_left e2 h1
  have m4 := mul_le_mul_of_nonneg_left e4 h2
  have m6 := mul_le_mul_of_nonneg_left e6 h3
  have p1 : 0 < 1 + k1 * b ^ 2 + k2 * b ^ 4 + k3 * b ^ 6 := by positivity
  calc a * (1 + k1 * a ^ 2 + k2 * a ^ 4 + k3 * a ^ 6) ≤ a * (1 + k1 * b ^ 2 + k2 * b ^ 4 + k3 * b ^ 6) :=
        mul_le_mul_of_nonneg_left (by linarith) ha
    _ < _ := mul_lt_mul_of_pos_right h p1

theorem brownPoly_ge {k1 k2 k3 r : ℝ} (h1 : 0 ≤ k1) (h2 : 0 ≤ k2) (h3 : 0 ≤ k3) (hr : 0 ≤ r) :
    r ≤ brownPoly k1 k2 k3 r := by
  have : brownPoly k1 k2 k3 r = r + r * (k1 * r ^ 2 + k2 * r ^ 4 + k3 * r ^ 6) := by unfold brownPoly; ring
  rw [this]
  have : 0 ≤ r * (k1 * r ^ 2 + k2 * r ^ 4 + k3 * r ^ 6) := by positivity
  linarith

/-- If the kept knots are not strictly increasing, the inverse is the identity. -/
theorem invertFunction_fallback {s : Spline} (hs : GoodSpline s) {func : Num → Num}
    (h : ¬ ((rising (knots.map fun r => (r, (func (.fin r)).rv))).map Prod.snd).Pairwise (· < ·)) :
    invertFunction s knots func = id := by
  unfold invertFunction
  simp only [hs.raises _ _ h]

theorem mem_risingAux (y x : ℕ → ℝ) (n : ℕ) : ∀ s b, s < b → b ≤ s + n → y (b - 1) ≤ y b →
    (x b, y b) ∈ risingAux (y s) ((List.range' (s + 1) n).map fun j => (x j, y j)) := by
  induction n with
  | zero => intro s b h1 h2; omega
  | succ n ih =>
    intro s b h1 h2 h3
    simp only [List.range'_succ, List.map_cons, risingAux]
    by_cases hb : b = s + 1
    · subst hb
      simp only [Nat.add_sub_cancel] at h3
      rw [if_pos (by linarith)]
      exact List.mem_cons_self
    · have := ih (s + 1) b (by omega) (by omega) h3
      split_ifs
      · exact List.mem_cons_of_mem _ this
      · exact this

theorem sublist_risingAux (y x : ℕ → ℝ) (n : ℕ) : ∀ s a b, s < a → a < b → b ≤ s + n → y (a - 1) ≤ y a →
    y (b - 1) ≤ y b →
    [(x a, y a), (x b, y b)].Sublist (risingAux (y s) ((List.range' (s + 1) n).map fun j => (x j, y j))) := by
  induction n with
  | zero => intro s a b h1 h2; omega
  | succ n ih =>
    intro s a b h0 h1 h2 h3 h4
    simp only [List.range'_succ, List.map_cons, risingAux]
    by_cases ha : a = s + 1
    · subst ha
      simp only [Nat.add_sub_cancel] at h3
      rw [if_pos (by linarith)]
      exact List.Sublist.cons_cons _ (List.singleton_sublist.2 (mem_risingAux y x n (s + 1) b h1 (by omega) h4))
    · have := ih (s + 1) a b (by omega) h1 (by omega) h3 h4
      split_ifs
      · exact this.cons _
      · exact this

/-- Two kept knots appear in the kept list in their order. -/
theorem sublist_rising (y x : ℕ → ℝ) (n a b : ℕ) (hab : a < b) (hb : b < n + 1) (ha : a = 0 ∨ y (a - 1) ≤ y a)
    (hyb : y (b - 1) ≤ y b) :
    [(x a, y a), (x b, y b)].Sublist (rising ((List.range (n + 1)).map fun j => (x j, y j))) := by
  rw [List.range_eq_range', List.range'_succ, List.map_cons]
  simp only [rising]
  rcases Nat.eq_zero_or_pos a with h0 | h0
  · subst h0
    exact List.Sublist.cons_cons _ (List.singleton_sublist.2 (mem_risingAux y x n 0 b hab (by omega) hyb))
  · exact (sublist_risingAux y x n 0 a b h0 hab (by omega) (ha.resolve_left (by omega)) hyb).cons _

end LensModel
