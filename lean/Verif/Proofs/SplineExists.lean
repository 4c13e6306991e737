import Mathlib.LinearAlgebra.FiniteDimensional.Basic
import Verif.Proofs.Lens
import Verif.Proofs.Spline

/-! # Existence and uniqueness of interpolating cubic splines -/

namespace SplineSpec

/-- The equations of the second derivatives, as a linear map. -/
noncomputable def rowsMap (n : ℕ) (h : ℕ → ℝ) : (Fin (n + 4) → ℝ) →ₗ[ℝ] (Fin (n + 4) → ℝ) where
  toFun m i :=
    let e : ℕ → ℝ := fun j => if hj : j < n + 4 then m ⟨j, hj⟩ else 0
    if (i : ℕ) = 0 then (e 1 - e 0) * h 1 - (e 2 - e 1) * h 0
    else if (i : ℕ) = n + 3 then (e (n + 3) - e (n + 2)) * h (n + 1) - (e (n + 2) - e (n + 1)) * h (n + 2)
    else h (i - 1) * e (i - 1) + 2 * (h (i - 1) + h i) * e i + h i * e (i + 1)
  map_add' a b := by
    funext i
    simp only [Pi.add_apply]
    split_ifs <;> ring
  map_smul' c a := by
    funext i
    simp only [Pi.smul_apply, smul_eq_mul, RingHom.id_apply]
    split_ifs <;> ring

/-- Only zero solves the homogeneous equations. -/
theorem rows_zero {n : ℕ} {h E : ℕ → ℝ} (hg : ∀ i < n + 3, 0 < h i)
    (es : (E 1 - E 0) * h 1 = (E 2 - E 1) * h 0)
    (et : (E (n + 3) - E (n + 2)) * h (n + 1) = (E (n + 2) - E (n + 1)) * h (n + 2))
    (hR : ∀ i, i < n + 2 → h i * E i + 2 * (h i + h (i + 1)) * E (i + 1) + h (i + 1) * E (i + 2) = 0) :
    ∀ i, i < n + 4 → E i = 0 := by
  have inner : ∀ i, i < n + 2 → E (i + 1) = 0 := by
    intro i hi
    by_contra hne
    have p : 0 < |E (i + 1)| / 2 := by positivity
    have := rows_small (B := fun _ => |E (i + 1)| / 2) hg one_pos le_rfl es et (fun _ => p) (fun _ => le_rfl) (fun _ => by linarith) (Or.inr rfl)
      (fun j hj => by
        rw [hR j hj, abs_zero]
        have := hg j (by omega)
        have := hg (j + 1) (by omega)
        positivity) i hi
    linarith
  intro i hi
  by_cases c0 : i = 0
  · subst c0
    have e1 := inner 0 (by omega)
    have e2 := inner 1 (by omega)
    simp only [zero_add, show (1 : ℕ) + 1 = 2 from rfl] at e1 e2
    rw [e1, e2] at es
    have := (hg 1 (by omega)).ne'
    simpa [this] using es
  · by_cases c1 : i = n + 3
    · subst c1
      have e1 := inner n (by omega)
      have e2 := inner (n + 1) (by omega)
      simp only [show n + 1 + 1 = n + 2 from rfl] at e1 e2
      rw [e1, e2] at et
      have := (hg (n + 1) (by omega)).ne'
      simpa [this] using et
    · obtain ⟨j, rfl⟩ : ∃ j, i = j + 1 := ⟨i - 1, by omega⟩
      exact inner j (by omega)

/-- The equations of the second derivatives can be solved. -/
theorem rows_solvable {n : ℕ} {h : ℕ → ℝ} (hg : ∀ i < n + 3, 0 < h i) (r : ℕ → ℝ) : ∃ E : ℕ → ℝ,
    (E 1 - E 0) * h 1 = (E 2 - E 1) * h 0 ∧
    (E (n + 3) - E (n + 2)) * h (n + 1) = (E (n + 2) - E (n + 1)) * h (n + 2) ∧
    ∀ i, i < n + 2 → h i * E i + 2 * (h i + h (i + 1)) * E (i + 1) + h (i + 1) * E (i + 2) = r i := by
  have inj : Function.Injective (rowsMap n h) := by
    rw [← LinearMap.ker_eq_bot, LinearMap.ker_eq_bot']
    intro m hm
    have z := rows_zero (E := fun j => if hj : j < n + 4 then m ⟨j, hj⟩ else 0) hg
      (by
        have := congrFun hm ⟨0, by omega⟩
        simp only [rowsMap, LinearMap.coe_mk, AddHom.coe_mk, if_true, Pi.zero_apply] at this
        exact sub_eq_zero.1 this)
      (by
        have := congrFun hm ⟨n + 3, by omega⟩
        simp only [rowsMap, LinearMap.coe_mk, AddHom.coe_mk, if_true, Pi.zero_apply, show (n + 3 = 0) = False by simp, if_false] at this
        exact sub_eq_zero.1 this)
      (by
        intro i hi
        have := congrFun hm ⟨i + 1, by omega⟩
        simp only [rowsMap, LinearMap.coe_mk, AddHom.coe_mk, Pi.zero_apply, show (i + 1 = 0) = False by simp, if_false,
          show (i + 1 = n + 3) = False by simp; omega, Nat.add_sub_cancel] at this
        exact this)
    funext j
    have := z j j.2
    simpa using this
  obtain ⟨m, hm⟩ := (LinearMap.injective_iff_surjective.1 inj) fun i => if (i : ℕ) = 0 then 0 else if (i : ℕ) = n + 3 then 0 else r (i - 1)
  refine ⟨fun j => if hj : j < n + 4 then m ⟨j, hj⟩ else 0, ?_, ?_, ?_⟩
  · have := congrFun hm ⟨0, by omega⟩
    simp only [rowsMap, LinearMap.coe_mk, AddHom.coe_mk, if_true] at this
    exact sub_eq_zero.1 this
  · have := congrFun hm ⟨n + 3, by omega⟩
    simp only [rowsMap, LinearMap.coe_mk, AddHom.coe_mk, if_true, show (n + 3 = 0) = False by simp, if_false] at this
    exact sub_eq_zero.1 this
  · intro i hi
    have := congrFun hm ⟨i + 1, by omega⟩
    simp only [rowsMap, LinearMap.coe_mk, AddHom.coe_mk, show (i + 1 = 0) = False by simp, if_false,
      show (i + 1 = n + 3) = False by simp; omega, Nat.add_sub_cancel] at this
    exact this

/-- The cubic polynomial with given values and second derivatives at two places. -/
theorem cubic_exists {a b : ℝ} (h : a < b) (xa xb ma mb : ℝ) : ∃ q : Cubic, q.at a = xa ∧ q.at b = xb ∧ q.bend a = ma ∧ q.bend b = mb := by
  have hne : b - a ≠ 0 := (sub_pos.2 h).ne'
  set d := (mb - ma) / (b - a) / 6 with hd
  set c := (ma - 6 * d * a) / 2 with hc
  set s := (xb - xa - c * (b ^ 2 - a ^ 2) - d * (b ^ 3 - a ^ 3)) / (b - a) with hs
  have es : s * (b - a) = xb - xa - c * (b ^ 2 - a ^ 2) - d * (b ^ 3 - a ^ 3) := by rw [hs]; field_simp
  have ed : 6 * d * (b - a) = mb - ma := by rw [hd]; field_simp
  have ec : 2 * c = ma - 6 * d * a := by rw [hc]; ring
  refine ⟨⟨xa - s * a - c * a ^ 2 - d * a ^ 3, s, c, d⟩, ?_, ?_, ?_, ?_⟩
  · simp only [Cubic.at]; ring
  · simp only [Cubic.at]; linarith
  · simp only [Cubic.bend]; linarith
  · simp only [Cubic.bend]; linarith

/-- Through at least four points there is a spline. -/
theorem exists_notAKnot (n : ℕ) (y x : ℕ → ℝ) (hy : ∀ i < n + 3, y i < y (i + 1)) : ∃ q, NotAKnot (n + 3) y x q := by
  have hg : ∀ i < n + 3, 0 < gap y i := fun i hi => sub_pos.2 (hy i hi)
  obtain ⟨E, es, et, er⟩ := rows_solvable hg fun i => 6 * (mean y x (i + 1) - mean y x i)
  have ex : ∀ i, ∃ q : Cubic, i < n + 3 → q.at (y i) = x i ∧ q.at (y (i + 1)) = x (i + 1) ∧ q.bend (y i) = E i ∧ q.bend (y (i + 1)) = E (i + 1) := by
    intro i
    by_cases hi : i < n + 3
    · obtain ⟨q, hq⟩ := cubic_exists (hy i hi) (x i) (x (i + 1)) (E i) (E (i + 1))
      exact ⟨q, fun _ => hq⟩
    · exact ⟨⟨0, 0, 0, 0⟩, fun h => absurd h hi⟩
  choose q hq using ex
  have third : ∀ i, i < n + 3 → 6 * (q i).d * gap y i = E (i + 1) - E i := by
    intro i hi
    obtain ⟨-, -, e1, e2⟩ := hq i hi
    rw [← e1, ← e2, bend_sub]; rfl
  have same : ∀ i j, i < n + 3 → j < n + 3 → (E (i + 1) - E i) * gap y j = (E (j + 1) - E j) * gap y i → (q i).d = (q j).d := by
    intro i j hi hj e
    rw [← third i hi, ← third j hj] at e
    have a := (hg i hi).ne'
    have b := (hg j hj).ne'
    apply mul_right_cancel₀ (mul_ne_zero a b)
    linarith
  refine ⟨q, ⟨fun i hi => (hq i hi).1, fun i hi => (hq i hi).2.1, ?_, ?_, ?_, ?_⟩⟩
  · intro i hi
    obtain ⟨a1, a2, a3, a4⟩ := hq i (by omega)
    obtain ⟨b1, b2, b3, b4⟩ := hq (i + 1) hi
    rw [(q i).slope_right (hy i (by omega)), (q (i + 1)).slope_left (hy (i + 1) hi), a1, a2, a3, a4, b1, b2, b3, b4]
    have := er i (by omega)
    simp only [mean, gap] at this
    simp only [show i + 1 + 1 = i + 2 from rfl] at *
    linarith
  · intro i hi
    rw [(hq i (by omega)).2.2.2, (hq (i + 1) hi).2.2.1]
  · exact same 0 1 (by omega) (by omega) es
  · simp only [show n + 3 - 2 = n + 1 by omega, show n + 3 - 1 = n + 2 by omega]
    exact (same (n + 2) (n + 1) (by omega) (by omega) et).symm

/-- Only one spline goes through the points. -/
theorem NotAKnot.unique {n : ℕ} {y x : ℕ → ℝ} {p q : ℕ → Cubic} (hp : NotAKnot (n + 3) y x p) (hq : NotAKnot (n + 3) y x q)
    (hy : ∀ i < n + 3, y i < y (i + 1)) {i : ℕ} (hi : i < n + 3) (t : ℝ) : (p i).at t = (q i).at t := by
  have z := rows_zero (n := n) (h := gap y) (E := fun i => moment y p i - moment y q i) (fun i hi => sub_pos.2 (hy i hi))
    (by have := hp.start (by omega); have := hq.start (by omega); linarith)
    (by have := NotAKnot.stop (n := n + 1) hp; have := NotAKnot.stop (n := n + 1) hq; linarith)
    (by
      intro i hi
      have := hp.row hy (i := i) (by omega)
      have := hq.row hy (i := i) (by omega)
      linarith)
  have z0 := sub_eq_zero.1 (z i (by omega))
  have z1 := sub_eq_zero.1 (z (i + 1) (by omega))
  have f := (p i).form (hy i hi) t
  have g := (q i).form (hy i hi) t
  rw [hp.left i hi, hp.right i hi, hp.bend_left hi, show (p i).bend (y (i + 1)) = moment y p (i + 1) from rfl, z0, z1] at f
  rw [hq.left i hi, hq.right i hi, hq.bend_left hi, show (q i).bend (y (i + 1)) = moment y q (i + 1) from rfl] at g
  rw [f, g]

/-- Every number lies in (or outside next to) some piece. -/
theorem locate (y : ℕ → ℝ) (n : ℕ) (t : ℝ) : ∃ i, i < n + 1 ∧ (i = 0 ∨ y i ≤ t) ∧ (i = n ∨ t ≤ y (i + 1)) := by
  induction n with
  | zero => exact ⟨0, by omega, Or.inl rfl, Or.inl rfl⟩
  | succ n ih =>
    obtain ⟨i, hi, h1, h2⟩ := ih
    by_cases c : i = n
    · subst c
      by_cases ht : t ≤ y (i + 1)
      · exact ⟨i, by omega, h1, Or.inr ht⟩
      · exact ⟨i + 1, by omega, Or.inr (not_le.1 ht).le, Or.inl rfl⟩
    · exact ⟨i, by omega, h1, Or.inr (h2.resolve_left c)⟩

theorem increasing_getD {ys : List ℝ} (h : ys.Pairwise (· < ·)) {i : ℕ} (hi : i + 1 < ys.length) : ys.getD i 0 < ys.getD (i + 1) 0 := by
  rw [List.getD_eq_getElem?_getD, List.getD_eq_getElem?_getD, List.getElem?_eq_getElem (by omega), List.getElem?_eq_getElem hi,
    Option.getD_some, Option.getD_some]
  exact List.pairwise_iff_getElem.1 h _ _ (by omega) hi (by omega)

theorem NotAKnot.congr {n : ℕ} {y x y' x' : ℕ → ℝ} {q : ℕ → Cubic} (N : NotAKnot n y x q) (hy : ∀ i ≤ n, y i = y' i) (hx : ∀ i ≤ n, x i = x' i) :
    NotAKnot n y' x' q where
  left i hi := by rw [← hy i (by omega), ← hx i (by omega)]; exact N.left i hi
  right i hi := by rw [← hy (i + 1) (by omega), ← hx (i + 1) (by omega)]; exact N.right i hi
  slope i hi := by rw [← hy (i + 1) (by omega)]; exact N.slope i hi
  bend i hi := by rw [← hy (i + 1) (by omega)]; exact N.bend i hi
  first := N.first
  last := N.last

/-- The specified interpolation exists. -/
theorem exists_evaluates (ys xs : List ℝ) (h4 : 4 ≤ ys.length) (hi : ys.Pairwise (· < ·)) : ∃ F, Evaluates ys xs F := by
  obtain ⟨n, hn⟩ : ∃ n, ys.length = n + 4 := ⟨ys.length - 4, by omega⟩
  have hy : ∀ i < n + 3, ys.getD i 0 < ys.getD (i + 1) 0 := fun i h => increasing_getD hi (by omega)
  obtain ⟨q, hq⟩ := exists_notAKnot n (ys.getD · 0) (xs.getD · 0) hy
  choose loc l1 l2 l3 using fun t => locate (ys.getD · 0) (n + 2) t
  refine ⟨fun v => .fin ((q (loc v.rv)).at v.rv), q, by rw [hn]; exact hq, ?_⟩
  intro v t hv i hil hi1 hi2
  beta_reduce
  rw [hv.rv_eq, Num.is_fin_iff]
  -- two pieces that contain the number agree there
  have mono : ∀ a b, a ≤ b → b < n + 4 → ys.getD a 0 ≤ ys.getD b 0 := by
    intro a b hab hb
    rcases Nat.lt_or_eq_of_le hab with h | h
    · rw [List.getD_eq_getElem?_getD, List.getD_eq_getElem?_getD, List.getElem?_eq_getElem (by omega), List.getElem?_eq_getElem (by omega),
        Option.getD_some, Option.getD_some]
      exact (List.pairwise_iff_getElem.1 hi _ _ (by omega) (by omega) h).le
    · rw [h]
  have agree : ∀ a b, a < b → b < n + 3 → t ≤ ys.getD (a + 1) 0 → ys.getD b 0 ≤ t → (q a).at t = (q b).at t := by
    intro a b hab hb h1 h2
    have h3 := mono (a + 1) b hab (by omega)
    have e : b = a + 1 := by
      by_contra hne
      have h4 := hy (a + 1) (by omega)
      have h5 := mono (a + 1 + 1) b (by omega) (by omega)
      linarith
    subst e
    have et : t = ys.getD (a + 1) 0 := le_antisymm h1 h2
    rw [et, hq.right a (by omega), hq.left (a + 1) (by omega)]
  have a1 := l1 t
  have a2 := l2 t
  have a3 := l3 t
  generalize loc t = j at a1 a2 a3
  rcases lt_trichotomy i j with h | h | h
  · exact (agree i j h (by omega) (hi2.resolve_left (by omega)) (a2.resolve_left (by omega))).symm
  · rw [h]
  · exact agree j i h (by omega) (a3.resolve_left (by omega)) (hi1.resolve_left (by omega))

end SplineSpec
