import Verif.Model.RoundedRay
import Verif.Props.RoundDistance
import Verif.Props.RoundPan
import Verif.Props.Triangulate

/-! # The intersection of two lines with rounding errors: C184 -/

namespace Rounded

/-- A rounded number close to an exact one. -/
theorem rd_close {u x x' z E B : ℝ} (hu : 0 ≤ u) (h : Rd u x' z) (hE : |x' - x| ≤ E) (hB : |x'| ≤ B) : |z - x| ≤ E + u * B := by
  unfold Rd at h
  have h1 := abs_sub_le z x' x
  have h2 := mul_le_mul_of_nonneg_left hB hu
  linarith

theorem mul_close {a a' b b' A B E F : ℝ} (ha : |a' - a| ≤ E) (hb : |b' - b| ≤ F) (hA : |a'| ≤ A) (hB : |b| ≤ B) : |a' * b' - a * b| ≤ A * F + B * E := by
  rw [show a' * b' - a * b = a' * (b' - b) + b * (a' - a) by ring]
  refine (abs_add_le _ _).trans ?_
  rw [abs_mul, abs_mul]
  exact add_le_add (mul_le_mul hA hb (abs_nonneg _) ((abs_nonneg _).trans hA)) (mul_le_mul hB ha (abs_nonneg _) ((abs_nonneg _).trans hB))

theorem abs_close {x y E B : ℝ} (h : |x - y| ≤ E) (hB : |y| ≤ B) : |x| ≤ B + E := by
  have := abs_sub_abs_le_abs_sub x y
  linarith

theorem Quot.form {u a b q : ℝ} (hu : 0 ≤ u) (hu1 : u ≤ 1 / 100000) (h : Quot u a b q) : ∃ g, |g - 1| ≤ 2001 / 1000 * u ∧ q = a / b * g := by
  rcases h with h | ⟨r, h1, h2⟩
  · obtain ⟨e, he, rfl⟩ := h.form hu
    exact ⟨e, he.trans (by linarith), rfl⟩
  · obtain ⟨e, he, rfl⟩ := h1.form hu
    obtain ⟨f, hf, rfl⟩ := h2.form hu
    have g1 := fac_lin (k := 2001 / 1000) hu (by linarith : u ≤ 1 / 1000) (by norm_num) (by norm_num) (by linarith : |e - 1| ≤ 1 * u)
      (by linarith : |f - 1| ≤ 1 * u) (by norm_num)
    exact ⟨_, g1, by ring⟩

/-- A quotient close to an exact one: `x = n / d` exactly. -/
theorem Quot.near {u n n' d d' x q N E F B L : ℝ} (hu : 0 ≤ u) (hu1 : u ≤ 1 / 100000) (h : Quot u n' d' q) (hx : d * x = n) (hn : |n' - n| ≤ E) (hd : |d' - d| ≤ F)
    (hL : L ≤ |d'|) (hL0 : 0 < L) (hxB : |x| ≤ B) (hN : (E + F * B) / L ≤ N) : |q - x| ≤ N + 2001 / 1000 * u * (B + N) := by
  obtain ⟨g, hg, rfl⟩ := h.form hu hu1
  have hd' : d' ≠ 0 := by
    intro h
    rw [h, abs_zero] at hL
    linarith
  have h1 : |n' / d' - x| ≤ N := by
    refine le_trans ?_ hN
    rw [show n' / d' - x = (n' - n - (d' - d) * x) / d' by field_simp; rw [← hx]; ring, abs_div]
    have h2 : |n' - n - (d' - d) * x| ≤ E + F * B := by
      refine (abs_sub _ _).trans ?_
      rw [abs_mul]
      exact add_le_add hn (mul_le_mul hd hxB (abs_nonneg _) ((abs_nonneg _).trans hd))
    exact div_le_div₀ ((abs_nonneg _).trans h2) h2 hL0 hL
  have h3 := abs_close h1 hxB
  rw [show n' / d' * g - x = (n' / d' - x) + n' / d' * (g - 1) by ring]
  refine (abs_add_le _ _).trans ?_
  rw [abs_mul]
  have := mul_le_mul h3 hg (abs_nonneg _) ((abs_nonneg _).trans h3)
  linarith

set_option maxHeartbeats 2000000 in
/-- The solution of a system that is found by elimination; `ρ` bounds the factor of the elimination. -/
theorem Eliminate.near {u ρ a b c d e f a' b' c' d' e' f' s t M D : ℝ} {out : Option (ℝ × ℝ)} (hu : 0 ≤ u) (hu1 : u ≤ 1 / 100000) (hM : 0 ≤ M) (hρ : 1 ≤ ρ)
    (ha : |a' - a| ≤ 301 / 100 * u) (hb : |b' - b| ≤ 301 / 100 * u) (hc : |c' - c| ≤ 301 / 100 * u) (hd : |d' - d| ≤ 301 / 100 * u)
    (he : |e' - e| ≤ 401 / 100 * (u * M)) (hf : |f' - f| ≤ 401 / 100 * (u * M)) (a0' : 99 / 100 ≤ ρ * |a'|) (a1 : |a| ≤ 1) (b1 : |b| ≤ 1)
    (d1 : |d| ≤ 1) (e1 : |e| ≤ M) (f1 : |f| ≤ M) (hp : |c'| ≤ 10001 / 10000 * ρ * |a'|) (h1 : a * s + b * t = e)
    (h2 : c * s + d * t = f) (hs : |s| ≤ M) (ht : |t| ≤ M) (hD : D = |a * d - b * c|) (hD1 : D ≤ 1) (hD2 : 1000 * (ρ ^ 2 * u) ≤ D) (hD0 : 0 < D)
    (h : Eliminate u a' b' c' d' e' f' out) :
    ∃ x y, out = some (x, y) ∧ |x - s| ≤ 59 * (ρ ^ 3 * u * M / D) ∧ |y - t| ≤ 41 * (ρ ^ 3 * u * M / D) := by
  have hη : 0 ≤ u * M := mul_nonneg hu hM
  have hρ0 : 0 < ρ := by linarith
  obtain ⟨ε, hε⟩ : ∃ ε, ε = ρ ^ 2 * u := ⟨_, rfl⟩
  rw [← hε] at hD2
  have ερ : ρ * (ρ * u) = ε := by rw [hε]; ring
  have ρu : ρ * u ≤ ε := by rw [← ερ]; nlinarith [mul_nonneg hρ0.le hu]
  have ρu0 : 0 ≤ ρ * u := mul_nonneg hρ0.le hu
  have uε : u ≤ ε := le_trans (by nlinarith) ρu
  have hε0 : 0 ≤ ε := hu.trans uε
  have ε1 : ε ≤ 1 / 1000 := by linarith
  have ane' : a' ≠ 0 := by intro h; rw [h, abs_zero] at a0'; linarith
  have a0 : 986 / 1000 ≤ ρ * |a| := by
    have h3 := abs_sub_abs_le_abs_sub a' a
    have h4 := mul_le_mul_of_nonneg_left (h3.trans ha) hρ0.le
    linarith
  have ane : a ≠ 0 := by intro h; rw [h, abs_zero] at a0; linarith
  have apos : 0 < |a| := abs_pos.2 ane
  have apos' : 0 < |a'| := abs_pos.2 ane'
  unfold Eliminate at h
  rw [if_neg ane'] at h
  obtain ⟨l, m, p, n, r, k1, k2, k3, k4, k5, h⟩ := h
  have b1' := abs_close hb b1
  have d1' := abs_close hd d1
  have e1' := abs_close he e1
  have f1' := abs_close hf f1
  have uM : u * M ≤ 1 / 100000 * M := mul_le_mul_of_nonneg_right hu1 hM
  obtain ⟨ζ, hζ⟩ : ∃ ζ, ζ = ε * M := ⟨_, rfl⟩
  have ηζ : u * M ≤ ζ := hζ ▸ mul_le_mul_of_nonneg_right uε hM
  have ρη : ρ * (u * M) ≤ ζ := by
    rw [hζ, ← mul_assoc]
    exact mul_le_mul_of_nonneg_right ρu hM
  have ζ0 : 0 ≤ ζ := hη.trans ηζ
  have ζM : ζ ≤ 1 / 1000 * M := hζ ▸ mul_le_mul_of_nonneg_right ε1 hM
  have MρM : M ≤ ρ * M := by nlinarith
  obtain ⟨κ, hκ⟩ : ∃ κ, κ = ζ / D := ⟨_, rfl⟩
  have κD : κ * D = ζ := by rw [hκ, div_mul_cancel₀ _ hD0.ne']
  have κ0 : 0 ≤ κ := by rw [hκ]; positivity
  have ζκ : ζ ≤ κ := by nlinarith
  have κρ : κ ≤ ρ * κ := by nlinarith
  have uκ : u * κ ≤ 1 / 100000 * κ := mul_le_mul_of_nonneg_right hu1 κ0
  have uρκ : u * (ρ * κ) ≤ 1 / 100000 * (ρ * κ) := mul_le_mul_of_nonneg_right hu1 (mul_nonneg hρ0.le κ0)
  have uu : u * ε ≤ 1 / 100000 * ε := mul_le_mul_of_nonneg_right hu1 hε0
  have target : ρ ^ 3 * u * M / D = ρ * κ := by rw [hκ, hζ, hε]; ring
  rw [target]
  -- the factor of the elimination
  have l1 : |c / a| ≤ 101 / 100 * ρ := by
    rw [abs_div, div_le_iff₀ apos]
    have h3 := abs_close (abs_sub_comm c' c ▸ hc) le_rfl
    have h4 := mul_le_mul_of_nonneg_left (abs_close ha le_rfl) (by positivity : 0 ≤ 10001 / 10000 * ρ)
    have h5 : ε ≤ 1 / 1000 * (ρ * |a|) * (1000 / 986) := by linarith
    linarith
  have el := Quot.near (N := 613 / 100 * ε) hu hu1 k1 (show a * (c / a) = c by field_simp) hc ha (show 99 / 100 / ρ ≤ |a'| by rw [div_le_iff₀ hρ0]; linarith)
    (by positivity) l1 (by
      rw [div_div_eq_mul_div, div_le_iff₀ (by norm_num)]
      have : (301 / 100 * u + 301 / 100 * u * (101 / 100 * ρ)) * ρ = 301 / 100 * (ρ * u) + 301 / 100 * (101 / 100) * (ρ * (ρ * u)) := by ring
      rw [this, ερ]
      linarith)
  have el : |l - c / a| ≤ 82 / 10 * ε := by linarith
  have l1' : |l| ≤ 102 / 100 * ρ := by linarith [abs_close el l1]
  have hm : |m - c / a * b| ≤ 124 / 10 * ε := by
    have h3 := mul_close el hb l1' b1
    have h4 : |l * b'| ≤ 102 / 100 * ρ * (1001 / 1000) := by
      rw [abs_mul]
      exact mul_le_mul l1' (by linarith) (abs_nonneg _) (by positivity)
    linarith [rd_close hu k2 h3 h4]
  have m1 : |c / a * b| ≤ 101 / 100 * ρ * 1 := by
    rw [abs_mul]
    exact mul_le_mul l1 b1 (abs_nonneg _) (by positivity)
  have m1' := abs_close hm m1
  have hpp : |p - (d - c / a * b)| ≤ 175 / 10 * ε := by
    have h3 : |d' - m - (d - c / a * b)| ≤ 1541 / 100 * ε := by
      rw [show d' - m - (d - c / a * b) = (d' - d) - (m - c / a * b) by ring]
      linarith [abs_sub (d' - d) (m - c / a * b)]
    have h4 : |d' - m| ≤ 204 / 100 * ρ := by linarith [abs_sub d' m]
    linarith [rd_close hu k3 h3 h4]
  have hσ : D ≤ |d - c / a * b| := by
    rw [show d - c / a * b = (a * d - b * c) / a by field_simp, abs_div, ← hD, le_div_iff₀ apos]
    nlinarith
  have hp' : 98 / 100 * D ≤ |p| := by
    have h3 := abs_sub_abs_le_abs_sub (d - c / a * b) p
    rw [abs_sub_comm _ p] at h3
    linarith
  have hp0 : p ≠ 0 := by
    intro h
    rw [h, abs_zero] at hp'
    linarith
  have hn : |n - c / a * e| ≤ 134 / 10 * ζ := by
    have h3 := mul_close el he l1' e1
    have h4 : |l * e'| ≤ 102 / 100 * ρ * (1001 / 1000 * M) := by
      rw [abs_mul]
      exact mul_le_mul l1' (by linarith) (abs_nonneg _) (by positivity)
    have := rd_close hu k4 h3 h4
    rw [show M * (82 / 10 * ε) = 82 / 10 * ζ by rw [hζ]; ring] at this
    linarith
  have n1 : |c / a * e| ≤ 101 / 100 * ρ * M := by
    rw [abs_mul]
    exact mul_le_mul l1 e1 (abs_nonneg _) (by positivity)
  have n1' := abs_close hn n1
  have hr : |r - (f - c / a * e)| ≤ 195 / 10 * ζ := by
    have h3 : |f' - n - (f - c / a * e)| ≤ 1741 / 100 * ζ := by
      rw [show f' - n - (f - c / a * e) = (f' - f) - (n - c / a * e) by ring]
      linarith [abs_sub (f' - f) (n - c / a * e)]
    have h4 : |f' - n| ≤ 204 / 100 * (ρ * M) := by linarith [abs_sub f' n]
    have := rd_close hu k5 h3 h4
    linarith
  rw [if_neg hp0] at h
  obtain ⟨y, k, q, x, j1, j2, j3, j4, rfl⟩ := h
  have ey := Quot.near (N := 38 * κ) hu hu1 j1 (show (d - c / a * b) * t = f - c / a * e by rw [← h1, ← h2]; field_simp; ring) hr hpp hp'
    (by linarith) ht (by
      rw [div_le_iff₀ (by linarith), show 38 * κ * (98 / 100 * D) = 38 * (98 / 100) * (κ * D) by ring, κD,
        show 175 / 10 * ε * M = 175 / 10 * ζ by rw [hζ]; ring]
      linarith)
  have ey : |y - t| ≤ 41 * κ := by linarith
  have y1 := abs_close ey ht
  have hk : |k - b * t| ≤ 46 * κ := by
    have h3 := mul_close hb ey (show |b'| ≤ 1001 / 1000 by linarith) ht
    have h4 : |b' * y| ≤ 1001 / 1000 * (M + 41 * κ) := by
      rw [abs_mul]
      exact mul_le_mul (by linarith) y1 (abs_nonneg _) (by norm_num)
    have := rd_close hu j2 h3 h4
    linarith
  have k1 : |b * t| ≤ 1 * M := by
    rw [abs_mul]
    exact mul_le_mul b1 ht (abs_nonneg _) (by norm_num)
  have k1' := abs_close hk k1
  have hq : |q - (e - b * t)| ≤ 525 / 10 * κ := by
    have h3 : |e' - k - (e - b * t)| ≤ 5001 / 100 * κ := by
      rw [show e' - k - (e - b * t) = (e' - e) - (k - b * t) by ring]
      linarith [abs_sub (e' - e) (k - b * t)]
    have h4 : |e' - k| ≤ 201 / 100 * M + 46 * κ := by linarith [abs_sub e' k]
    have := rd_close hu j3 h3 h4
    linarith
  have ex := Quot.near (N := 562 / 10 * (ρ * κ)) hu hu1 j4 (show a * s = e - b * t by rw [← h1]; ring) hq ha
    (show 99 / 100 / ρ ≤ |a'| by rw [div_le_iff₀ hρ0]; linarith) (by positivity) hs
    (by
      rw [div_div_eq_mul_div, div_le_iff₀ (by norm_num)]
      have : 525 / 10 * κ + 301 / 100 * u * M ≤ 5551 / 100 * κ := by linarith
      have := mul_le_mul_of_nonneg_right this hρ0.le
      linarith)
  exact ⟨x, y, rfl, by linarith, by linarith⟩

theorem Rd.scale {u x y : ℝ} (c : ℝ) (h : Rd u x y) : Rd u (x * c) (y * c) := by
  unfold Rd at *
  rw [← sub_mul, abs_mul, abs_mul, ← mul_assoc]
  exact mul_le_mul_of_nonneg_right h (abs_nonneg _)

theorem Quot.scale {u a b q c d : ℝ} (h : Quot u a b q) : Quot u (a * c) (b * d) (q * (c / d)) := by
  rcases h with h | ⟨r, h1, h2⟩
  · refine Or.inl ?_
    have := h.scale (c / d)
    rwa [show a / b * (c / d) = a * c / (b * d) by rw [div_mul_div_comm]] at this
  · refine Or.inr ⟨r * (1 / d), ?_, ?_⟩
    · have := h1.scale (1 / d)
      rwa [show 1 / b * (1 / d) = 1 / (b * d) by rw [div_mul_div_comm, one_mul]] at this
    · have := h2.scale (c / d)
      rwa [show a * r * (c / d) = a * c * (r * (1 / d)) by ring] at this

/-- Elimination works alike if the rows and columns are scaled. -/
theorem Eliminate.scale {u a b c d e f : ℝ} {out : Option (ℝ × ℝ)} (r1 r2 k1 k2 : ℝ) (hr1 : r1 ≠ 0) (hr2 : r2 ≠ 0) (hk1 : k1 ≠ 0) (hk2 : k2 ≠ 0)
    (h : Eliminate u a b c d e f out) :
    Eliminate u (a * (r1 * k1)) (b * (r1 * k2)) (c * (r2 * k1)) (d * (r2 * k2)) (e * r1) (f * r2) (out.map fun z => (z.1 / k1, z.2 / k2)) := by
  unfold Eliminate at *
  by_cases ha : a = 0
  · rw [if_pos ha] at h
    rw [if_pos (by rw [ha, zero_mul]), h]
    rfl
  rw [if_neg ha] at h
  rw [if_neg (mul_ne_zero ha (mul_ne_zero hr1 hk1))]
  obtain ⟨l, m, p, n, r, h1, h2, h3, h4, h5, h⟩ := h
  refine ⟨l * (r2 * k1 / (r1 * k1)), m * (r2 * k2), p * (r2 * k2), n * r2, r * r2, h1.scale, ?_, ?_, ?_, ?_, ?_⟩
  · have := h2.scale (r2 * k2)
    rwa [show l * b * (r2 * k2) = l * (r2 * k1 / (r1 * k1)) * (b * (r1 * k2)) by field_simp] at this
  · have := h3.scale (r2 * k2)
    rwa [sub_mul] at this
  · have := h4.scale r2
    rwa [show l * e * r2 = l * (r2 * k1 / (r1 * k1)) * (e * r1) by field_simp] at this
  · have := h5.scale r2
    rwa [sub_mul] at this
  by_cases hp : p = 0
  · rw [if_pos hp] at h
    rw [if_pos (by rw [hp, zero_mul]), h]
    rfl
  rw [if_neg hp] at h
  rw [if_neg (mul_ne_zero hp (mul_ne_zero hr2 hk2))]
  obtain ⟨y, k, q, x, j1, j2, j3, j4, rfl⟩ := h
  refine ⟨y / k2, k * r1, q * r1, x / k1, ?_, ?_, ?_, ?_, rfl⟩
  · have := j1.scale (c := r2) (d := r2 * k2)
    rwa [show y * (r2 / (r2 * k2)) = y / k2 by field_simp] at this
  · have := j2.scale r1
    rwa [show b * y * r1 = b * (r1 * k2) * (y / k2) by field_simp] at this
  · have := j3.scale r1
    rwa [sub_mul] at this
  · have := j4.scale (c := r1) (d := r1 * k1)
    rwa [show x * (r1 / (r1 * k1)) = x / k1 by field_simp] at this

end Rounded

namespace Rounded

theorem dot_abs_near {v w : V3 ℝ} {e f g k : ℝ} (he : |e - 1| ≤ k) (hf : |f - 1| ≤ k) (hg : |g - 1| ≤ k) :
    |v.x * w.x * e + v.y * w.y * f + v.z * w.z * g - v.dot w| ≤ k * (v.norm * w.norm) := by
  have hk : 0 ≤ k := (abs_nonneg _).trans he
  rw [show v.x * w.x * e + v.y * w.y * f + v.z * w.z * g - v.dot w = v.dot ⟨w.x * (e - 1), w.y * (f - 1), w.z * (g - 1)⟩ by
    simp only [V3.dot]; ring]
  refine (Ray.abs_dot_le _ _).trans ?_
  rw [show k * (v.norm * w.norm) = v.norm * (k * w.norm) by ring]
  refine mul_le_mul_of_nonneg_left ?_ (V3.norm_nonneg _)
  refine Real.sqrt_le_iff.2 ⟨mul_nonneg hk (V3.norm_nonneg _), ?_⟩
  rw [mul_pow, V3.norm_sq]
  have h : ∀ a b, |b - 1| ≤ k → (a * (b - 1)) * (a * (b - 1)) ≤ k ^ 2 * (a * a) := fun a b hb => by
    have := sq_le_sq' (abs_le.1 hb).1 (abs_le.1 hb).2
    nlinarith [sq_nonneg a]
  simp only [V3.normSq]
  linarith [h w.x e he, h w.y f hf, h w.z g hg]

theorem Dot.norm_near {u y : ℝ} {p q : V3 ℝ} (hu : 0 ≤ u) (hu1 : u ≤ 1 / 100000) (h : Dot u p q y) : |y - p.dot q| ≤ 3001 / 1000 * u * (p.norm * q.norm) := by
  obtain ⟨e, f, g, he, hf, hg, rfl⟩ := h.form hu
  have : (1 + u) ^ 3 - 1 ≤ 3001 / 1000 * u := by nlinarith [mul_nonneg hu hu]
  exact dot_abs_near (he.trans this) (hf.trans this) (hg.trans this)

theorem Dot.diff_near {u y : ℝ} {p q w : V3 ℝ} (hu : 0 ≤ u) (hu1 : u ≤ 1 / 100000) (h1 : Rd u q.x w.x) (h2 : Rd u q.y w.y) (h3 : Rd u q.z w.z)
    (h : Dot u p w y) : |y - p.dot q| ≤ 4002 / 1000 * u * (p.norm * q.norm) := by
  obtain ⟨e, f, g, he, hf, hg, rfl⟩ := h.form hu
  obtain ⟨a, ha, h1⟩ := h1.form hu
  obtain ⟨b, hb, h2⟩ := h2.form hu
  obtain ⟨c, hc, h3⟩ := h3.form hu
  have k : (1 + u) ^ 3 - 1 ≤ 3001 / 1000 * u := by nlinarith [mul_nonneg hu hu]
  have m : ∀ x y : ℝ, |x - 1| ≤ (1 + u) ^ 3 - 1 → |y - 1| ≤ u → |y * x - 1| ≤ 4002 / 1000 * u := fun x y hx hy =>
    (fac_mul hy (hx.trans k)).trans (by nlinarith [mul_nonneg hu hu])
  have := dot_abs_near (v := p) (w := q) (m _ _ he ha) (m _ _ hf hb) (m _ _ hg hc)
  rw [h1, h2, h3]
  rwa [show p.x * (q.x * a) * e + p.y * (q.y * b) * f + p.z * (q.z * c) * g = p.x * q.x * (a * e) + p.y * q.y * (b * f) + p.z * q.z * (c * g) by ring]

/-- The parameters of the closest points of two lines. -/
theorem closest_le {w v1 v2 : V3 ℝ} {s t : ℝ} (hs : s * v1.normSq - t * v1.dot v2 = -v1.dot w) (ht : s * v1.dot v2 - t * v2.normSq = -v2.dot w)
    (hS : 0 < (v1.cross v2).norm) : |s| ≤ v2.norm * w.norm / (v1.cross v2).norm ∧ |t| ≤ v1.norm * w.norm / (v1.cross v2).norm := by
  have key : ∀ x (v : V3 ℝ), x * (v1.cross v2).normSq = (v.cross w).dot (v1.cross v2) → |x| ≤ v.norm * w.norm / (v1.cross v2).norm := fun x v h => by
    rw [le_div_iff₀ hS]
    have h1 := Ray.abs_dot_le (v.cross w) (v1.cross v2)
    rw [← h, abs_mul, ← V3.norm_sq, abs_of_nonneg (sq_nonneg (v1.cross v2).norm), pow_two, ← mul_assoc] at h1
    have h2 := le_of_mul_le_mul_right h1 hS
    refine h2.trans (Real.sqrt_le_iff.2 ⟨mul_nonneg (V3.norm_nonneg _) (V3.norm_nonneg _), ?_⟩)
    rw [mul_pow, V3.norm_sq, V3.norm_sq, V3.lagrange]
    nlinarith [sq_nonneg (v.dot w)]
  have e : (v1.cross v2).normSq = v1.normSq * v2.normSq - v1.dot v2 ^ 2 := V3.lagrange _ _
  constructor
  · refine key s v2 ?_
    have h3 : (v2.cross w).dot (v1.cross v2) = v1.dot v2 * v2.dot w - v1.dot w * v2.normSq := by
      simp only [V3.dot, V3.cross, V3.normSq]; ring
    rw [e, h3]
    linear_combination v2.normSq * hs - v1.dot v2 * ht
  · refine key t v1 ?_
    have h3 : (v1.cross w).dot (v1.cross v2) = v1.normSq * v2.dot w - v1.dot w * v1.dot v2 := by
      simp only [V3.dot, V3.cross, V3.normSq]; ring
    rw [e, h3]
    linear_combination v1.dot v2 * hs - v1.normSq * ht

theorem Middle.near {u p v q w s t s' t' M K out : ℝ} (hu : 0 ≤ u) (hu1 : u ≤ 1 / 100000) (hM : |s * v| ≤ M) (hM' : |t * w| ≤ M)
    (hK : u * M ≤ K) (hK0 : 0 ≤ K) (hs : |s' * v - s * v| ≤ 59 * K) (ht : |t' * w - t * w| ≤ 41 * K) (h : Middle u p v q w s' t' out) :
    |out - ((p + s * v) + (q + t * w)) / 2| ≤ 55 * K + 151 / 100 * u * (|p| + |q|) := by
  obtain ⟨a, b, c, d, e, h1, h2, h3, h4, h5, h6⟩ := h
  have hM0 : 0 ≤ M := (abs_nonneg _).trans hM
  have uK : u * K ≤ 1 / 100000 * K := mul_le_mul_of_nonneg_right hu1 hK0
  have uM : u * (u * M) ≤ 1 / 100000 * (u * M) := mul_le_mul_of_nonneg_right hu1 (mul_nonneg hu hM0)
  have up : ∀ x, 0 ≤ x → u * (u * x) ≤ 1 / 100000 * (u * x) := fun x hx => mul_le_mul_of_nonneg_right hu1 (mul_nonneg hu hx)
  have one : ∀ {x x' p a b E : ℝ}, |x| ≤ M → |x' - x| ≤ E → E ≤ 59 * K → Rd u x' a → Rd u (p + a) b → |b - (p + x)| ≤ E + 201 / 100 * K + u * |p| := by
    intro x x' p a b E hx hE hEK ha hb
    have x1 := abs_close hE hx
    have g3 := rd_close hu ha hE x1
    have uE : u * E ≤ u * (59 * K) := mul_le_mul_of_nonneg_left hEK hu
    have g4 : |p + a - (p + x)| ≤ E + u * (M + E) := by rwa [add_sub_add_left_eq_sub]
    have g6 := abs_close g3 hx
    have g7 := (abs_add_le p a).trans (add_le_add le_rfl g6)
    have g8 := rd_close hu hb g4 g7
    have g9 : u * (u * E) ≤ u * E := by nlinarith [mul_nonneg hu ((abs_nonneg _).trans hE)]
    linarith
  have b1 := one hM hs le_rfl h1 h2
  have d1 := one hM' ht (by linarith) h3 h4
  have sp : |p + s * v + (q + t * w)| ≤ |p| + |q| + M * 2 := by
    linarith [abs_add_le (p + s * v) (q + t * w), abs_add_le p (s * v), abs_add_le q (t * w)]
  have e1 : |b + d - (p + s * v + (q + t * w))| ≤ 10402 / 100 * K + u * (|p| + |q|) := by
    rw [show b + d - (p + s * v + (q + t * w)) = (b - (p + s * v)) + (d - (q + t * w)) by ring]
    linarith [abs_add_le (b - (p + s * v)) (d - (q + t * w))]
  have hpq : 0 ≤ |p| + |q| := add_nonneg (abs_nonneg _) (abs_nonneg _)
  have e2 := rd_close hu h5 e1 (abs_close e1 sp)
  have e3 : |e - (p + s * v + (q + t * w))| ≤ 107 * K + 20001 / 10000 * (u * (|p| + |q|)) := by linarith [up _ hpq, mul_nonneg hu hpq]
  have e4 : |e / 2 - (p + s * v + (q + t * w)) / 2| ≤ (107 * K + 20001 / 10000 * (u * (|p| + |q|))) / 2 := by
    rw [← sub_div, abs_div, abs_two]
    linarith
  have sp2 : |(p + s * v + (q + t * w)) / 2| ≤ (|p| + |q| + M * 2) / 2 := by
    rw [abs_div, abs_two]
    linarith
  have e5 := rd_close hu h6 e4 (abs_close e4 sp2)
  linarith [up _ hpq, mul_nonneg hu hpq]

set_option maxHeartbeats 2000000 in
/-- The parameters of the closest points, computed with rounding errors. -/
theorem Solve2.near {u ρ S : ℝ} (hu : 0 ≤ u) (hu1 : u ≤ 1 / 100000) {p1 v1 p2 v2 w : V3 ℝ} {a1 a2 b1 b2 c1 c2 s t : ℝ} {o : Option (ℝ × ℝ)} (hρ : 1 ≤ ρ)
    (hn1 : 0 < v1.norm) (hn2 : 0 < v2.norm) (hρv : v2.norm ≤ ρ * v1.norm) (hS0 : 0 < S) (hSv : (v1.cross v2).norm = S * (v1.norm * v2.norm))
    (hS : 1000 * (ρ ^ 2 * u) ≤ S ^ 2) (h1 : Dot u v1 v1 a1) (h2 : Dot u v1 v2 a2) (h3 : Dot u v2 v1 b1) (h4 : Dot u v2 v2 b2)
    (h5 : Rd u (p1.x - p2.x) w.x) (h6 : Rd u (p1.y - p2.y) w.y) (h7 : Rd u (p1.z - p2.z) w.z) (h8 : Dot u v1 w c1) (h9 : Dot u v2 w c2)
    (ho : Solve2 u a1 (-b1) a2 (-b2) (-c1) (-c2) o)
    (es : s * v1.normSq - t * v1.dot v2 = -v1.dot (p1 - p2)) (et : s * v1.dot v2 - t * v2.normSq = -v2.dot (p1 - p2)) :
    S ≤ 1 ∧ |s| * v1.norm ≤ V3.dist p1 p2 / S ∧ |t| * v2.norm ≤ V3.dist p1 p2 / S ∧
    ∃ x y, o = some (x, y) ∧ |x - s| * v1.norm ≤ 59 * (ρ ^ 3 * u * (V3.dist p1 p2 / S) / S ^ 2) ∧
      |y - t| * v2.norm ≤ 41 * (ρ ^ 3 * u * (V3.dist p1 p2 / S) / S ^ 2) := by
  have hL := V3.lagrange v1 v2
  rw [← V3.norm_sq, hSv, ← V3.norm_sq, ← V3.norm_sq] at hL
  rw [← V3.norm_sq] at es et
  obtain ⟨n1, hn1'⟩ : ∃ n, n = v1.norm := ⟨_, rfl⟩
  obtain ⟨n2, hn2'⟩ : ∃ n, n = v2.norm := ⟨_, rfl⟩
  obtain ⟨g, hg⟩ : ∃ g, g = v1.dot v2 := ⟨_, rfl⟩
  obtain ⟨W, hW⟩ : ∃ W, W = V3.dist p1 p2 := ⟨_, rfl⟩
  have hWn : (p1 - p2).norm = W := hW.symm
  have hW0 : 0 ≤ W := hWn ▸ V3.norm_nonneg _
  have ginn : |g| ≤ n1 * n2 := by rw [hg, hn1', hn2']; exact Ray.abs_dot_le _ _
  have dc : v2.dot v1 = v1.dot v2 := by simp only [V3.dot]; ring
  have d11 : v1.dot v1 = v1.norm ^ 2 := by rw [V3.norm_sq]; simp only [V3.dot, V3.normSq]; ring
  have d22 : v2.dot v2 = v2.norm ^ 2 := by rw [V3.norm_sq]; simp only [V3.dot, V3.normSq]; ring
  have bnd := closest_le (w := p1 - p2) (s := s) (t := t) (v1 := v1) (v2 := v2) (by rw [← V3.norm_sq]; exact es) (by rw [← V3.norm_sq v2]; exact et) (by rw [hSv]; positivity)
  rw [hSv, hWn, ← hn1', ← hn2'] at bnd
  have f11 := Dot.norm_near hu hu1 h1
  have f12 := Dot.norm_near hu hu1 h2
  have f21 := Dot.norm_near hu hu1 h3
  have f22 := Dot.norm_near hu hu1 h4
  have c1' := Dot.diff_near (q := p1 - p2) hu hu1 h5 h6 h7 h8
  have c2' := Dot.diff_near (q := p1 - p2) hu hu1 h5 h6 h7 h9
  have q1 := Ray.abs_dot_le v1 (p1 - p2)
  have q2 := Ray.abs_dot_le v2 (p1 - p2)
  obtain ⟨C1, hC1⟩ : ∃ C, C = v1.dot (p1 - p2) := ⟨_, rfl⟩
  obtain ⟨C2, hC2⟩ : ∃ C, C = v2.dot (p1 - p2) := ⟨_, rfl⟩
  rw [d11, ← hn1'] at f11
  rw [d22, ← hn2'] at f22
  rw [dc, ← hg, ← hn1', ← hn2'] at f21
  rw [← hg, ← hn1', ← hn2'] at f12
  rw [hWn, ← hn1', ← hC1] at c1' q1
  rw [hWn, ← hn2', ← hC2] at c2' q2
  rw [← hg, ← hn1', ← hn2'] at hL
  rw [← hg, ← hn1', ← hC1] at es
  rw [← hg, ← hn2', ← hC2] at et
  rw [← hn1'] at hn1
  rw [← hn2'] at hn2
  rw [← hn1', ← hn2'] at hρv
  rw [← hn1', ← hn2', ← hW]
  clear hn1' hn2' hg hC1 hC2 hW hWn dc d11 d22 h1 h2 h3 h4 h5 h6 h7 h8 h9 hSv
  have hS1 : S ≤ 1 := by
    have : S ^ 2 * (n1 * n2) ^ 2 ≤ 1 * (n1 * n2) ^ 2 := by nlinarith [sq_nonneg g]
    have := le_of_mul_le_mul_right this (by positivity)
    nlinarith
  obtain ⟨M, hM⟩ : ∃ M, M = W / S := ⟨_, rfl⟩
  have hM0 : 0 ≤ M := hM ▸ div_nonneg hW0 hS0.le
  have hWM : W ≤ M := by rw [hM, le_div_iff₀ hS0]; nlinarith
  have bs : |s| * n1 ≤ M := by
    have := mul_le_mul_of_nonneg_right bnd.1 hn1.le
    rwa [show n2 * W / (S * (n1 * n2)) * n1 = W / S by field_simp, ← hM] at this
  have bt : |t| * n2 ≤ M := by
    have := mul_le_mul_of_nonneg_right bnd.2 hn2.le
    rwa [show n1 * W / (S * (n1 * n2)) * n2 = W / S by field_simp, ← hM] at this
  rw [← hM]
  refine ⟨hS1, bs, bt, ?_⟩
  have S2 : S ^ 2 ≤ 1 := by nlinarith
  have bs' : |s * n1| ≤ M := by rwa [abs_mul, abs_of_pos hn1]
  have bt' : |t * n2| ≤ M := by rwa [abs_mul, abs_of_pos hn2]
  -- the entries, scaled
  have sc : ∀ {y x k m : ℝ}, 0 < m → |y - x| ≤ 3001 / 1000 * u * m → k * m = 1 → |y * k - x * k| ≤ 301 / 100 * u := by
    intro y x k m hm h hk
    have hk0 : 0 < k := by
      by_contra hc
      nlinarith
    rw [← sub_mul, abs_mul, abs_of_pos hk0]
    have := mul_le_mul_of_nonneg_right h hk0.le
    rw [show 3001 / 1000 * u * m * k = 3001 / 1000 * u * (k * m) by ring, hk] at this
    linarith
  have sc' : ∀ {y x k m : ℝ}, 0 < m → |y - x| ≤ 4002 / 1000 * u * (m * W) → k * m = 1 → |-y * k - -x * k| ≤ 401 / 100 * (u * M) := by
    intro y x k m hm h hk
    have hk0 : 0 < k := by
      by_contra hc
      nlinarith
    rw [← sub_mul, abs_mul, abs_of_pos hk0, neg_sub_neg, abs_sub_comm]
    have := mul_le_mul_of_nonneg_right h hk0.le
    rw [show 4002 / 1000 * u * (m * W) * k = 4002 / 1000 * (u * W) * (k * m) by ring, hk] at this
    have h2 := mul_le_mul_of_nonneg_left hWM hu
    have h3 : 0 ≤ u * M := mul_nonneg hu hM0
    linarith
  have sz : ∀ {x k m : ℝ}, 0 < m → |x| ≤ m * W → k * m = 1 → |-x * k| ≤ M := by
    intro x k m hm h hk
    have hk0 : 0 < k := by
      by_contra hc
      nlinarith
    rw [abs_mul, abs_neg, abs_of_pos hk0]
    have := mul_le_mul_of_nonneg_right h hk0.le
    rw [show m * W * k = W * (k * m) by ring, hk] at this
    linarith
  have i1 : n1⁻¹ * n1 = 1 := inv_mul_cancel₀ hn1.ne'
  have i2 : n2⁻¹ * n2 = 1 := inv_mul_cancel₀ hn2.ne'
  have i11 : n1⁻¹ * n1⁻¹ * (n1 * n1) = 1 := by field_simp
  have i12 : n1⁻¹ * n2⁻¹ * (n1 * n2) = 1 := by field_simp
  have i21 : n2⁻¹ * n1⁻¹ * (n1 * n2) = 1 := by field_simp
  have i22 : n2⁻¹ * n2⁻¹ * (n2 * n2) = 1 := by field_simp
  have e11 := sc (mul_pos hn1 hn1) f11 i11
  rw [show n1 ^ 2 * (n1⁻¹ * n1⁻¹) = 1 by field_simp] at e11
  have e12 := sc (mul_pos hn1 hn2) f12 i21
  have e21 := sc (mul_pos hn1 hn2) (y := -b1) (x := -g) (by rw [neg_sub_neg, abs_sub_comm, mul_comm n1 n2]; exact f21) i12
  have e22 := sc (mul_pos hn2 hn2) (y := -b2) (x := -n2 ^ 2) (by rw [neg_sub_neg, abs_sub_comm]; exact f22) i22
  rw [show -n2 ^ 2 * (n2⁻¹ * n2⁻¹) = -1 by field_simp] at e22
  have gk : |g * (n2⁻¹ * n1⁻¹)| ≤ 1 := by
    rw [abs_mul, abs_of_pos (by positivity : 0 < n2⁻¹ * n1⁻¹)]
    have := mul_le_mul_of_nonneg_right ginn (by positivity : 0 ≤ n2⁻¹ * n1⁻¹)
    rwa [mul_comm (n1 * n2), i21] at this
  have gk' : |-g * (n1⁻¹ * n2⁻¹)| ≤ 1 := by rwa [neg_mul, abs_neg, mul_comm n1⁻¹]
  have one1 : |(1 : ℝ)| ≤ 1 := by rw [_root_.abs_one]
  have one2 : |(-1 : ℝ)| ≤ 1 := by rw [abs_neg, _root_.abs_one]
  have hdet : S ^ 2 = 1 - (g * (n2⁻¹ * n1⁻¹)) ^ 2 := by
    have h3 : (g * (n2⁻¹ * n1⁻¹)) ^ 2 = g ^ 2 / (n1 * n2) ^ 2 := by field_simp
    rw [h3, eq_sub_iff_add_eq, ← eq_sub_iff_add_eq', div_eq_iff (by positivity)]
    linarith
  have hD0 : 0 < S ^ 2 := by positivity
  have eq1 : 1 * (s * n1) + -g * (n1⁻¹ * n2⁻¹) * (t * n2) = -C1 * n1⁻¹ := by
    rw [← es]; field_simp; ring
  have eq2 : g * (n2⁻¹ * n1⁻¹) * (s * n1) + -1 * (t * n2) = -C2 * n2⁻¹ := by
    rw [← et]; field_simp; ring
  have A0 : 99 / 100 ≤ |a1 * (n1⁻¹ * n1⁻¹)| := by
    have := abs_sub_abs_le_abs_sub 1 (a1 * (n1⁻¹ * n1⁻¹))
    rw [abs_sub_comm, _root_.abs_one] at this
    linarith
  have u3 : 301 / 100 * u ≤ 301 / 10000000 := by linarith
  have A0' : 99996 / 100000 ≤ |a1 * (n1⁻¹ * n1⁻¹)| := by
    have := abs_sub_abs_le_abs_sub 1 (a1 * (n1⁻¹ * n1⁻¹))
    rw [abs_sub_comm, _root_.abs_one] at this
    linarith
  have fin : ∀ {o'}, (∃ x y, o'.map (fun z : ℝ × ℝ => (z.1 / n1⁻¹, z.2 / n2⁻¹)) = some (x, y) ∧ |x - s * n1| ≤ 59 * (ρ ^ 3 * u * M / S ^ 2) ∧
      |y - t * n2| ≤ 41 * (ρ ^ 3 * u * M / S ^ 2)) → ∃ x y, o' = some (x, y) ∧ |x - s| * n1 ≤ 59 * (ρ ^ 3 * u * M / S ^ 2) ∧
      |y - t| * n2 ≤ 41 * (ρ ^ 3 * u * M / S ^ 2) := by
    rintro o' ⟨x, y, he, hx, hy⟩
    rw [Option.map_eq_some_iff] at he
    obtain ⟨⟨x', y'⟩, rfl, he⟩ := he
    rw [Prod.mk.injEq] at he
    obtain ⟨rfl, rfl⟩ := he
    refine ⟨x', y', rfl, ?_, ?_⟩
    · rwa [div_inv_eq_mul, ← sub_mul, abs_mul, abs_of_pos hn1] at hx
    · rwa [div_inv_eq_mul, ← sub_mul, abs_mul, abs_of_pos hn2] at hy
  apply fin
  unfold Solve2 at ho
  by_cases hp : |a2| ≤ |a1|
  · rw [if_pos hp] at ho
    have ho := ho.scale n1⁻¹ n2⁻¹ n1⁻¹ n2⁻¹ (by positivity) (by positivity) (by positivity) (by positivity)
    refine ho.near hu hu1 hM0 hρ e11 e21 e12 e22 (sc' hn1 c1' i1) (sc' hn2 c2' i2) ?_ one1 gk' one2 (sz hn1 q1 i1) (sz hn2 q2 i2) ?_ eq1 eq2 bs' bt' ?_ S2 hS hD0
    · have := mul_le_mul hρ A0 (by norm_num) (by linarith)
      linarith
    · have h3 := abs_close e12 gk
      have h4 := mul_le_mul hρ A0' (by norm_num) (by linarith)
      linarith
    · rw [show 1 * -1 - -g * (n1⁻¹ * n2⁻¹) * (g * (n2⁻¹ * n1⁻¹)) = -S ^ 2 by rw [hdet]; ring, abs_neg, abs_of_pos hD0]
  · rw [if_neg hp] at ho
    have ho := ho.scale n2⁻¹ n1⁻¹ n1⁻¹ n2⁻¹ (by positivity) (by positivity) (by positivity) (by positivity)
    have k0 : |a1 * (n1⁻¹ * n1⁻¹)| ≤ ρ * |a2 * (n2⁻¹ * n1⁻¹)| := by
      rw [abs_mul a1, abs_mul a2, abs_of_pos (by positivity : 0 < n1⁻¹ * n1⁻¹), abs_of_pos (by positivity : 0 < n2⁻¹ * n1⁻¹)]
      have h3 : n1⁻¹ ≤ ρ * n2⁻¹ := by
        rw [← div_eq_mul_inv, le_div_iff₀ hn2, inv_mul_le_iff₀ hn1]
        linarith
      have h4 : n1⁻¹ * n1⁻¹ ≤ ρ * n2⁻¹ * n1⁻¹ := mul_le_mul_of_nonneg_right h3 (by positivity)
      have h5 := mul_le_mul (not_le.1 hp).le h4 (by positivity) (abs_nonneg a2)
      linarith
    refine ho.near hu hu1 hM0 hρ e12 e22 e11 e21 (sc' hn2 c2' i2) (sc' hn1 c1' i1) ?_ gk one2 gk' (sz hn2 q2 i2) (sz hn1 q1 i1) ?_ eq2 eq1 bs' bt' ?_ S2 hS hD0
    · linarith
    · have := mul_nonneg (by linarith : 0 ≤ ρ) (abs_nonneg (a2 * (n2⁻¹ * n1⁻¹)))
      linarith
    · rw [show g * (n2⁻¹ * n1⁻¹) * (-g * (n1⁻¹ * n2⁻¹)) - -1 * 1 = S ^ 2 by rw [hdet]; ring, abs_of_pos hD0]

/-- The closest points of two lines that are not parallel. -/
theorem exists_closest {p1 v1 p2 v2 : V3 ℝ} (hD : 0 < (v1.cross v2).norm) :
    ∃ s t : ℝ, s * v1.normSq - t * v1.dot v2 = -v1.dot (p1 - p2) ∧ s * v1.dot v2 - t * v2.normSq = -v2.dot (p1 - p2) := by
  have hD : 0 < v1.normSq * v2.normSq - v1.dot v2 ^ 2 := by rw [← V3.lagrange, ← V3.norm_sq]; positivity
  refine ⟨(v1.dot v2 * v2.dot (p1 - p2) - v1.dot (p1 - p2) * v2.normSq) / (v1.normSq * v2.normSq - v1.dot v2 ^ 2),
    (v1.normSq * v2.dot (p1 - p2) - v1.dot (p1 - p2) * v1.dot v2) / (v1.normSq * v2.normSq - v1.dot v2 ^ 2), ?_, ?_⟩
  · rw [div_mul_eq_mul_div, div_mul_eq_mul_div, ← sub_div, div_eq_iff hD.ne']
    ring
  · rw [div_mul_eq_mul_div, div_mul_eq_mul_div, ← sub_div, div_eq_iff hD.ne']
    ring

theorem Intersection.near {u ρ S : ℝ} (hu : 0 ≤ u) (hu1 : u ≤ 1 / 100000) {p1 v1 p2 v2 : V3 ℝ} {out : V3 Num} (hρ : 1 ≤ ρ)
    (hn1 : 0 < v1.norm) (hn2 : 0 < v2.norm) (hρv : v2.norm ≤ ρ * v1.norm) (hS0 : 0 < S) (hSv : (v1.cross v2).norm = S * (v1.norm * v2.norm))
    (hS : 1000 * (ρ ^ 2 * u) ≤ S ^ 2) (h : Intersection u p1 v1 p2 v2 out) :
    ∃ (s t : ℝ) (Y : V3 ℝ), s * v1.normSq - t * v1.dot v2 = -v1.dot (p1 - p2) ∧ s * v1.dot v2 - t * v2.normSq = -v2.dot (p1 - p2) ∧ out.Is Y ∧
      ∀ j, |Y.get j - ((Geo.at' p1 v1 s).get j + (Geo.at' p2 v2 t).get j) / 2| ≤
        55 * ρ ^ 3 * u * V3.dist p1 p2 / S ^ 3 + 151 / 100 * u * (|p1.get j| + |p2.get j|) := by
  obtain ⟨a1, a2, b1, b2, w, c1, c2, o, h1, h2, h3, h4, h5, h6, h7, h8, h9, ho, h⟩ := h
  obtain ⟨s, t, es, et⟩ := exists_closest (p1 := p1) (v1 := v1) (p2 := p2) (v2 := v2) (by rw [hSv]; positivity)
  obtain ⟨hS1, bs, bt, x, y, rfl, hx, hy⟩ := Solve2.near hu hu1 hρ hn1 hn2 hρv hS0 hSv hS h1 h2 h3 h4 h5 h6 h7 h8 h9 ho es et
  obtain ⟨X, Y, Z, k1, k2, k3, k4⟩ := h
  have hW : 0 ≤ V3.dist p1 p2 := V3.norm_nonneg _
  obtain ⟨W, hWd⟩ : ∃ W, W = V3.dist p1 p2 := ⟨_, rfl⟩
  rw [← hWd] at bs bt hx hy hW
  have hM0 : 0 ≤ W / S := by positivity
  obtain ⟨K, hK⟩ : ∃ K, K = ρ ^ 3 * u * (W / S) / S ^ 2 := ⟨_, rfl⟩
  rw [← hK] at hx hy
  have K0 : 0 ≤ K := by rw [hK]; positivity
  have uK : u * (W / S) ≤ K := by
    rw [hK, le_div_iff₀ (by positivity)]
    have h3 : S ^ 2 ≤ ρ ^ 3 := le_trans (by nlinarith) (one_le_pow₀ hρ)
    have := mul_le_mul_of_nonneg_left h3 (by positivity : 0 ≤ u * (W / S))
    linarith
  have co : ∀ (v : V3 ℝ), |v.x| ≤ v.norm ∧ |v.y| ≤ v.norm ∧ |v.z| ≤ v.norm := fun v => by
    refine ⟨Real.abs_le_sqrt ?_, Real.abs_le_sqrt ?_, Real.abs_le_sqrt ?_⟩ <;> unfold V3.normSq <;>
      nlinarith [sq_nonneg v.x, sq_nonneg v.y, sq_nonneg v.z]
  have one : ∀ {c p q vc wc : ℝ}, |vc| ≤ v1.norm → |wc| ≤ v2.norm → Middle u p vc q wc x y c →
      |c - ((p + s * vc) + (q + t * wc)) / 2| ≤ 55 * ρ ^ 3 * u * V3.dist p1 p2 / S ^ 3 + 151 / 100 * u * (|p| + |q|) := by
    intro c p q vc wc hv hw hm
    have m : ∀ {a b n B : ℝ}, |b| ≤ n → |a| * n ≤ B → |a * b| ≤ B := fun hb hB => by
      rw [abs_mul]
      exact (mul_le_mul_of_nonneg_left hb (abs_nonneg _)).trans hB
    have := hm.near hu hu1 (m hv bs) (m hw bt) uK K0 (by rw [← sub_mul]; exact m hv hx) (by rw [← sub_mul]; exact m hw hy)
    rw [← hWd]
    rwa [show 55 * K = 55 * ρ ^ 3 * u * W / S ^ 3 by rw [hK]; field_simp] at this
  refine ⟨s, t, ⟨X, Y, Z⟩, es, et, k4, fun j => ?_⟩
  fin_cases j
  · exact one (co v1).1 (co v2).1 k1
  · exact one (co v1).2.1 (co v2).2.1 k2
  · exact one (co v1).2.2 (co v2).2.2 k3

end Rounded

/-- **C184** The intersection of two lines is computed accurately, unless the lines are almost parallel. `S` is the sine of the angle between them. -/
theorem C184_intersection {u ρ S : ℝ} (hu : 0 ≤ u) (hu1 : u ≤ 1 / 100000) {p1 v1 p2 v2 : V3 ℝ} {out : V3 Num} (hρ : 1 ≤ ρ)
    (hn1 : 0 < v1.norm) (hn2 : 0 < v2.norm) (hρv : v2.norm ≤ ρ * v1.norm) (hS0 : 0 < S) (hSv : (v1.cross v2).norm = S * (v1.norm * v2.norm))
    (hS : 1000 * (ρ ^ 2 * u) ≤ S ^ 2) (h : Rounded.Intersection u p1 v1 p2 v2 out) :
    ∃ (s t : ℝ) (Y : V3 ℝ), (∀ s' t', V3.dist (Geo.at' p1 v1 s) (Geo.at' p2 v2 t) ≤ V3.dist (Geo.at' p1 v1 s') (Geo.at' p2 v2 t')) ∧ out.Is Y ∧
      ∀ j, |Y.get j - ((Geo.at' p1 v1 s).get j + (Geo.at' p2 v2 t).get j) / 2| ≤
        55 * ρ ^ 3 * u * V3.dist p1 p2 / S ^ 3 + 151 / 100 * u * (|p1.get j| + |p2.get j|) := by
  obtain ⟨s, t, Y, es, et, hY, hj⟩ := h.near hu hu1 hρ hn1 hn2 hρv hS0 hSv hS
  refine ⟨s, t, Y, fun s' t' => Ray.feet_le p1 v1 p2 v2 s t s' t' ?_ ?_, hY, hj⟩
  · simp only [V3.dot, V3.normSq, V3.sub_x, V3.sub_y, V3.sub_z, Geo.at'] at es ⊢
    linarith
  · simp only [V3.dot, V3.normSq, V3.sub_x, V3.sub_y, V3.sub_z, Geo.at'] at et ⊢
    linarith

namespace Rounded

theorem nrm_add (a b : V3 ℝ) : (a + b).norm ≤ a.norm + b.norm := by
  refine Real.sqrt_le_iff.2 ⟨add_nonneg (V3.norm_nonneg _) (V3.norm_nonneg _), ?_⟩
  have h := (abs_le.1 (Ray.abs_dot_le a b)).2
  have h1 := V3.norm_sq a
  have h2 := V3.norm_sq b
  have : (a + b).normSq = a.normSq + 2 * a.dot b + b.normSq := by
    simp only [V3.normSq, V3.dot, V3.add_x, V3.add_y, V3.add_z]; ring
  nlinarith

theorem nrm_mulS (a : V3 ℝ) (t : ℝ) : (a.mulS t).norm = |t| * a.norm := by
  rw [← abs_of_nonneg (V3.norm_nonneg a), ← abs_mul, ← Real.sqrt_sq_eq_abs]
  unfold V3.norm
  congr 1
  rw [mul_pow, Real.sq_sqrt (V3.normSq_nonneg a)]
  simp only [V3.normSq, V3.mulS_x, V3.mulS_y, V3.mulS_z]; ring

theorem nrm_cross (a b : V3 ℝ) : (a.cross b).norm ≤ a.norm * b.norm := by
  refine Real.sqrt_le_iff.2 ⟨mul_nonneg (V3.norm_nonneg _) (V3.norm_nonneg _), ?_⟩
  rw [mul_pow, V3.norm_sq, V3.norm_sq, V3.lagrange]
  nlinarith [sq_nonneg (a.dot b)]

theorem nrm_coord (a : V3 ℝ) (j : Fin 3) : |a.get j| ≤ a.norm := by
  refine Real.abs_le_sqrt ?_
  unfold V3.normSq
  fin_cases j
  · show a.x ^ 2 ≤ _; nlinarith [sq_nonneg a.x, sq_nonneg a.y, sq_nonneg a.z]
  · show a.y ^ 2 ≤ _; nlinarith [sq_nonneg a.x, sq_nonneg a.y, sq_nonneg a.z]
  · show a.z ^ 2 ≤ _; nlinarith [sq_nonneg a.x, sq_nonneg a.y, sq_nonneg a.z]

theorem nrm_near {δ : ℝ} {d v : V3 ℝ} (h : (v - d).norm ≤ δ * d.norm) : v.norm ≤ (1 + δ) * d.norm ∧ (1 - δ) * d.norm ≤ v.norm := by
  have h1 := nrm_add d (v - d)
  have h2 := nrm_add v ((v - d).mulS (-1))
  rw [show d + (v - d) = v by ext <;> simp] at h1
  rw [show v + (v - d).mulS (-1) = d by ext <;> simp, nrm_mulS, abs_neg, _root_.abs_one, one_mul] at h2
  constructor <;> linarith

/-- The sine of the angle between lines whose directions are perturbed. -/
theorem sine_near {δ S : ℝ} {d1 v1 d2 v2 : V3 ℝ} (hn1 : 0 < d1.norm) (hn2 : 0 < d2.norm) (k1 : (v1 - d1).norm ≤ δ * d1.norm) (k2 : (v2 - d2).norm ≤ δ * d2.norm)
    (hS : (d1.cross d2).norm = S * (d1.norm * d2.norm)) (hδ0 : 0 ≤ δ) (hδ : 100 * δ ≤ S) (hS0 : 0 < S) :
    S ≤ 1 ∧ 0 < v1.norm ∧ 0 < v2.norm ∧ ∃ S', (v1.cross v2).norm = S' * (v1.norm * v2.norm) ∧ 96 / 100 * S ≤ S' := by
  have hS1 : S ≤ 1 := by
    have := nrm_cross d1 d2
    rw [hS] at this
    exact le_of_mul_le_mul_right (by rwa [one_mul]) (mul_pos hn1 hn2)
  obtain ⟨a1, b1⟩ := nrm_near k1
  obtain ⟨a2, b2⟩ := nrm_near k2
  have hδ1 : δ ≤ 1 / 100 := by linarith
  have p1 : 0 < v1.norm := lt_of_lt_of_le (mul_pos (by linarith) hn1) b1
  have p2 : 0 < v2.norm := lt_of_lt_of_le (mul_pos (by linarith) hn2) b2
  refine ⟨hS1, p1, p2, (v1.cross v2).norm / (v1.norm * v2.norm), by field_simp, ?_⟩
  rw [le_div_iff₀ (mul_pos p1 p2)]
  have e : d1.cross d2 = v1.cross v2 + ((v1 - d1).cross v2).mulS (-1) + (d1.cross (v2 - d2)).mulS (-1) := by
    ext <;> simp [V3.cross] <;> ring
  have t1 := nrm_add (v1.cross v2 + ((v1 - d1).cross v2).mulS (-1)) ((d1.cross (v2 - d2)).mulS (-1))
  have t2 := nrm_add (v1.cross v2) (((v1 - d1).cross v2).mulS (-1))
  rw [nrm_mulS, abs_neg, _root_.abs_one, one_mul] at t1 t2
  rw [← e, hS] at t1
  have c1 := (nrm_cross (v1 - d1) v2).trans (mul_le_mul k1 a2 p2.le (by positivity))
  have c2 := (nrm_cross d1 (v2 - d2)).trans (mul_le_mul_of_nonneg_left k2 hn1.le)
  have m := mul_le_mul a1 a2 p2.le (by positivity)
  have hN : 0 < d1.norm * d2.norm := mul_pos hn1 hn2
  have q1 : δ * d1.norm * ((1 + δ) * d2.norm) ≤ 101 / 10000 * S * (d1.norm * d2.norm) := by
    rw [show δ * d1.norm * ((1 + δ) * d2.norm) = δ * (1 + δ) * (d1.norm * d2.norm) by ring]
    exact mul_le_mul_of_nonneg_right (by nlinarith) hN.le
  have q2 : d1.norm * (δ * d2.norm) ≤ 1 / 100 * S * (d1.norm * d2.norm) := by
    rw [show d1.norm * (δ * d2.norm) = δ * (d1.norm * d2.norm) by ring]
    exact mul_le_mul_of_nonneg_right (by linarith) hN.le
  have q3 : (1 + δ) * d1.norm * ((1 + δ) * d2.norm) ≤ 10201 / 10000 * (d1.norm * d2.norm) := by
    rw [show (1 + δ) * d1.norm * ((1 + δ) * d2.norm) = (1 + δ) * (1 + δ) * (d1.norm * d2.norm) by ring]
    exact mul_le_mul_of_nonneg_right (by nlinarith) hN.le
  have q4 := mul_le_mul_of_nonneg_left (m.trans q3) (by linarith : 0 ≤ 96 / 100 * S)
  have q5 : 0 ≤ S * (d1.norm * d2.norm) := by positivity
  linarith

/-- The middle of the closest points of two lines whose directions are perturbed, where the lines met before. -/
theorem meet_near {δ S S' : ℝ} {p1 d1 v1 p2 d2 v2 : V3 ℝ} {s t s' t' : ℝ} (k1 : (v1 - d1).norm ≤ δ * d1.norm) (k2 : (v2 - d2).norm ≤ δ * d2.norm)
    (hS' : 0 < S') (hn1 : 0 < v1.norm) (hn2 : 0 < v2.norm) (hSv : (v1.cross v2).norm = S' * (v1.norm * v2.norm)) (hSS : 96 / 100 * S ≤ S') (hS0 : 0 < S) (hS1 : S ≤ 1)
    (hm : Geo.at' p1 d1 s = Geo.at' p2 d2 t)
    (es : s' * v1.normSq - t' * v1.dot v2 = -v1.dot (p1 - p2)) (et : s' * v1.dot v2 - t' * v2.normSq = -v2.dot (p1 - p2)) (j : Fin 3) :
    |((Geo.at' p1 v1 s').get j + (Geo.at' p2 v2 t').get j) / 2 - (Geo.at' p1 d1 s).get j| ≤ 155 / 100 * δ * ((|s| * d1.norm + |t| * d2.norm) / S) := by
  obtain ⟨r, hr⟩ : ∃ r, r = (v1 - d1).mulS s + (v2 - d2).mulS (-t) := ⟨_, rfl⟩
  have hw : p1 - p2 = d2.mulS t - d1.mulS s := by
    have hx := congrArg V3.x hm
    have hy := congrArg V3.y hm
    have hz := congrArg V3.z hm
    simp only [Geo.at'] at hx hy hz
    ext <;> simp <;> linarith
  have b := closest_le (w := r) (s := s' - s) (t := t' - t) (v1 := v1) (v2 := v2)
    (by
      rw [hw] at es
      rw [hr]
      simp only [V3.dot, V3.normSq, V3.sub_x, V3.sub_y, V3.sub_z, V3.add_x, V3.add_y, V3.add_z, V3.mulS_x, V3.mulS_y, V3.mulS_z] at es ⊢
      linarith)
    (by
      rw [hw] at et
      rw [hr]
      simp only [V3.dot, V3.normSq, V3.sub_x, V3.sub_y, V3.sub_z, V3.add_x, V3.add_y, V3.add_z, V3.mulS_x, V3.mulS_y, V3.mulS_z] at et ⊢
      linarith) (by rw [hSv]; positivity)
  have hδr1 := mul_le_mul_of_nonneg_left k1 (abs_nonneg s)
  have hδr2 := mul_le_mul_of_nonneg_left k2 (abs_nonneg t)
  obtain ⟨B, hB⟩ : ∃ B, B = |s| * d1.norm + |t| * d2.norm := ⟨_, rfl⟩
  have hrn : r.norm ≤ δ * B := by
    rw [hr]
    refine (nrm_add _ _).trans ?_
    rw [nrm_mulS, nrm_mulS, abs_neg, hB]
    linarith
  rw [hSv] at b
  have c1 : |s' - s| * v1.norm ≤ r.norm / S' := by
    have := mul_le_mul_of_nonneg_right b.1 hn1.le
    rwa [show v2.norm * r.norm / (S' * (v1.norm * v2.norm)) * v1.norm = r.norm / S' by field_simp] at this
  have c2 : |t' - t| * v2.norm ≤ r.norm / S' := by
    have := mul_le_mul_of_nonneg_right b.2 hn2.le
    rwa [show v1.norm * r.norm / (S' * (v1.norm * v2.norm)) * v2.norm = r.norm / S' by field_simp] at this
  rw [← hB]
  have hr0 := V3.norm_nonneg r
  have c3 : r.norm / S' ≤ δ * B / (96 / 100 * S) := div_le_div₀ (hr0.trans hrn) hrn (by positivity) hSS
  have hB0 : 0 ≤ δ * B := hr0.trans hrn
  have c4 : δ * B / (96 / 100 * S) = 100 / 96 * (δ * B / S) := by field_simp
  have c5 : δ * B ≤ δ * B / S := by rw [le_div_iff₀ hS0]; nlinarith
  have g1 := nrm_coord (v1.mulS (s' - s)) j
  have g2 := nrm_coord (v2.mulS (t' - t)) j
  have g3 := nrm_coord ((v1 - d1).mulS s) j
  have g4 := nrm_coord ((v2 - d2).mulS t) j
  rw [nrm_mulS] at g1 g2 g3 g4
  have e : ((Geo.at' p1 v1 s').get j + (Geo.at' p2 v2 t').get j) / 2 - (Geo.at' p1 d1 s).get j =
      ((v1.mulS (s' - s)).get j + (v2.mulS (t' - t)).get j + (((v1 - d1).mulS s).get j + ((v2 - d2).mulS t).get j)) / 2 := by
    have : (Geo.at' p1 d1 s).get j = ((Geo.at' p1 d1 s).get j + (Geo.at' p2 d2 t).get j) / 2 := by rw [← hm]; ring
    rw [this]
    fin_cases j
    · show (p1.x + s' * v1.x + (p2.x + t' * v2.x)) / 2 - (p1.x + s * d1.x + (p2.x + t * d2.x)) / 2 =
        (v1.x * (s' - s) + v2.x * (t' - t) + ((v1.x - d1.x) * s + (v2.x - d2.x) * t)) / 2
      ring
    · show (p1.y + s' * v1.y + (p2.y + t' * v2.y)) / 2 - (p1.y + s * d1.y + (p2.y + t * d2.y)) / 2 =
        (v1.y * (s' - s) + v2.y * (t' - t) + ((v1.y - d1.y) * s + (v2.y - d2.y) * t)) / 2
      ring
    · show (p1.z + s' * v1.z + (p2.z + t' * v2.z)) / 2 - (p1.z + s * d1.z + (p2.z + t * d2.z)) / 2 =
        (v1.z * (s' - s) + v2.z * (t' - t) + ((v1.z - d1.z) * s + (v2.z - d2.z) * t)) / 2
      ring
  rw [e, abs_div, abs_two]
  have f1 := abs_add_le ((v1.mulS (s' - s)).get j + (v2.mulS (t' - t)).get j) (((v1 - d1).mulS s).get j + ((v2 - d2).mulS t).get j)
  have f2 := abs_add_le ((v1.mulS (s' - s)).get j) ((v2.mulS (t' - t)).get j)
  have f3 := abs_add_le (((v1 - d1).mulS s).get j) (((v2 - d2).mulS t).get j)
  have hB' : δ * B = |s| * (δ * d1.norm) + |t| * (δ * d2.norm) := by rw [hB]; ring
  have last : 155 / 100 * δ * (B / S) = 155 / 100 * (δ * B / S) := by ring
  rw [last]
  linarith

end Rounded

set_option maxHeartbeats 1000000 in
open Projection Rounded Camera in
/-- **C184** The point that two cameras see is triangulated accurately. -/
theorem C184_stereo (I1 I2 : Intr) (hfx1 : I1.fx ≠ 0) (hfy1 : I1.fy ≠ 0) (hfx2 : I2.fx ≠ 0) (hfy2 : I2.fy ≠ 0) {u e ρ S : ℝ} (hu : 0 ≤ u) (hu1 : u ≤ 1 / 100000) (he1 : e ≤ 1 / 1000)
    (o1 o2 : Orient) (R1 R2 : M3) (hR1 : Near e R1 o1.mat.Rinv) (hR2 : Near e R2 o2.mat.Rinv) (q1 q2 : V2 ℝ) {d1 d2 : V3 ℝ}
    (hd1 : (Camera.getRay ⟨.rectilinear, I1, o1, noDistortion⟩ q1.num).2.Is d1) (hd2 : (Camera.getRay ⟨.rectilinear, I2, o2, noDistortion⟩ q2.num).2.Is d2)
    (X : V3 ℝ) (hX1 : Geo.OnLine o1.pos d1 X) (hX2 : Geo.OnLine o2.pos d2 X) (hρ : 1 ≤ ρ) (hρd : d2.norm ≤ ρ * d1.norm) (hS0 : 0 < S)
    (hSd : (d1.cross d2).norm = S * (d1.norm * d2.norm)) (hS : 1200 * (ρ ^ 2 * u) ≤ S ^ 2) (hSe : 300 * e + 1800 * u ≤ S) {out : V3 Num}
    (h : SpaceFromImages u I1 o1.pos R1 q1 I2 o2.pos R2 q2 out) :
    ∃ Y : V3 ℝ, out.Is Y ∧ ∀ j, |Y.get j - X.get j| ≤
      67 * ρ ^ 3 * u * V3.dist o1.pos o2.pos / S ^ 3 + (5 * e + 28 * u) * (V3.dist X o1.pos + V3.dist X o2.pos) / S + 151 / 100 * u * (|o1.pos.get j| + |o2.pos.get j|) := by
  obtain ⟨v1, v2, hv1, hv2, h⟩ := h
  have he : 0 ≤ e := (abs_nonneg _).trans hR1.1
  have dirs : ∀ (I : Intr) (hfx : I.fx ≠ 0) (hfy : I.fy ≠ 0) (o : Orient) (R : M3) (hR : Near e R o.mat.Rinv) (q : V2 ℝ) {d v : V3 ℝ}
      (hd : (Camera.getRay ⟨.rectilinear, I, o, noDistortion⟩ q.num).2.Is d) (hv : Direction u I R q false v),
      0 < d.norm ∧ (v - d).norm ≤ (3 * e + 18 * u) * d.norm := by
    intro I hfx hfy o R hR q d v hd hv
    have hq : (noDistortion.imageFromDistorted q.num).Is q := V2.is_num q
    obtain ⟨s, -, hs, -, hdir⟩ := getRay_dir ⟨.rectilinear, I, o, noDistortion⟩ hfx hfy hq false
    rw [hs rfl] at hdir
    have hd' : d = dirR ⟨.rectilinear, I, o, noDistortion⟩ q := by
      rw [hd.unique hdir]; ext <;> simp
    have hinv : o.mat.Rinv = o.mat.R.T := by cases o <;> exact Spatial.inv_rot _ _ _
    obtain ⟨r, hr⟩ : ∃ r, r = rayR .rectilinear I q := ⟨_, rfl⟩
    have hdr : d = o.mat.Rinv.applyR r := by rw [hinv, hr, hd']; rfl
    have hnorm : d.norm = r.norm := by
      rw [hd', hr]
      unfold dirR V3.norm
      rw [M3.normSq_applyR (A := o.mat.R.T) (rigid_mat o).RT]
    have hpos : 0 < d.norm := by rw [hnorm, hr]; exact ray_norm_pos I q
    refine ⟨hpos, ?_⟩
    have hn := fun j => (direction_near I hu hu1 he1 o R hR q v hv j).1
    rw [← hr, ← hdr] at hn
    have hk : 0 ≤ e + 6 * u := by positivity
    have hsz : size r ^ 2 ≤ 3 * d.norm ^ 2 := by
      rw [hnorm, V3.norm_sq]
      unfold size V3.normSq
      rw [← sq_abs r.x, ← sq_abs r.y, ← sq_abs r.z]
      nlinarith [sq_nonneg (|r.x| - |r.y|), sq_nonneg (|r.y| - |r.z|), sq_nonneg (|r.x| - |r.z|)]
    refine Real.sqrt_le_iff.2 ⟨by positivity, ?_⟩
    have sqb : ∀ j, (v.get j - d.get j) ^ 2 ≤ (e + 6 * u) ^ 2 * (3 * d.norm ^ 2) := fun j => by
      have h1 := sq_le_sq' (abs_le.1 (hn j)).1 (abs_le.1 (hn j)).2
      rw [mul_pow] at h1
      exact h1.trans (mul_le_mul_of_nonneg_left hsz (sq_nonneg _))
    have s0 : (v.x - d.x) ^ 2 ≤ _ := sqb 0
    have s1 : (v.y - d.y) ^ 2 ≤ _ := sqb 1
    have s2 : (v.z - d.z) ^ 2 ≤ _ := sqb 2
    unfold V3.normSq
    simp only [V3.sub_x, V3.sub_y, V3.sub_z]
    rw [show ((3 * e + 18 * u) * d.norm) ^ 2 = 3 * ((e + 6 * u) ^ 2 * (3 * d.norm ^ 2)) by ring]
    linarith
  obtain ⟨n1, k1⟩ := dirs I1 hfx1 hfy1 o1 R1 hR1 q1 hd1 hv1
  obtain ⟨n2, k2⟩ := dirs I2 hfx2 hfy2 o2 R2 hR2 q2 hd2 hv2
  obtain ⟨δ, hδ⟩ : ∃ δ, δ = 3 * e + 18 * u := ⟨_, rfl⟩
  rw [← hδ] at k1 k2
  have hδ0 : 0 ≤ δ := by rw [hδ]; positivity
  obtain ⟨hS1, m1, m2, S', hSv, hSS⟩ := sine_near n1 n2 k1 k2 hSd hδ0 (by linarith) hS0
  have hS' : 0 < S' := lt_of_lt_of_le (by positivity) hSS
  have hδ1 : δ ≤ 1 / 100 := by linarith
  have hratio : v2.norm ≤ 10203 / 10000 * ρ * v1.norm := by
    have h3 := (nrm_near k2).1
    have h4 := (nrm_near k1).2
    have h5 : 99 / 100 * d1.norm ≤ v1.norm := le_trans (mul_le_mul_of_nonneg_right (by linarith) n1.le) h4
    have h6 : v2.norm ≤ 101 / 100 * d2.norm := h3.trans (mul_le_mul_of_nonneg_right (by linarith) n2.le)
    have h7 := mul_le_mul_of_nonneg_left h5 (by linarith : 0 ≤ ρ)
    have h8 : 0 ≤ ρ * v1.norm := by positivity
    linarith
  have hS2 : 1000 * ((10203 / 10000 * ρ) ^ 2 * u) ≤ S' ^ 2 := by
    have h3 : (96 / 100 * S) ^ 2 ≤ S' ^ 2 := pow_le_pow_left₀ (by positivity) hSS 2
    have h4 : 0 ≤ ρ ^ 2 * u := by positivity
    nlinarith
  obtain ⟨s', t', Y, es, et, hY, hj⟩ := h.near hu hu1 (by linarith : 1 ≤ 10203 / 10000 * ρ) m1 m2 hratio hS' hSv hS2
  obtain ⟨s, x1, y1, z1⟩ := hX1
  obtain ⟨t, x2, y2, z2⟩ := hX2
  have e1 : Geo.at' o1.pos d1 s = X := by
    ext
    · rw [x1]; rfl
    · rw [y1]; rfl
    · rw [z1]; rfl
  have e2 : Geo.at' o2.pos d2 t = X := by
    ext
    · rw [x2]; rfl
    · rw [y2]; rfl
    · rw [z2]; rfl
  have D1 : |s| * d1.norm = V3.dist X o1.pos := by
    rw [← e1, ← nrm_mulS]
    unfold V3.dist
    congr 1
    ext <;> simp [Geo.at'] <;> ring
  have D2 : |t| * d2.norm = V3.dist X o2.pos := by
    rw [← e2, ← nrm_mulS]
    unfold V3.dist
    congr 1
    ext <;> simp [Geo.at'] <;> ring
  refine ⟨Y, hY, fun j => ?_⟩
  have a1 := hj j
  have a2 := meet_near k1 k2 hS' m1 m2 hSv hSS hS0 hS1 (e1.trans e2.symm) es et j
  rw [e1, D1, D2] at a2
  have W0 : 0 ≤ V3.dist o1.pos o2.pos := V3.norm_nonneg _
  have b1 : 55 * (10203 / 10000 * ρ) ^ 3 * u * V3.dist o1.pos o2.pos / S' ^ 3 ≤ 67 * ρ ^ 3 * u * V3.dist o1.pos o2.pos / S ^ 3 := by
    have h3 : (96 / 100 * S) ^ 3 ≤ S' ^ 3 := pow_le_pow_left₀ (by positivity) hSS 3
    have h4 : 0 ≤ ρ ^ 3 * u * V3.dist o1.pos o2.pos := by positivity
    rw [div_le_div_iff₀ (by positivity) (by positivity)]
    have h5 := mul_le_mul_of_nonneg_left h3 h4
    have h6 : 0 ≤ ρ ^ 3 * u * V3.dist o1.pos o2.pos * S ^ 3 := by positivity
    linarith
  have T0 : 0 ≤ V3.dist X o1.pos + V3.dist X o2.pos := add_nonneg (V3.norm_nonneg _) (V3.norm_nonneg _)
  have b2 : 155 / 100 * δ * ((V3.dist X o1.pos + V3.dist X o2.pos) / S) ≤ (5 * e + 28 * u) * (V3.dist X o1.pos + V3.dist X o2.pos) / S := by
    rw [mul_div_assoc]
    exact mul_le_mul_of_nonneg_right (by rw [hδ]; linarith) (by positivity)
  have := abs_sub_le (Y.get j) (((Geo.at' o1.pos v1 s').get j + (Geo.at' o2.pos v2 t').get j) / 2) (X.get j)
  linarith

namespace Rounded

theorem Quot.exact {u : ℝ} (hu : 0 ≤ u) (a b : ℝ) : Quot u a b (a / b) := Or.inl (Rd.exact hu _)

theorem Eliminate.exists {u : ℝ} (hu : 0 ≤ u) (a b c d e f : ℝ) : ∃ out, Eliminate u a b c d e f out := by
  unfold Eliminate
  by_cases ha : a = 0
  · exact ⟨none, by rw [if_pos ha]⟩
  by_cases hp : d - c / a * b = 0
  · refine ⟨none, ?_⟩
    rw [if_neg ha]
    refine ⟨_, _, _, _, _, Quot.exact hu _ _, Rd.exact hu _, Rd.exact hu _, Rd.exact hu _, Rd.exact hu _, ?_⟩
    rw [if_pos hp]
  · refine ⟨some ((e - b * ((f - c / a * e) / (d - c / a * b))) / a, (f - c / a * e) / (d - c / a * b)), ?_⟩
    rw [if_neg ha]
    refine ⟨_, _, _, _, _, Quot.exact hu _ _, Rd.exact hu _, Rd.exact hu _, Rd.exact hu _, Rd.exact hu _, ?_⟩
    rw [if_neg hp]
    exact ⟨_, _, _, _, Quot.exact hu _ _, Rd.exact hu _, Rd.exact hu _, Quot.exact hu _ _, rfl⟩

/-- There is always a result. -/
theorem Intersection.exists {u : ℝ} (hu : 0 ≤ u) (p1 v1 p2 v2 : V3 ℝ) : ∃ out, Intersection u p1 v1 p2 v2 out := by
  have hs : ∃ o, Solve2 u (v1.dot v1) (-v2.dot v1) (v1.dot v2) (-v2.dot v2) (-v1.dot (p1 - p2)) (-v2.dot (p1 - p2)) o := by
    unfold Solve2
    by_cases h : |v1.dot v2| ≤ |v1.dot v1|
    · simp only [if_pos h]
      exact Eliminate.exists hu _ _ _ _ _ _
    · simp only [if_neg h]
      exact Eliminate.exists hu _ _ _ _ _ _
  have hm : ∀ p v q w s t, ∃ m, Middle u p v q w s t m := fun p v q w s t =>
    ⟨_, _, _, _, _, _, Rd.exact hu _, Rd.exact hu _, Rd.exact hu _, Rd.exact hu _, Rd.exact hu _, Rd.exact hu _⟩
  obtain ⟨o, ho⟩ := hs
  obtain ⟨out, h⟩ : ∃ out, match o with
      | none => out = V3.nan
      | some (s, t) => ∃ x y z, Middle u p1.x v1.x p2.x v2.x s t x ∧ Middle u p1.y v1.y p2.y v2.y s t y ∧ Middle u p1.z v1.z p2.z v2.z s t z ∧ out.Is ⟨x, y, z⟩ := by
    rcases o with _ | ⟨s, t⟩
    · exact ⟨V3.nan, rfl⟩
    · obtain ⟨x, hx⟩ := hm p1.x v1.x p2.x v2.x s t
      obtain ⟨y, hy⟩ := hm p1.y v1.y p2.y v2.y s t
      obtain ⟨z, hz⟩ := hm p1.z v1.z p2.z v2.z s t
      exact ⟨V3.num ⟨x, y, z⟩, x, y, z, hx, hy, hz, V3.is_num _⟩
  exact ⟨out, _, _, _, _, p1 - p2, _, _, o, Dot.exact hu _ _, Dot.exact hu _ _, Dot.exact hu _ _, Dot.exact hu _ _, Rd.exact hu _, Rd.exact hu _, Rd.exact hu _,
    Dot.exact hu _ _, Dot.exact hu _ _, ho, h⟩

theorem SpaceFromImages.exists {u : ℝ} (hu : 0 ≤ u) (I1 : Projection.Intr) (t1 : V3 ℝ) (R1 : M3) (q1 : V2 ℝ) (I2 : Projection.Intr) (t2 : V3 ℝ) (R2 : M3) (q2 : V2 ℝ) :
    ∃ out, SpaceFromImages u I1 t1 R1 q1 I2 t2 R2 q2 out := by
  have hd : ∀ (I : Projection.Intr) (R : M3) (q : V2 ℝ), ∃ v, Direction u I R q false v := fun I R q =>
    ⟨⟨_, _, _⟩, _, RayRect.exact hu I q, Dot.exact hu _ _, Dot.exact hu _ _, Dot.exact hu _ _⟩
  obtain ⟨v1, h1⟩ := hd I1 R1 q1
  obtain ⟨v2, h2⟩ := hd I2 R2 q2
  obtain ⟨out, h⟩ := Intersection.exists hu t1 v1 t2 v2
  exact ⟨out, v1, v2, h1, h2, h⟩

end Rounded

theorem Rounded.Quot.zero {a b q : ℝ} (h : Rounded.Quot 0 a b q) : q = a / b := by
  obtain ⟨g, hg, rfl⟩ := h.form le_rfl (by norm_num)
  rw [mul_zero] at hg
  rw [sub_eq_zero.1 (abs_nonpos_iff.1 hg), mul_one]

open Rounded in
/-- A system without a unique solution is found to be singular, if there are no rounding errors. -/
theorem Rounded.Eliminate.singular {a b c d e f : ℝ} (h0 : a * d = b * c) {out : Option (ℝ × ℝ)} (h : Eliminate 0 a b c d e f out) : out = none := by
  unfold Eliminate at h
  by_cases ha : a = 0
  · rwa [if_pos ha] at h
  rw [if_neg ha] at h
  obtain ⟨l, m, p, n, r, h1, h2, h3, h4, h5, h⟩ := h
  have e1 := h1.zero
  have e2 : m = l * b := by
    unfold Rd at h2
    rw [zero_mul] at h2
    exact sub_eq_zero.1 (abs_nonpos_iff.1 h2)
  have e3 : p = d - m := by
    unfold Rd at h3
    rw [zero_mul] at h3
    exact sub_eq_zero.1 (abs_nonpos_iff.1 h3)
  have hp : p = 0 := by
    rw [e3, e2, e1]
    field_simp
    linarith
  rwa [if_pos hp] at h

/-- **C184** Without rounding errors the result is the one of the model over ideal numbers. -/
theorem C184_exact {p1 v1 p2 v2 : V3 ℝ} {out : V3 Num} (h : Rounded.Intersection 0 p1 v1 p2 v2 out) :
    (v1.cross v2 ≠ ⟨0, 0, 0⟩ → ∃ Y, out.Is Y ∧ (Ray.intersectionSingle p1.num v1.num p2.num v2.num).Is Y) ∧
    (v1.cross v2 = ⟨0, 0, 0⟩ → out = V3.nan ∧ Ray.intersectionSingle p1.num v1.num p2.num v2.num = V3.nan) := by
  constructor
  · intro hc
    have hcn : 0 < (v1.cross v2).norm := by
      refine lt_of_le_of_ne (V3.norm_nonneg _) fun h0 => hc ?_
      have h1 := V3.norm_sq (v1.cross v2)
      rw [← h0] at h1
      unfold V3.normSq at h1
      ext <;> simp <;> nlinarith [sq_nonneg (v1.cross v2).x, sq_nonneg (v1.cross v2).y, sq_nonneg (v1.cross v2).z]
    have hn : 0 < v1.norm * v2.norm := lt_of_lt_of_le hcn (Rounded.nrm_cross _ _)
    have hn1 : 0 < v1.norm := lt_of_le_of_ne (V3.norm_nonneg _) fun h0 => by rw [← h0, zero_mul] at hn; exact lt_irrefl _ hn
    have hn2 : 0 < v2.norm := lt_of_le_of_ne (V3.norm_nonneg _) fun h0 => by rw [← h0, mul_zero] at hn; exact lt_irrefl _ hn
    obtain ⟨s, t, Y, es, et, hY, hj⟩ := h.near (ρ := max 1 (v2.norm / v1.norm)) (S := (v1.cross v2).norm / (v1.norm * v2.norm)) le_rfl (by norm_num)
      (le_max_left _ _) hn1 hn2 (by
        have := mul_le_mul_of_nonneg_right (le_max_right 1 (v2.norm / v1.norm)) hn1.le
        rwa [div_mul_cancel₀ _ hn1.ne'] at this) (div_pos hcn hn) (by rw [div_mul_cancel₀ _ hn.ne']) (by rw [mul_zero, mul_zero]; positivity)
    obtain ⟨a, b, s0, t0, h1, ha, hb, o1, o2⟩ := (Ray.solveLines_spec (V3.is_num p1) (V3.is_num v1) (V3.is_num p2) (V3.is_num v2)).2 hc
    have hI : (Ray.intersectionSingle p1.num v1.num p2.num v2.num).Is ((Geo.at' p1 v1 s0 + Geo.at' p2 v2 t0).divS 2) := by
      unfold Ray.intersectionSingle
      rw [h1]
      have := (((V3.is_num p1).add ((V3.is_num v1).mulS ha)).add ((V3.is_num p2).add ((V3.is_num v2).mulS hb))).divS (Num.is_fin 2) two_ne_zero
      refine this.congr ?_
      ext <;> simp [Geo.at'] <;> ring
    have hD : 0 < v1.normSq * v2.normSq - v1.dot v2 ^ 2 := by rw [← V3.lagrange, ← V3.norm_sq]; positivity
    have es0 : s0 * v1.normSq - t0 * v1.dot v2 = -v1.dot (p1 - p2) := by
      simp only [V3.dot, V3.normSq, V3.sub_x, V3.sub_y, V3.sub_z, Geo.at'] at o1 ⊢
      linarith
    have et0 : s0 * v1.dot v2 - t0 * v2.normSq = -v2.dot (p1 - p2) := by
      simp only [V3.dot, V3.normSq, V3.sub_x, V3.sub_y, V3.sub_z, Geo.at'] at o2 ⊢
      linarith
    have k1 : (s - s0) * (v1.normSq * v2.normSq - v1.dot v2 ^ 2) = 0 := by
      linear_combination v2.normSq * (es - es0) - v1.dot v2 * (et - et0)
    have k2 : (t - t0) * (v1.normSq * v2.normSq - v1.dot v2 ^ 2) = 0 := by
      linear_combination v1.dot v2 * (es - es0) - v1.normSq * (et - et0)
    obtain rfl : s = s0 := sub_eq_zero.1 ((mul_eq_zero.1 k1).resolve_right hD.ne')
    obtain rfl : t = t0 := sub_eq_zero.1 ((mul_eq_zero.1 k2).resolve_right hD.ne')
    refine ⟨Y, hY, hI.congr ?_⟩
    have key : ∀ j, ((Geo.at' p1 v1 s).get j + (Geo.at' p2 v2 t).get j) / 2 = Y.get j := fun j => by
      have := hj j
      rw [mul_zero, zero_mul, zero_div, mul_zero, zero_mul, add_zero] at this
      exact (sub_eq_zero.1 (abs_nonpos_iff.1 this)).symm
    ext
    · exact key 0
    · exact key 1
    · exact key 2
  · intro hc
    refine ⟨?_, (C31_intersection_of_two_lines p1 v1 p2 v2).2 hc⟩
    obtain ⟨a1, a2, b1, b2, w, c1, c2, o, h1, h2, h3, h4, h5, h6, h7, h8, h9, ho, h⟩ := h
    have hl := V3.lagrange v1 v2
    rw [hc] at hl
    have d11 : v1.dot v1 = v1.normSq := by simp only [V3.dot, V3.normSq]; ring
    have d22 : v2.dot v2 = v2.normSq := by simp only [V3.dot, V3.normSq]; ring
    have dc : v2.dot v1 = v1.dot v2 := by simp only [V3.dot]; ring
    have h0 : v1.normSq * v2.normSq = v1.dot v2 * v1.dot v2 := by
      simp [V3.normSq] at hl ⊢
      linarith
    have hnone : o = none := by
      rw [h1.zero, h2.zero, h3.zero, h4.zero, d11, d22, dc] at ho
      unfold Rounded.Solve2 at ho
      by_cases hp : |v1.dot v2| ≤ |v1.normSq|
      · rw [if_pos hp] at ho
        exact ho.singular (by linarith)
      · rw [if_neg hp] at ho
        exact ho.singular (by linarith)
    rw [hnone] at h
    exact h

open Camera Stereo Rounded in
/-- The hypotheses of C184 can be met: two cameras looking down see the point (0, 0, -20) at the pixels (50, 25) and (40, 25). -/
example : ∃ d1 d2 out, exampleCam.intr.fx ≠ 0 ∧ exampleCam.intr.fy ≠ 0 ∧ exampleCam2.intr.fx ≠ 0 ∧ exampleCam2.intr.fy ≠ 0 ∧
    (getRay exampleCam (V2.num ⟨50, 25⟩)).2.Is d1 ∧ (getRay exampleCam2 (V2.num ⟨40, 25⟩)).2.Is d2 ∧
    Geo.OnLine exampleCam.orient.pos d1 ⟨0, 0, -20⟩ ∧ Geo.OnLine exampleCam2.orient.pos d2 ⟨0, 0, -20⟩ ∧ d2.norm ≤ 2 * d1.norm ∧
    (∃ S : ℝ, 0 < S ∧ (d1.cross d2).norm = S * (d1.norm * d2.norm) ∧ 1200 * ((2 : ℝ) ^ 2 * (1 / 10 ^ 6)) ≤ S ^ 2 ∧ (300 * 0 + 1800 * (1 / 10 ^ 6) : ℝ) ≤ S) ∧
    SpaceFromImages (1 / 10 ^ 6) exampleCam.intr exampleCam.orient.pos exampleCam.orient.mat.Rinv ⟨50, 25⟩ exampleCam2.intr exampleCam2.orient.pos
      exampleCam2.orient.mat.Rinv ⟨40, 25⟩ out := by
  have h1 := getRay_real exampleCam exampleCam_proper (n := V2.num ⟨50, 25⟩) (p := ⟨50, 25⟩) (V2.is_num _)
  have h2 := getRay_real exampleCam2 (by constructor <;> simp [exampleCam2]) (n := V2.num ⟨40, 25⟩) (p := ⟨40, 25⟩) (V2.is_num _)
  have e2 : dirR exampleCam2 ⟨40, 25⟩ = ⟨-1 / 10, 0, -1⟩ := by
    have h := camR_on_ray exampleCam2 ⟨40, 25⟩ 1
    rw [exampleCam2_camR] at h
    have hx := congrArg V3.x h
    have hy := congrArg V3.y h
    have hz := congrArg V3.z h
    simp [exampleCam2, Projection.rayR, Orient.pos] at hx hy hz
    ext <;> simp only [exampleCam2]
    · rw [hx]; norm_num
    · exact hy
    · exact hz
  rw [example_dir] at h1
  rw [e2] at h2
  obtain ⟨out, ho⟩ := SpaceFromImages.exists (by norm_num : (0 : ℝ) ≤ 1 / 10 ^ 6) exampleCam.intr exampleCam.orient.pos exampleCam.orient.mat.Rinv ⟨50, 25⟩ exampleCam2.intr
    exampleCam2.orient.pos exampleCam2.orient.mat.Rinv ⟨40, 25⟩
  have n1 : (⟨0, 0, -1⟩ : V3 ℝ).norm = 1 := by unfold V3.norm V3.normSq; norm_num
  have n2 : (⟨-1 / 10, 0, -1⟩ : V3 ℝ).norm ^ 2 = 101 / 100 := by rw [V3.norm_sq]; unfold V3.normSq; norm_num
  have n2' := V3.norm_nonneg (⟨-1 / 10, 0, -1⟩ : V3 ℝ)
  have n3 : (V3.cross ⟨0, 0, -1⟩ ⟨-1 / 10, 0, -1⟩ : V3 ℝ).norm = 1 / 10 := by
    unfold V3.norm V3.normSq V3.cross
    rw [show ((0 * -1 - -1 * 0) ^ 2 + (-1 * (-1 / 10) - 0 * -1) ^ 2 + (0 * 0 - 0 * (-1 / 10)) ^ 2 : ℝ) = (1 / 10) ^ 2 by norm_num, Real.sqrt_sq (by norm_num)]
  set n := (⟨-1 / 10, 0, -1⟩ : V3 ℝ).norm
  have b1 : 1 ≤ n := by nlinarith
  have b2 : n ≤ 101 / 100 := by nlinarith
  refine ⟨_, _, out, by norm_num [exampleCam], by norm_num [exampleCam], by norm_num [exampleCam2], by norm_num [exampleCam2], h1, h2,
    ⟨30, ?_, ?_, ?_⟩, ⟨30, ?_, ?_, ?_⟩, ?_, ⟨1 / (10 * n), by positivity, ?_, ?_, ?_⟩, ho⟩
  all_goals first
    | (simp [exampleCam, exampleCam2, Orient.pos]; done)
    | (simp [exampleCam, exampleCam2, Orient.pos]; norm_num; done)
    | skip
  · rw [n1]; show n ≤ _; linarith
  · rw [n1, n3]; show _ = _ * (1 * n); field_simp
  · rw [div_pow, mul_pow, n2]; norm_num
  · rw [le_div_iff₀ (by positivity)]; linarith
