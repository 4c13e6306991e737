import Verif.Model.Noise
import Verif.Spec.Noise

/-! # Random numbers have the distributions their names say (C167) -/

open MeasureTheory ProbabilityTheory

namespace Noise

theorem map_cond {μ : Measure ℝ} {f : ℝ → ℝ} (hf : Measurable f) {T : Set ℝ} (hT : MeasurableSet T) :
    (cond μ (f ⁻¹' T)).map f = cond (μ.map f) T := by
  unfold ProbabilityTheory.cond
  rw [Measure.map_smul, Measure.restrict_map hf hT, Measure.map_apply hf hT]

theorem preimage {x σ lo hi : ℝ} (hs : 0 < σ) : (fun z => x + σ * z) ⁻¹' Set.Icc lo hi = Set.Icc ((lo - x) / σ) ((hi - x) / σ) := by
  ext z
  simp only [Set.mem_preimage, Set.mem_Icc, div_le_iff₀ hs, le_div_iff₀ hs]
  constructor <;> rintro ⟨h1, h2⟩ <;> constructor <;> linarith

theorem affine_normal (x σ : ℝ) : (gaussianReal 0 1).map (fun z => x + σ * z) = normalLaw x σ := by
  have : (fun z => x + σ * z) = (fun z => x + z) ∘ fun z => σ * z := rfl
  rw [this, ← Measure.map_map (by fun_prop) (by fun_prop), gaussianReal_map_const_mul, gaussianReal_map_const_add]
  unfold normalLaw
  simp

theorem normal_pos {x σ a b : ℝ} (hs : σ ≠ 0) (hab : a < b) : 0 < normalLaw x σ (Set.Icc a b) := by
  have hv : NNReal.mk (σ ^ 2) (sq_nonneg _) ≠ 0 := by
    intro h
    exact hs (by simpa using congrArg NNReal.toReal h)
  have := gaussianReal_absolutelyContinuous' x hv
  rw [pos_iff_ne_zero]
  intro h0
  have h1 := this h0
  rw [Real.volume_Icc, ENNReal.ofReal_eq_zero] at h1
  linarith

end Noise

open Noise

/-- **C167** `x + normal(sigma)` and `normal(sigma) + x` are normally distributed around x with the standard deviation sigma; a negative sigma raises a ValueError. -/
theorem C167_normal (sigma x : ℝ) :
    (0 ≤ sigma → normalAdd sigma x = .ok (normalLaw x sigma)) ∧ (sigma < 0 → normalAdd sigma x = .error .valueError) := by
  constructor <;> intro h
  · rw [normalAdd, npNormal, if_neg (not_lt.2 h)]; rfl
  · rw [normalAdd, npNormal, if_pos h]

/-- **C167** `x + normal_bounded(sigma, lo, hi)` is normally distributed around x restricted to the bounds, for every x, inside or outside of the bounds; it raises exactly if
sigma is not positive or the bounds are in the wrong order. -/
theorem C167_bounded (sigma lo hi x : ℝ) :
    (0 < sigma → lo < hi → boundedAdd sigma lo hi x = .ok (boundedLaw x sigma lo hi)) ∧
      (sigma = 0 → boundedAdd sigma lo hi x = .error .zeroDivision) ∧ (sigma < 0 → boundedAdd sigma lo hi x = .error .valueError) ∧
      (0 < sigma → hi ≤ lo → boundedAdd sigma lo hi x = .error .valueError) := by
  refine ⟨fun hs h => ?_, fun hs => ?_, fun hs => ?_, fun hs h => ?_⟩
  · have hab : (lo - x) / sigma < (hi - x) / sigma := by
      rw [div_lt_div_iff_of_pos_right hs]; linarith
    rw [boundedAdd, if_neg hs.ne', truncnorm, if_pos ⟨hab, hs.le⟩, ← preimage hs, map_cond (by fun_prop) measurableSet_Icc, affine_normal]
    rfl
  · rw [boundedAdd, if_pos hs]
  · rw [boundedAdd, if_neg hs.ne, truncnorm, if_neg (fun h => absurd h.2 (not_le.2 hs))]
  · rw [boundedAdd, if_neg hs.ne', truncnorm, if_neg]
    rintro ⟨h1, -⟩
    rw [div_lt_div_iff_of_pos_right hs] at h1
    linarith

/-- **C167** The numbers stay within the bounds, and every part of the interval between the bounds is hit with positive probability. -/
theorem C167_within (sigma lo hi x : ℝ) (hs : 0 < sigma) (h : lo < hi) :
    ∃ μ, boundedAdd sigma lo hi x = .ok μ ∧ IsProbabilityMeasure μ ∧ (∀ᵐ v ∂μ, lo ≤ v ∧ v ≤ hi) ∧
      ∀ a b, lo ≤ a → a < b → b ≤ hi → 0 < μ (Set.Icc a b) := by
  have hp : normalLaw x sigma (Set.Icc lo hi) ≠ 0 := (normal_pos hs.ne' h).ne'
  have : IsProbabilityMeasure (normalLaw x sigma) := by unfold normalLaw; infer_instance
  refine ⟨_, (C167_bounded sigma lo hi x).1 hs h, cond_isProbabilityMeasure hp, ae_cond_mem measurableSet_Icc, fun a b h1 h2 h3 => ?_⟩
  refine cond_pos_of_inter_ne_zero measurableSet_Icc ?_
  rw [Set.inter_eq_self_of_subset_right (Set.Icc_subset_Icc h1 h3)]
  exact (normal_pos hs.ne' h2).ne'

/-- **C167** Arrays get one number per entry, distributed as for that entry alone. -/
theorem C167_arrays (sigma lo hi : ℝ) (hs : 0 < sigma) (h : lo < hi) (xs : List ℝ) :
    addArray (normalAdd sigma) xs = .ok (xs.map fun x => normalLaw x sigma) ∧
      addArray (boundedAdd sigma lo hi) xs = .ok (xs.map fun x => boundedLaw x sigma lo hi) := by
  constructor
  · induction xs with
    | nil => rfl
    | cons x t ih =>
      unfold addArray at ih ⊢
      rw [List.mapM_cons, (C167_normal sigma x).1 hs.le, ih]; rfl
  · induction xs with
    | nil => rfl
    | cons x t ih =>
      unfold addArray at ih ⊢
      rw [List.mapM_cons, (C167_bounded sigma lo hi x).1 hs h, ih]; rfl

/-- **C167** A `FitParameter` with bounds draws uniformly between them, and `logp` is the log density of its draws: finite exactly between the bounds. -/
theorem C167_uniform (lo hi : ℝ) (h : lo < hi) (mean std : Option ℝ) :
    ∃ d μ, frozen (some lo) (some hi) mean std = some d ∧ d.rvs = .ok μ ∧ μ = uniformLaw lo hi ∧ IsProbabilityMeasure μ ∧
      (∀ᵐ v ∂μ, lo ≤ v ∧ v ≤ hi) ∧ HasLogDensity μ d.logpdf ∧ ∀ v, d.logpdf v ≠ some ⊥ ↔ lo ≤ v ∧ v ≤ hi := by
  have hs : 0 < hi - lo := by linarith
  have hv0 : volume (Set.Icc lo hi) ≠ 0 := by rw [Real.volume_Icc]; simpa using hs
  have hvt : volume (Set.Icc lo hi) ≠ ⊤ := by rw [Real.volume_Icc]; exact ENNReal.ofReal_ne_top
  have hrv : (Frozen.uniform lo (hi - lo)).rvs = .ok (uniformLaw lo hi) := by
    rw [Frozen.rvs, if_neg (not_lt.2 hs.le), if_neg hs.ne']
    congr 1
    have hpre : (fun z => lo + (hi - lo) * z) ⁻¹' Set.Icc lo hi = Set.Icc 0 1 := by
      rw [preimage hs, sub_self, zero_div, div_self hs.ne']
    have hmap : (volume : Measure ℝ).map (fun z => lo + (hi - lo) * z) = ENNReal.ofReal |(hi - lo)⁻¹| • volume := by
      have : (fun z => lo + (hi - lo) * z) = (fun z => lo + z) ∘ fun z => (hi - lo) * z := rfl
      rw [this, ← Measure.map_map (by fun_prop) (by fun_prop), Real.map_volume_mul_left hs.ne', Measure.map_smul, map_add_left_eq_self]
    rw [← hpre, ← Measure.restrict_map (by fun_prop) measurableSet_Icc, hmap, Measure.restrict_smul]
    unfold uniformLaw ProbabilityTheory.cond
    rw [Real.volume_Icc, abs_of_pos (inv_pos.2 hs), ENNReal.ofReal_inv_of_pos hs]
  have hlog : ∀ v, (Frozen.uniform lo (hi - lo)).logpdf v = some (if lo ≤ v ∧ v ≤ hi then ((-Real.log (hi - lo) : ℝ) : EReal) else ⊥) := by
    intro v
    have : (0 ≤ (v - lo) / (hi - lo) ∧ (v - lo) / (hi - lo) ≤ 1) ↔ lo ≤ v ∧ v ≤ hi := by
      rw [le_div_iff₀ hs, div_le_iff₀ hs]
      constructor <;> rintro ⟨h1, h2⟩ <;> constructor <;> linarith
    rw [Frozen.logpdf, if_neg (not_le.2 hs)]
    simp only [this, zero_sub]
    split_ifs <;> rfl
  refine ⟨_, _, rfl, hrv, rfl, cond_isProbabilityMeasure_of_finite hv0 hvt, ae_cond_mem measurableSet_Icc, ⟨_, hlog, ?_⟩, fun v => ?_⟩
  · have : (fun v => EReal.exp (if lo ≤ v ∧ v ≤ hi then ((-Real.log (hi - lo) : ℝ) : EReal) else ⊥)) =
        (Set.Icc lo hi).indicator fun _ => ENNReal.ofReal (hi - lo)⁻¹ := by
      ext v
      by_cases hv : lo ≤ v ∧ v ≤ hi
      · rw [if_pos hv, Set.indicator_of_mem (by exact hv), EReal.exp_coe, Real.exp_neg, Real.exp_log hs]
      · rw [if_neg hv, Set.indicator_of_notMem (by exact hv), EReal.exp_bot]
    rw [this, withDensity_indicator measurableSet_Icc, withDensity_const]
    unfold uniformLaw ProbabilityTheory.cond
    rw [Real.volume_Icc, ENNReal.ofReal_inv_of_pos hs]
  · rw [hlog]
    by_cases hv : lo ≤ v ∧ v ≤ hi <;> simp [hv]

/-- **C167** A `FitParameter` with mean and standard deviation draws from that normal distribution, and `logp` is the log density of its draws. -/
theorem C167_norm (mean std : ℝ) (h : 0 < std) (lower : Option ℝ) :
    ∃ d, frozen lower none (some mean) (some std) = some d ∧ d.rvs = .ok (normalLaw mean std) ∧ HasLogDensity (normalLaw mean std) d.logpdf := by
  refine ⟨.norm mean std, by cases lower <;> rfl, ?_, ⟨_, fun v => by rw [Frozen.logpdf, if_neg (not_le.2 h)], ?_⟩⟩
  · rw [Frozen.rvs, if_neg (not_lt.2 h.le), if_neg h.ne', affine_normal]
  · have hv : NNReal.mk (std ^ 2) (sq_nonneg _) ≠ 0 := by
      intro h0
      exact h.ne' (by simpa using congrArg NNReal.toReal h0)
    unfold normalLaw
    rw [gaussianReal_of_var_ne_zero _ hv]
    congr 1
    ext v
    rw [EReal.exp_coe, gaussianPDF, gaussianPDFReal]
    congr 1
    have h2 : 0 < Real.sqrt (2 * Real.pi) := Real.sqrt_pos.2 (by positivity)
    rw [Real.exp_sub, Real.exp_sub, Real.exp_log h2, Real.exp_log h]
    have h3 : Real.sqrt (2 * Real.pi * (NNReal.mk (std ^ 2) (sq_nonneg std))) = Real.sqrt (2 * Real.pi) * std := by
      rw [NNReal.coe_mk, Real.sqrt_mul (by positivity), Real.sqrt_sq h.le]
    rw [h3, NNReal.coe_mk, show -((v - mean) / std) ^ 2 / 2 = -(v - mean) ^ 2 / (2 * std ^ 2) by field_simp]
    field_simp

/-- **C167** Bounds in the wrong order and a standard deviation that is not positive are not rejected by the constructor: the draw raises, or is the constant for equal bounds, and
`logp` is nan. -/
theorem C167_wrong_bounds (lo hi : ℝ) (h : hi ≤ lo) (v : ℝ) :
    ∃ d, frozen (some lo) (some hi) none none = some d ∧ d.logpdf v = none ∧
      (hi < lo → d.rvs = .error .valueError) ∧ (hi = lo → d.rvs = .ok (Measure.dirac lo)) := by
  refine ⟨_, rfl, ?_, fun h' => ?_, fun h' => ?_⟩
  · rw [Frozen.logpdf, if_pos (by linarith)]
  · rw [Frozen.rvs, if_pos (by linarith)]
  · rw [Frozen.rvs, if_neg (by linarith), if_pos (by linarith)]

/-- Noise of a tilt between 0 and 180 degrees, and a fit parameter for it. -/
example : (∃ μ, boundedAdd 5 0 180 85 = .ok μ) ∧ ∃ d μ, frozen (some 0) (some 180) none none = some d ∧ d.rvs = .ok μ ∧ μ = uniformLaw 0 180 := by
  obtain ⟨μ, h, -⟩ := C167_within 5 0 180 85 (by norm_num) (by norm_num)
  obtain ⟨d, ν, h1, h2, h3, -⟩ := C167_uniform 0 180 (by norm_num) none none
  exact ⟨⟨μ, h⟩, d, ν, h1, h2, h3⟩
