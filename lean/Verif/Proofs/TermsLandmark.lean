import Verif.Proofs.Terms
import Verif.Props.Camera
import Verif.Proofs.Ray
import Mathlib.Tactic.FieldSimp
import Mathlib.Tactic.Positivity

/-! # Lemmas about the landmark term -/

open Classical Num Camera

namespace Terms

theorem sum_quadratic (l : List ℕ) (d : ℕ → ℝ) (a b e : ℝ) :
    (l.map fun k => a + b * d k + e * d k ^ 2).sum = l.length * a + b * (l.map d).sum + e * (l.map fun k => d k ^ 2).sum := by
  induction l with
  | nil => simp
  | cons x l ih => simp only [List.map_cons, List.sum_cons, ih, List.length_cons]; push_cast; ring

theorem sum_arith (n : ℕ) (a b : ℝ) : ((List.range n).map fun (k : ℕ) => a + k * b).sum = n * a + n * (n - 1) / 2 * b := by
  induction n with
  | zero => simp
  | succ n ih => rw [List.range_succ, List.map_append, List.sum_append, ih]; push_cast; simp; ring

/-- The sampled offsets are symmetric. -/
theorem sum_sampled (o : ℝ) : ((List.range 1000).map (sampled o)).sum = 0 := by
  have := sum_arith 1000 (-2 * o) ((2 * o - -2 * o) / 999)
  unfold sampled
  rw [this]; push_cast; ring

/-- The sum of the squares of the sampled offsets. -/
noncomputable def spread (o : ℝ) : ℝ := ((List.range 1000).map fun k => sampled o k ^ 2).sum

theorem spread_pos {o : ℝ} (h : 0 < o) : 0 < spread o := by
  unfold spread
  rw [show (1000 : ℕ) = 999 + 1 from rfl, List.range_succ_eq_map, List.map_cons, List.sum_cons]
  have h1 : 0 < sampled o 0 ^ 2 := by
    have : sampled o 0 = -2 * o := by simp [sampled]
    rw [this]; positivity
  have h2 : 0 ≤ ((List.map Nat.succ (List.range 999)).map fun k => sampled o k ^ 2).sum := by
    apply List.sum_nonneg
    intro x hx
    obtain ⟨k, -, rfl⟩ := List.mem_map.1 hx
    positivity
  linarith

/-- The mismatch of a landmark: the vector from the landmark to the point of the ray at the distance of the closest
point. -/
noncomputable def miss (C d P : V3 ℝ) : V3 ℝ := P - (C + d.mulS |d.dot (P - C)|)

/-- The value of the term of one landmark. -/
noncomputable def landmarkReal (C d P s : V3 ℝ) (offset : ℝ) : ℝ :=
  1000 * (top s.x + top s.y + top s.z -
    (((miss C d P).x / s.x) ^ 2 + ((miss C d P).y / s.y) ^ 2 + ((miss C d P).z / s.z) ^ 2) / 2) -
    spread offset * ((d.x / s.x) ^ 2 + (d.y / s.y) ^ 2 + (d.z / s.z) ^ 2) / 2

set_option maxRecDepth 10000 in
theorem landmarkValues_is (c : Cam) (offset : ℝ) (l : Landmark) {d P : V3 ℝ} (hd : (getRay c l.pixel true).2.Is d)
    (h1 : d.norm = 1) (hP : l.pos.Is P) (sx : 0 < l.sigma.x) (sy : 0 < l.sigma.y) (sz : 0 < l.sigma.z) :
    Num.Is (Stat.npsum (landmarkValues c offset l)) (landmarkReal c.orient.pos d P l.sigma offset) := by
  have ho := getRay_offset c l.pixel true
  set C := c.orient.pos with hC
  have hr : (Ray.getClosestPointFromLine (getRay c l.pixel true).1 (getRay c l.pixel true).2 l.pos).1.Is d := by
    have := hd.divS (hd.normN) (by rw [h1]; exact one_ne_zero)
    refine this.congr ?_
    rw [h1]; ext <;> simp
  have hD := hP.sub ho
  have hn : (Ray.getClosestPointFromLine (getRay c l.pixel true).1 (getRay c l.pixel true).2 l.pos).2.Is
      (C + d.mulS (d.dot (P - C))) := ho.add (hr.mulS (hr.dot hD))
  have hdist : Num.Is ((Ray.getClosestPointFromLine (getRay c l.pixel true).1 (getRay c l.pixel true).2 l.pos).2 -
      C.num).normN |d.dot (P - C)| := by
    have := (hn.sub (V3.is_num C)).normN
    refine this.congr ?_
    have e : C + d.mulS (d.dot (P - C)) - C = d.mulS (d.dot (P - C)) := by ext <;> simp
    rw [e]
    have hq : d.normSq = 1 := by
      have := V3.norm_sq d
      rw [h1] at this; linarith
    have e2 : (d.mulS (d.dot (P - C))).normSq = (d.dot (P - C)) ^ 2 := by
      have : (d.mulS (d.dot (P - C))).normSq = d.normSq * (d.dot (P - C)) ^ 2 := by
        simp [V3.normSq]; ring
      rw [this, hq, one_mul]
    unfold V3.norm
    rw [e2, Real.sqrt_sq_eq_abs]
  set t := |d.dot (P - C)| with ht
  set m := miss C d P with hm
  have hmx : m.x = P.x - (C.x + d.x * t) := by simp [hm, miss, ht]
  have hmy : m.y = P.y - (C.y + d.y * t) := by simp [hm, miss, ht]
  have hmz : m.z = P.z - (C.z + d.z * t) := by simp [hm, miss, ht]
  set A := top l.sigma.x + top l.sigma.y + top l.sigma.z - ((m.x / l.sigma.x) ^ 2 + (m.y / l.sigma.y) ^ 2 + (m.z / l.sigma.z) ^ 2) / 2
    with hA
  set B := m.x * d.x / l.sigma.x ^ 2 + m.y * d.y / l.sigma.y ^ 2 + m.z * d.z / l.sigma.z ^ 2 with hB
  set E := -((d.x / l.sigma.x) ^ 2 + (d.y / l.sigma.y) ^ 2 + (d.z / l.sigma.z) ^ 2) / 2 with hE
  have key := fun ks : List ℕ => npsum_flatMap ks (fun (k : ℕ) =>
    [logpdf l.pos.x l.sigma.x ((getRay c l.pixel true).1.x +
        (Ray.getClosestPointFromLine (getRay c l.pixel true).1 (getRay c l.pixel true).2 l.pos).1.x *
          (((Ray.getClosestPointFromLine (getRay c l.pixel true).1 (getRay c l.pixel true).2 l.pos).2 - C.num).normN +
            .fin (sampled offset k))),
     logpdf l.pos.y l.sigma.y ((getRay c l.pixel true).1.y +
        (Ray.getClosestPointFromLine (getRay c l.pixel true).1 (getRay c l.pixel true).2 l.pos).1.y *
          (((Ray.getClosestPointFromLine (getRay c l.pixel true).1 (getRay c l.pixel true).2 l.pos).2 - C.num).normN +
            .fin (sampled offset k))),
     logpdf l.pos.z l.sigma.z ((getRay c l.pixel true).1.z +
        (Ray.getClosestPointFromLine (getRay c l.pixel true).1 (getRay c l.pixel true).2 l.pos).1.z *
          (((Ray.getClosestPointFromLine (getRay c l.pixel true).1 (getRay c l.pixel true).2 l.pos).2 - C.num).normN +
            .fin (sampled offset k)))]) (fun k => A + B * sampled offset k + E * sampled offset k ^ 2) (by
      intro k _
      have hf := hdist.add (is_fin (sampled offset k))
      have g1 := logpdf_is hP.1 (ho.1.add (hr.1.mul hf)) sx
      have g2 := logpdf_is hP.2.1 (ho.2.1.add (hr.2.1.mul hf)) sy
      have g3 := logpdf_is hP.2.2 (ho.2.2.add (hr.2.2.mul hf)) sz
      refine (g1.add (g2.add (g3.add (is_fin 0)))).congr ?_
      rw [hA, hB, hE, hmx, hmy, hmz]
      field_simp
      ring)
  have h0 := sum_sampled offset
  have hs : ((List.range 1000).map fun k => sampled offset k ^ 2).sum = spread offset := rfl
  have key := key (List.range 1000)
  rw [sum_quadratic, List.length_range, h0, hs] at key
  refine Num.Is.congr (x := Stat.npsum (landmarkValues c offset l)) key ?_
  unfold landmarkReal
  rw [hE, hA, hm]; push_cast; ring

/-- The ray of a pixel that the lens corrects to nan. -/
theorem getRay_nan (c : Cam) {q : V2 Num} (h : c.lens.imageFromDistorted q = V2.nan) : (getRay c q true).2 = V3.nan := by
  unfold getRay
  rw [h]
  have : Projection.getRay c.kind c.intr V2.nan true = V3.nan := by
    cases c.kind <;>
      simp [Projection.getRay, Projection.getRayRect, Projection.getRayCyl, Projection.getRayEqui, Projection.normRay,
        V2.nan, V3.nan, V3.normN, V3.divS, Num.sin, Num.cos, Num.tan] <;> rfl
  rw [this]
  simp [Spatial.spaceFromCamera, V3.nan, M3.apply, V3.dot]

theorem landmarkValues_nan (c : Cam) (offset : ℝ) (l : Landmark) (h : c.lens.imageFromDistorted l.pixel = V2.nan) :
    .nan ∈ landmarkValues c offset l := by
  unfold landmarkValues
  simp only
  rw [getRay_nan c h]
  rw [List.mem_flatMap]
  refine ⟨0, List.mem_range.2 (by norm_num), ?_⟩
  simp [Ray.getClosestPointFromLine, V3.nan, V3.divS, logpdf_nan]

theorem sum_attains {α : Type} (l : List α) (v b : α → ℝ) (h : ∀ x ∈ l, v x ≤ b x) :
    (l.map v).sum ≤ (l.map b).sum ∧ ((l.map v).sum = (l.map b).sum ↔ ∀ x ∈ l, v x = b x) := by
  induction l with
  | nil => simp
  | cons x l ih =>
    obtain ⟨h1, h2⟩ := ih fun y hy => h y (by simp [hy])
    have hx := h x (by simp)
    simp only [List.map_cons, List.sum_cons, List.forall_mem_cons]
    refine ⟨by linarith, ?_⟩
    rw [← h2]
    constructor
    · intro e; constructor <;> linarith
    · rintro ⟨e1, e2⟩; linarith

end Terms
