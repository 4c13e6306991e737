import Verif.Model.Plot
import Verif.Spec.Plot
import Verif.Proofs.Num

/-! # The lines drawn by `plotEpilines` -/

open Num

namespace Plot

/-- A number strictly between two finite numbers. -/
theorem between_fin {q l u : Num} {L U : ℝ} (hl : l.Is L) (hu : u.Is U) (h1 : l < q) (h2 : q < u) : ∃ r, q.Is r := by
  cases q with
  | fin r => exact ⟨r, rfl⟩
  | nzero => exact ⟨0, rfl⟩
  | pinf =>
    have := h2.2.2
    rw [hu.ext_eq] at this
    simp [Num.ext] at this
  | ninf =>
    have := h1.2.2
    rw [hl.ext_eq] at this
    simp [Num.ext] at this
  | nan => exact absurd rfl h1.2.1

/-- The condition for one side: the line has different signs at its ends. -/
theorem side {e b l u : Num} {E B L U : ℝ} (he : e.Is E) (hb : b.Is B) (hl : l.Is L) (hu : u.Is U) (hLU : L < U) :
    ((l < -e / b ∧ -e / b < u) ↔ (B * L + E) * (B * U + E) < 0) ∧
    ((B * L + E) * (B * U + E) < 0 → B ≠ 0 ∧ (-e / b).Is (-E / B) ∧ L < -E / B ∧ -E / B < U) := by
  by_cases hB : B = 0
  · have hneg : ¬ (B * L + E) * (B * U + E) < 0 := by
      rw [hB]; simp only [zero_mul, zero_add, not_lt]; exact mul_self_nonneg E
    refine ⟨⟨fun ⟨h1, h2⟩ => ?_, fun h => absurd h hneg⟩, fun h => absurd h hneg⟩
    exfalso
    obtain ⟨r, hr⟩ := between_fin hl hu h1 h2
    subst hB
    by_cases hE : E = 0
    · subst hE
      have h0 := he.neg
      rw [neg_zero] at h0
      rw [zero_div_zero h0 hb] at hr
      exact hr
    · have := div_zero_inf he.neg (neg_ne_zero.2 hE) hb
      cases hx : -e / b <;> rw [hx] at hr this <;> simp_all [IsInf, Num.Is]
  · have hq := he.neg.div hb hB
    have key : (L < -E / B ∧ -E / B < U) ↔ (B * L + E) * (B * U + E) < 0 := by
      rcases lt_or_gt_of_ne hB with hB | hB
      · rw [lt_div_iff_of_neg hB, div_lt_iff_of_neg hB, mul_neg_iff]
        constructor
        · rintro ⟨h1, h2⟩
          left; constructor <;> linarith [mul_comm L B, mul_comm U B]
        · rintro (⟨h1, h2⟩ | ⟨h1, h2⟩)
          · constructor <;> linarith [mul_comm L B, mul_comm U B]
          · nlinarith
      · rw [lt_div_iff₀ hB, div_lt_iff₀ hB, mul_neg_iff]
        constructor
        · rintro ⟨h1, h2⟩
          right; constructor <;> linarith [mul_comm L B, mul_comm U B]
        · rintro (⟨h1, h2⟩ | ⟨h1, h2⟩)
          · nlinarith
          · constructor <;> linarith [mul_comm L B, mul_comm U B]
    rw [hl.lt_iff hq, hq.lt_iff hu]
    exact ⟨key, fun h => ⟨hB, hq, (key.2 h).1, (key.2 h).2⟩⟩

/-- The values of the linear form at the four corners. -/
theorem corner_sum (a b c w h : ℝ) :
    (a * 0 + b * 0 + c) + (a * w + b * h + c) = (a * w + b * 0 + c) + (a * 0 + b * h + c) := by ring

variable {a b c w h : ℝ}

/-- The list of the collected points by the signs at the corners. -/
theorem edgePoints_eq (hw : 0 < w) (hh : 0 < h) :
    ∃ q1 q2 q3 q4 : Num,
      edgePoints (fin a) (fin b) (fin c) (fin 0) (fin w) (fin 0) (fin h) =
        (if c * (b * h + c) < 0 then [⟨fin 0, q1⟩] else []) ++
        (if (a * w + c) * (a * w + b * h + c) < 0 then [⟨fin w, q2⟩] else []) ++
        (if c * (a * w + c) < 0 then [⟨q3, fin 0⟩] else []) ++
        (if (b * h + c) * (a * w + b * h + c) < 0 then [⟨q4, fin h⟩] else []) ∧
      (c * (b * h + c) < 0 → ∃ y, q1.Is y ∧ 0 < y ∧ y < h ∧ b * y + c = 0) ∧
      ((a * w + c) * (a * w + b * h + c) < 0 → ∃ y, q2.Is y ∧ 0 < y ∧ y < h ∧ a * w + b * y + c = 0) ∧
      (c * (a * w + c) < 0 → ∃ x, q3.Is x ∧ 0 < x ∧ x < w ∧ a * x + c = 0) ∧
      ((b * h + c) * (a * w + b * h + c) < 0 → ∃ x, q4.Is x ∧ 0 < x ∧ x < w ∧ a * x + b * h + c = 0) := by
  have s1 := side (((is_fin a).mul (is_fin 0)).add (is_fin c)) (is_fin b) (is_fin 0) (is_fin h) hh
  have s2 := side (((is_fin a).mul (is_fin w)).add (is_fin c)) (is_fin b) (is_fin 0) (is_fin h) hh
  have s3 := side (((is_fin b).mul (is_fin 0)).add (is_fin c)) (is_fin a) (is_fin 0) (is_fin w) hw
  have s4 := side (((is_fin b).mul (is_fin h)).add (is_fin c)) (is_fin a) (is_fin 0) (is_fin w) hw
  have e1 : (b * 0 + (a * 0 + c)) * (b * h + (a * 0 + c)) = c * (b * h + c) := by ring
  have e2 : (b * 0 + (a * w + c)) * (b * h + (a * w + c)) = (a * w + c) * (a * w + b * h + c) := by ring
  have e3 : (a * 0 + (b * 0 + c)) * (a * w + (b * 0 + c)) = c * (a * w + c) := by ring
  have e4 : (a * 0 + (b * h + c)) * (a * w + (b * h + c)) = (b * h + c) * (a * w + b * h + c) := by ring
  rw [e1] at s1
  rw [e2] at s2
  rw [e3] at s3
  rw [e4] at s4
  refine ⟨-(fin a * fin 0 + fin c) / fin b, -(fin a * fin w + fin c) / fin b, -(fin b * fin 0 + fin c) / fin a,
    -(fin b * fin h + fin c) / fin a, ?_, ?_, ?_, ?_, ?_⟩
  · unfold edgePoints
    simp only [s1.1, s2.1, s3.1, s4.1]
  · intro g
    obtain ⟨h1, h2, h3, h4⟩ := s1.2 g
    exact ⟨_, h2, h3, h4, by field_simp; ring⟩
  · intro g
    obtain ⟨h1, h2, h3, h4⟩ := s2.2 g
    exact ⟨_, h2, h3, h4, by field_simp; ring⟩
  · intro g
    obtain ⟨h1, h2, h3, h4⟩ := s3.2 g
    exact ⟨_, h2, h3, h4, by field_simp; ring⟩
  · intro g
    obtain ⟨h1, h2, h3, h4⟩ := s4.2 g
    exact ⟨_, h2, h3, h4, by field_simp; ring⟩

/-- A point of the line on the same side as the second end of two borders is between the ends. -/
theorem between_of {p q s : V2 ℝ} {gx gy g0 kx ky k0 : ℝ} (hab : a ≠ 0 ∨ b ≠ 0) (hp : OnLine a b c p) (hq : OnLine a b c q)
    (hs : OnLine a b c s) (g1 : gx * p.x + gy * p.y + g0 = 0) (g2 : 0 < gx * q.x + gy * q.y + g0) (g3 : 0 ≤ gx * s.x + gy * s.y + g0)
    (k1 : kx * q.x + ky * q.y + k0 = 0) (k2 : 0 < kx * p.x + ky * p.y + k0) (k3 : 0 ≤ kx * s.x + ky * s.y + k0) : Between p q s := by
  unfold OnLine at hp hq hs
  set d1 := q.x - p.x with hd1
  set d2 := q.y - p.y with hd2
  set e1 := s.x - p.x with he1
  set e2 := s.y - p.y with he2
  have hd : a * d1 + b * d2 = 0 := by rw [hd1, hd2]; linarith
  have he : a * e1 + b * e2 = 0 := by rw [he1, he2]; linarith
  have hx : d1 * e2 = d2 * e1 := by
    rcases hab with h | h
    · apply mul_left_cancel₀ h; linear_combination e2 * hd - d2 * he
    · apply mul_left_cancel₀ h; linear_combination -(e1 * hd) + d1 * he
  have hg : 0 < gx * d1 + gy * d2 := by rw [hd1, hd2]; linarith
  have hge : 0 ≤ gx * e1 + gy * e2 := by rw [he1, he2]; linarith
  have hk : kx * d1 + ky * d2 < 0 := by rw [hd1, hd2]; linarith
  have hke : 0 ≤ kx * (e1 - d1) + ky * (e2 - d2) := by rw [he1, he2, hd1, hd2]; linarith
  set t := (gx * e1 + gy * e2) / (gx * d1 + gy * d2) with ht
  have t1 : e1 = t * d1 := by
    rw [ht, div_mul_eq_mul_div, eq_div_iff hg.ne']; linear_combination -gy * hx
  have t2 : e2 = t * d2 := by
    rw [ht, div_mul_eq_mul_div, eq_div_iff hg.ne']; linear_combination gx * hx
  refine ⟨t, div_nonneg hge hg.le, ?_, by rw [← t1]; ring, by rw [← t2]; ring⟩
  rw [t1, t2] at hke
  have : 0 ≤ (t - 1) * (kx * d1 + ky * d2) := by linarith
  by_contra hlt
  push Not at hlt
  nlinarith

theorem rect_of_between {p q s : V2 ℝ} (hp : InRect w h p) (hq : InRect w h q) (hs : Between p q s) : InRect w h s := by
  obtain ⟨t, h0, h1, hx, hy⟩ := hs
  obtain ⟨p1, p2, p3, p4⟩ := hp
  obtain ⟨q1, q2, q3, q4⟩ := hq
  refine ⟨?_, ?_, ?_, ?_⟩
  · rw [hx]; nlinarith
  · rw [hx]; nlinarith
  · rw [hy]; nlinarith
  · rw [hy]; nlinarith

theorem line_of_between {p q s : V2 ℝ} (hp : OnLine a b c p) (hq : OnLine a b c q) (hs : Between p q s) : OnLine a b c s := by
  obtain ⟨t, h0, h1, hx, hy⟩ := hs
  unfold OnLine at *
  rw [hx, hy]; linear_combination (1 - t) * hp + t * hq

end Plot

open Plot

/-- **C122** Every drawn point lies on the line and on the border of the image, not in a corner. -/
theorem C122_on_border (a b c w h : ℝ) (hw : 0 < w) (hh : 0 < h) (l : List (V2 Num))
    (hl : drawLine (fin a) (fin b) (fin c) (fin 0) (fin w) (fin 0) (fin h) = some l) :
    l ≠ [] ∧ ∀ P ∈ l, ∃ p : V2 ℝ, P.Is p ∧ OnLine a b c p ∧ InRect w h p ∧ ¬ Inside w h p ∧ ¬ Corner w h p := by
  obtain ⟨q1, q2, q3, q4, he, h1, h2, h3, h4⟩ := edgePoints_eq (a := a) (b := b) (c := c) hw hh
  unfold drawLine at hl
  split_ifs at hl with h0
  cases hl
  refine ⟨fun e => h0 (by rw [e]; rfl), fun P hP => ?_⟩
  rw [he] at hP
  simp only [List.mem_append] at hP
  rcases hP with ((hP | hP) | hP) | hP
  · split_ifs at hP with g
    · obtain ⟨y, i, y0, y1, e⟩ := h1 g
      rw [List.mem_singleton] at hP
      subst hP
      refine ⟨⟨0, y⟩, ⟨is_fin 0, i⟩, ?_, ⟨le_rfl, hw.le, y0.le, y1.le⟩, fun h => lt_irrefl _ h.1, fun h => ?_⟩
      · unfold OnLine; simp only; linarith
      · rcases h.2 with h | h <;> simp only at h <;> linarith
    · simp at hP
  · split_ifs at hP with g
    · obtain ⟨y, i, y0, y1, e⟩ := h2 g
      rw [List.mem_singleton] at hP
      subst hP
      refine ⟨⟨w, y⟩, ⟨is_fin w, i⟩, ?_, ⟨hw.le, le_rfl, y0.le, y1.le⟩, fun h => lt_irrefl _ h.2.1, fun h => ?_⟩
      · unfold OnLine; simp only; linarith
      · rcases h.2 with h | h <;> simp only at h <;> linarith
    · simp at hP
  · split_ifs at hP with g
    · obtain ⟨x, i, x0, x1, e⟩ := h3 g
      rw [List.mem_singleton] at hP
      subst hP
      refine ⟨⟨x, 0⟩, ⟨i, is_fin 0⟩, ?_, ⟨x0.le, x1.le, le_rfl, hh.le⟩, fun h => lt_irrefl _ h.2.2.1, fun h => ?_⟩
      · unfold OnLine; simp only; linarith
      · rcases h.1 with h | h <;> simp only at h <;> linarith
    · simp at hP
  · split_ifs at hP with g
    · obtain ⟨x, i, x0, x1, e⟩ := h4 g
      rw [List.mem_singleton] at hP
      subst hP
      refine ⟨⟨x, h⟩, ⟨i, is_fin h⟩, ?_, ⟨x0.le, x1.le, hh.le, le_rfl⟩, fun h => lt_irrefl _ h.2.2.2, fun h => ?_⟩
      · unfold OnLine; simp only; linarith
      · rcases h.1 with h | h <;> simp only at h <;> linarith
    · simp at hP

/-- **C122** (partial) A line that passes through the inside of the image and not through a corner is drawn from border to
border: two points, and the part of the line in the image is the segment between them.  Missing: the lines through a corner
and the lines that miss the image. -/
theorem C122_segment_partial (a b c w h : ℝ) (hw : 0 < w) (hh : 0 < h) (hin : ∃ p, Inside w h p ∧ OnLine a b c p)
    (hcor : ∀ p, Corner w h p → ¬ OnLine a b c p) :
    ∃ P Q : V2 Num, drawLine (fin a) (fin b) (fin c) (fin 0) (fin w) (fin 0) (fin h) = some [P, Q] ∧
      ∃ p q : V2 ℝ, P.Is p ∧ Q.Is q ∧ ∀ s, (OnLine a b c s ∧ InRect w h s) ↔ Between p q s := by
  obtain ⟨q1, q2, q3, q4, he, h1, h2, h3, h4⟩ := edgePoints_eq (a := a) (b := b) (c := c) hw hh
  obtain ⟨m, ⟨m1, m2, m3, m4⟩, hm⟩ := hin
  have c00 : c ≠ 0 := fun e => hcor ⟨0, 0⟩ ⟨.inl rfl, .inl rfl⟩ (by unfold OnLine; simp only; linarith)
  have c10 : a * w + c ≠ 0 := fun e => hcor ⟨w, 0⟩ ⟨.inr rfl, .inl rfl⟩ (by unfold OnLine; simp only; linarith)
  have c01 : b * h + c ≠ 0 := fun e => hcor ⟨0, h⟩ ⟨.inl rfl, .inr rfl⟩ (by unfold OnLine; simp only; linarith)
  have c11 : a * w + b * h + c ≠ 0 := fun e => hcor ⟨w, h⟩ ⟨.inr rfl, .inr rfl⟩ (by unfold OnLine; simp only; linarith)
  have hab : a ≠ 0 ∨ b ≠ 0 := by
    by_contra hn
    push Not at hn
    unfold OnLine at hm
    rw [hn.1, hn.2] at hm
    exact c00 (by linarith)
  unfold OnLine at hm
  have finish : ∀ {P Q : V2 Num} {p q : V2 ℝ} {gx gy g0 kx ky k0 : ℝ}, P.Is p → Q.Is q → OnLine a b c p → OnLine a b c q →
      InRect w h p → InRect w h q → (∀ s, InRect w h s → 0 ≤ gx * s.x + gy * s.y + g0) → (∀ s, InRect w h s → 0 ≤ kx * s.x + ky * s.y + k0) →
      gx * p.x + gy * p.y + g0 = 0 → 0 < gx * q.x + gy * q.y + g0 → kx * q.x + ky * q.y + k0 = 0 → 0 < kx * p.x + ky * p.y + k0 →
      ∃ p q : V2 ℝ, P.Is p ∧ Q.Is q ∧ ∀ s, (OnLine a b c s ∧ InRect w h s) ↔ Between p q s := by
    intro P Q p q gx gy g0 kx ky k0 iP iQ lp lq rp rq hg hk g1 g2 k1 k2
    refine ⟨p, q, iP, iQ, fun s => ⟨fun ⟨ls, rs⟩ => ?_, fun hs => ⟨line_of_between lp lq hs, rect_of_between rp rq hs⟩⟩⟩
    exact between_of hab lp lq ls g1 g2 (hg s rs) k1 k2 (hk s rs)
  have gl : ∀ s, InRect w h s → 0 ≤ 1 * s.x + 0 * s.y + 0 := fun s hs => by linarith [hs.1]
  have gr : ∀ s, InRect w h s → 0 ≤ (-1) * s.x + 0 * s.y + w := fun s hs => by linarith [hs.2.1]
  have gb : ∀ s, InRect w h s → 0 ≤ 0 * s.x + 1 * s.y + 0 := fun s hs => by linarith [hs.2.2.1]
  have gt : ∀ s, InRect w h s → 0 ≤ 0 * s.x + (-1) * s.y + h := fun s hs => by linarith [hs.2.2.2]
  -- the inner point is a mixture of the corners
  have mix : (w - m.x) * (h - m.y) * c + m.x * (h - m.y) * (a * w + c) + (w - m.x) * m.y * (b * h + c) +
      m.x * m.y * (a * w + b * h + c) = 0 := by linear_combination w * h * hm
  have p00 : 0 < (w - m.x) * (h - m.y) := mul_pos (by linarith) (by linarith)
  have p10 : 0 < m.x * (h - m.y) := mul_pos (by linarith) (by linarith)
  have p01 : 0 < (w - m.x) * m.y := mul_pos (by linarith) (by linarith)
  have p11 : 0 < m.x * m.y := mul_pos (by linarith) (by linarith)
  have hsum := corner_sum a b c w h
  have neg : ∀ {x y : ℝ}, x < 0 → 0 < y → x * y < 0 := fun hx hy => mul_neg_of_neg_of_pos hx hy
  have pos : ∀ {x y : ℝ}, 0 < x → y < 0 → x * y < 0 := fun hx hy => mul_neg_of_pos_of_neg hx hy
  have pp : ∀ {x y : ℝ}, 0 < x → 0 < y → ¬ x * y < 0 := fun hx hy => not_lt.2 (mul_pos hx hy).le
  have nn : ∀ {x y : ℝ}, x < 0 → y < 0 → ¬ x * y < 0 := fun hx hy => not_lt.2 (mul_pos_of_neg_of_neg hx hy).le
  have draw : ∀ {P Q : V2 Num}, edgePoints (fin a) (fin b) (fin c) (fin 0) (fin w) (fin 0) (fin h) = [P, Q] →
      drawLine (fin a) (fin b) (fin c) (fin 0) (fin w) (fin 0) (fin h) = some [P, Q] := by
    intro P Q e
    unfold drawLine
    rw [e]; rfl
  generalize hv10 : a * w + c = v10 at *
  generalize hv01 : b * h + c = v01 at *
  generalize hv11 : a * w + b * h + c = v11 at *
  have hs : c + v11 = v10 + v01 := by linarith
  -- sides of the list: 1 left (c, v01), 2 right (v10, v11), 3 bottom (c, v10), 4 top (v01, v11)
  have hpat : (c * v01 < 0 ∧ v10 * v11 < 0 ∧ ¬ c * v10 < 0 ∧ ¬ v01 * v11 < 0) ∨
      (¬ c * v01 < 0 ∧ ¬ v10 * v11 < 0 ∧ c * v10 < 0 ∧ v01 * v11 < 0) ∨
      (c * v01 < 0 ∧ ¬ v10 * v11 < 0 ∧ c * v10 < 0 ∧ ¬ v01 * v11 < 0) ∨
      (¬ c * v01 < 0 ∧ v10 * v11 < 0 ∧ ¬ c * v10 < 0 ∧ v01 * v11 < 0) ∨
      (c * v01 < 0 ∧ ¬ v10 * v11 < 0 ∧ ¬ c * v10 < 0 ∧ v01 * v11 < 0) ∨
      (¬ c * v01 < 0 ∧ v10 * v11 < 0 ∧ c * v10 < 0 ∧ ¬ v01 * v11 < 0) := by
    rcases lt_or_gt_of_ne c00 with s00 | s00 <;> rcases lt_or_gt_of_ne c10 with s10 | s10 <;>
      rcases lt_or_gt_of_ne c01 with s01 | s01 <;> rcases lt_or_gt_of_ne c11 with s11 | s11
    · exfalso; nlinarith [mul_neg_of_pos_of_neg p00 s00, mul_neg_of_pos_of_neg p10 s10, mul_neg_of_pos_of_neg p01 s01, mul_neg_of_pos_of_neg p11 s11]
    · exact .inr (.inr (.inr (.inl ⟨nn s00 s01, neg s10 s11, nn s00 s10, neg s01 s11⟩)))
    · exact .inr (.inr (.inr (.inr (.inl ⟨neg s00 s01, nn s10 s11, nn s00 s10, pos s01 s11⟩))))
    · exact .inl ⟨neg s00 s01, neg s10 s11, nn s00 s10, pp s01 s11⟩
    · exact .inr (.inr (.inr (.inr (.inr ⟨nn s00 s01, pos s10 s11, neg s00 s10, nn s01 s11⟩))))
    · exact .inr (.inl ⟨nn s00 s01, pp s10 s11, neg s00 s10, neg s01 s11⟩)
    · exfalso; linarith
    · exact .inr (.inr (.inl ⟨neg s00 s01, pp s10 s11, neg s00 s10, pp s01 s11⟩))
    · exact .inr (.inr (.inl ⟨pos s00 s01, nn s10 s11, pos s00 s10, nn s01 s11⟩))
    · exfalso; linarith
    · exact .inr (.inl ⟨pp s00 s01, nn s10 s11, pos s00 s10, pos s01 s11⟩)
    · exact .inr (.inr (.inr (.inr (.inr ⟨pp s00 s01, neg s10 s11, pos s00 s10, pp s01 s11⟩))))
    · exact .inl ⟨pos s00 s01, pos s10 s11, pp s00 s10, nn s01 s11⟩
    · exact .inr (.inr (.inr (.inr (.inl ⟨pos s00 s01, pp s10 s11, pp s00 s10, neg s01 s11⟩))))
    · exact .inr (.inr (.inr (.inl ⟨pp s00 s01, pos s10 s11, pp s00 s10, pos s01 s11⟩)))
    · exfalso; nlinarith [mul_pos p00 s00, mul_pos p10 s10, mul_pos p01 s01, mul_pos p11 s11]
  rcases hpat with ⟨g1, g2, g3, g4⟩ | ⟨g1, g2, g3, g4⟩ | ⟨g1, g2, g3, g4⟩ | ⟨g1, g2, g3, g4⟩ | ⟨g1, g2, g3, g4⟩ | ⟨g1, g2, g3, g4⟩
  · obtain ⟨y1, i1, l1, u1, e1⟩ := h1 g1
    obtain ⟨y2, i2, l2, u2, e2⟩ := h2 g2
    refine ⟨_, _, draw (by rw [he, if_pos g1, if_pos g2, if_neg g3, if_neg g4]; rfl), ?_⟩
    exact finish (p := ⟨0, y1⟩) (q := ⟨w, y2⟩) ⟨is_fin 0, i1⟩ ⟨is_fin w, i2⟩ (by unfold OnLine; simp only; linarith)
      (by unfold OnLine; simp only; linarith) ⟨le_rfl, hw.le, l1.le, u1.le⟩ ⟨hw.le, le_rfl, l2.le, u2.le⟩ gl gr
      (by simp only; linarith) (by simp only; linarith) (by simp only; linarith) (by simp only; linarith)
  · obtain ⟨y3, i3, l3, u3, e3⟩ := h3 g3
    obtain ⟨y4, i4, l4, u4, e4⟩ := h4 g4
    refine ⟨_, _, draw (by rw [he, if_neg g1, if_neg g2, if_pos g3, if_pos g4]; rfl), ?_⟩
    exact finish (p := ⟨y3, 0⟩) (q := ⟨y4, h⟩) ⟨i3, is_fin 0⟩ ⟨i4, is_fin h⟩ (by unfold OnLine; simp only; linarith)
      (by unfold OnLine; simp only; linarith) ⟨l3.le, u3.le, le_rfl, hh.le⟩ ⟨l4.le, u4.le, hh.le, le_rfl⟩ gb gt
      (by simp only; linarith) (by simp only; linarith) (by simp only; linarith) (by simp only; linarith)
  · obtain ⟨y1, i1, l1, u1, e1⟩ := h1 g1
    obtain ⟨y3, i3, l3, u3, e3⟩ := h3 g3
    refine ⟨_, _, draw (by rw [he, if_pos g1, if_neg g2, if_pos g3, if_neg g4]; rfl), ?_⟩
    exact finish (p := ⟨0, y1⟩) (q := ⟨y3, 0⟩) ⟨is_fin 0, i1⟩ ⟨i3, is_fin 0⟩ (by unfold OnLine; simp only; linarith)
      (by unfold OnLine; simp only; linarith) ⟨le_rfl, hw.le, l1.le, u1.le⟩ ⟨l3.le, u3.le, le_rfl, hh.le⟩ gl gb
      (by simp only; linarith) (by simp only; linarith) (by simp only; linarith) (by simp only; linarith)
  · obtain ⟨y2, i2, l2, u2, e2⟩ := h2 g2
    obtain ⟨y4, i4, l4, u4, e4⟩ := h4 g4
    refine ⟨_, _, draw (by rw [he, if_neg g1, if_pos g2, if_neg g3, if_pos g4]; rfl), ?_⟩
    exact finish (p := ⟨w, y2⟩) (q := ⟨y4, h⟩) ⟨is_fin w, i2⟩ ⟨i4, is_fin h⟩ (by unfold OnLine; simp only; linarith)
      (by unfold OnLine; simp only; linarith) ⟨hw.le, le_rfl, l2.le, u2.le⟩ ⟨l4.le, u4.le, hh.le, le_rfl⟩ gr gt
      (by simp only; linarith) (by simp only; linarith) (by simp only; linarith) (by simp only; linarith)
  · obtain ⟨y1, i1, l1, u1, e1⟩ := h1 g1
    obtain ⟨y4, i4, l4, u4, e4⟩ := h4 g4
    refine ⟨_, _, draw (by rw [he, if_pos g1, if_neg g2, if_neg g3, if_pos g4]; rfl), ?_⟩
    exact finish (p := ⟨0, y1⟩) (q := ⟨y4, h⟩) ⟨is_fin 0, i1⟩ ⟨i4, is_fin h⟩ (by unfold OnLine; simp only; linarith)
      (by unfold OnLine; simp only; linarith) ⟨le_rfl, hw.le, l1.le, u1.le⟩ ⟨l4.le, u4.le, hh.le, le_rfl⟩ gl gt
      (by simp only; linarith) (by simp only; linarith) (by simp only; linarith) (by simp only; linarith)
  · obtain ⟨y2, i2, l2, u2, e2⟩ := h2 g2
    obtain ⟨y3, i3, l3, u3, e3⟩ := h3 g3
    refine ⟨_, _, draw (by rw [he, if_neg g1, if_pos g2, if_pos g3, if_neg g4]; rfl), ?_⟩
    exact finish (p := ⟨w, y2⟩) (q := ⟨y3, 0⟩) ⟨is_fin w, i2⟩ ⟨i3, is_fin 0⟩ (by unfold OnLine; simp only; linarith)
      (by unfold OnLine; simp only; linarith) ⟨hw.le, le_rfl, l2.le, u2.le⟩ ⟨l3.le, u3.le, le_rfl, hh.le⟩ gr gb
      (by simp only; linarith) (by simp only; linarith) (by simp only; linarith) (by simp only; linarith)

/-- **C122** is violated: of a line through a corner at most one point is collected, so that no line is drawn, and
nothing at all of a line through two opposite corners or along a side: then an AttributeError is raised, like for every line
that misses the image. -/
theorem C122_violated (a b c w h : ℝ) (hw : 0 < w) (hh : 0 < h) :
    ((∃ p, Corner w h p ∧ OnLine a b c p) →
      (edgePoints (fin a) (fin b) (fin c) (fin 0) (fin w) (fin 0) (fin h)).length ≤ 1) ∧
    ((∃ p q, p ≠ q ∧ Corner w h p ∧ Corner w h q ∧ OnLine a b c p ∧ OnLine a b c q) →
      drawLine (fin a) (fin b) (fin c) (fin 0) (fin w) (fin 0) (fin h) = none) ∧
    ((∀ p, InRect w h p → ¬ OnLine a b c p) → drawLine (fin a) (fin b) (fin c) (fin 0) (fin w) (fin 0) (fin h) = none) ∧
    ∀ lines : List (ℝ × ℝ × ℝ), (a, b, c) ∈ lines → drawLine (fin a) (fin b) (fin c) (fin 0) (fin w) (fin 0) (fin h) = none →
      drawEpilines (fin w) (fin h) (lines.map fun l => (fin l.1, fin l.2.1, fin l.2.2)) = .error .attributeError := by
  obtain ⟨q1, q2, q3, q4, he, h1, h2, h3, h4⟩ := edgePoints_eq (a := a) (b := b) (c := c) hw hh
  have hs : c + (a * w + b * h + c) = (a * w + c) + (b * h + c) := by ring
  have corner : ∀ p, Corner w h p → OnLine a b c p → c = 0 ∨ a * w + c = 0 ∨ b * h + c = 0 ∨ a * w + b * h + c = 0 := by
    rintro ⟨x, y⟩ ⟨hx, hy⟩ hl
    simp only at hx hy
    unfold OnLine at hl
    simp only at hl
    rcases hx with rfl | rfl <;> rcases hy with rfl | rfl
    · exact .inl (by linarith)
    · exact .inr (.inr (.inl (by linarith)))
    · exact .inr (.inl (by linarith))
    · exact .inr (.inr (.inr (by linarith)))
  have drawNone : edgePoints (fin a) (fin b) (fin c) (fin 0) (fin w) (fin 0) (fin h) = [] →
      drawLine (fin a) (fin b) (fin c) (fin 0) (fin w) (fin 0) (fin h) = none := by
    intro e
    unfold drawLine
    rw [e]; rfl
  refine ⟨?_, ?_, ?_, ?_⟩
  · rintro ⟨p, hp, hl⟩
    have := corner p hp hl
    rw [he]
    generalize a * w + c = v10 at *
    generalize b * h + c = v01 at *
    generalize a * w + b * h + c = v11 at *
    rcases this with g | g | g | g
    · rw [g, if_neg (by simp), if_neg (show ¬ (0 : ℝ) * v10 < 0 by simp)]
      by_cases g1 : v10 * v11 < 0
      · rw [if_pos g1, if_neg]
        · simp
        · intro g2
          rcases mul_neg_iff.1 g1 with ⟨_, _⟩ | ⟨_, _⟩ <;> rcases mul_neg_iff.1 g2 with ⟨_, _⟩ | ⟨_, _⟩ <;> linarith
      · rw [if_neg g1]; split_ifs <;> simp
    · rw [g, if_neg (show ¬ (0 : ℝ) * v11 < 0 by simp), if_neg (show ¬ c * 0 < 0 by simp)]
      by_cases g1 : c * v01 < 0
      · rw [if_pos g1, if_neg]
        · simp
        · intro g2
          rcases mul_neg_iff.1 g1 with ⟨_, _⟩ | ⟨_, _⟩ <;> rcases mul_neg_iff.1 g2 with ⟨_, _⟩ | ⟨_, _⟩ <;> linarith
      · rw [if_neg g1]; split_ifs <;> simp
    · rw [g, if_neg (show ¬ c * 0 < 0 by simp), if_neg (show ¬ (0 : ℝ) * v11 < 0 by simp)]
      by_cases g1 : v10 * v11 < 0
      · rw [if_pos g1, if_neg]
        · simp
        · intro g2
          rcases mul_neg_iff.1 g1 with ⟨_, _⟩ | ⟨_, _⟩ <;> rcases mul_neg_iff.1 g2 with ⟨_, _⟩ | ⟨_, _⟩ <;> linarith
      · rw [if_neg g1]; split_ifs <;> simp
    · rw [g, if_neg (show ¬ v10 * 0 < 0 by simp), if_neg (show ¬ v01 * 0 < 0 by simp)]
      by_cases g1 : c * v01 < 0
      · rw [if_pos g1, if_neg]
        · simp
        · intro g2
          rcases mul_neg_iff.1 g1 with ⟨_, _⟩ | ⟨_, _⟩ <;> rcases mul_neg_iff.1 g2 with ⟨_, _⟩ | ⟨_, _⟩ <;> linarith
      · rw [if_neg g1]; split_ifs <;> simp
  · rintro ⟨⟨x, y⟩, ⟨x', y'⟩, hne, ⟨hx, hy⟩, ⟨hx', hy'⟩, hl, hl'⟩
    apply drawNone
    rw [he]
    simp only at hx hy hx' hy'
    unfold OnLine at hl hl'
    simp only at hl hl'
    have zz : ∀ {u v : ℝ}, u = 0 → ¬ u * v < 0 := fun h => by rw [h]; simp
    have zz' : ∀ {u v : ℝ}, v = 0 → ¬ u * v < 0 := fun h => by rw [h]; simp
    have sq : ∀ {u v : ℝ}, u = v → ¬ u * v < 0 := fun h => by rw [h]; exact not_lt.2 (mul_self_nonneg _)
    have fin4 : ∀ {p1 p2 p3 p4 : Prop} [Decidable p1] [Decidable p2] [Decidable p3] [Decidable p4] {l1 l2 l3 l4 : List (V2 Num)},
        ¬ p1 → ¬ p2 → ¬ p3 → ¬ p4 →
        (if p1 then l1 else []) ++ (if p2 then l2 else []) ++ (if p3 then l3 else []) ++ (if p4 then l4 else []) = [] := by
      intro p1 p2 p3 p4 _ _ _ _ l1 l2 l3 l4 n1 n2 n3 n4
      rw [if_neg n1, if_neg n2, if_neg n3, if_neg n4]; rfl
    -- the values at the corners
    have key : (c = 0 ∧ a * w + c = 0) ∨ (c = 0 ∧ b * h + c = 0) ∨ (c = 0 ∧ a * w + b * h + c = 0) ∨
        (a * w + c = 0 ∧ b * h + c = 0) ∨ (a * w + c = 0 ∧ a * w + b * h + c = 0) ∨ (b * h + c = 0 ∧ a * w + b * h + c = 0) := by
      rcases hx with rfl | rfl <;> rcases hy with rfl | rfl <;> rcases hx' with rfl | rfl <;> rcases hy' with rfl | rfl <;>
        first
        | exact absurd rfl hne
        | (left; constructor <;> linarith)
        | (right; left; constructor <;> linarith)
        | (right; right; left; constructor <;> linarith)
        | (right; right; right; left; constructor <;> linarith)
        | (right; right; right; right; left; constructor <;> linarith)
        | (right; right; right; right; right; constructor <;> linarith)
    generalize a * w + c = v10 at *
    generalize b * h + c = v01 at *
    generalize a * w + b * h + c = v11 at *
    rcases key with ⟨g, g'⟩ | ⟨g, g'⟩ | ⟨g, g'⟩ | ⟨g, g'⟩ | ⟨g, g'⟩ | ⟨g, g'⟩
    · exact fin4 (zz g) (zz g') (zz g) (sq (by linarith))
    · exact fin4 (zz g) (sq (by linarith)) (zz g) (zz g')
    · exact fin4 (zz g) (zz' g') (zz g) (zz' g')
    · exact fin4 (zz' g') (zz g) (zz' g) (zz g')
    · exact fin4 (sq (by linarith)) (zz g) (zz' g) (zz' g')
    · exact fin4 (zz' g) (zz' g') (sq (by linarith)) (zz g)
  · intro hmiss
    apply drawNone
    rw [he, if_neg, if_neg, if_neg, if_neg]
    · rfl
    · intro g
      obtain ⟨x, -, x0, x1, e⟩ := h4 g
      exact hmiss ⟨x, h⟩ ⟨x0.le, x1.le, hh.le, le_rfl⟩ (by unfold OnLine; simp only; linarith)
    · intro g
      obtain ⟨x, -, x0, x1, e⟩ := h3 g
      exact hmiss ⟨x, 0⟩ ⟨x0.le, x1.le, le_rfl, hh.le⟩ (by unfold OnLine; simp only; linarith)
    · intro g
      obtain ⟨x, -, x0, x1, e⟩ := h2 g
      exact hmiss ⟨w, x⟩ ⟨hw.le, le_rfl, x0.le, x1.le⟩ (by unfold OnLine; simp only; linarith)
    · intro g
      obtain ⟨x, -, x0, x1, e⟩ := h1 g
      exact hmiss ⟨0, x⟩ ⟨le_rfl, hw.le, x0.le, x1.le⟩ (by unfold OnLine; simp only; linarith)
  · intro lines hmem hnone
    induction lines with
    | nil => simp at hmem
    | cons l t ih =>
      rcases List.mem_cons.1 hmem with rfl | hmem
      · simp only [List.map_cons, drawEpilines, hnone]
      · simp only [List.map_cons, drawEpilines, ih hmem]
        split <;> rfl

/-- **C122** If all lines pass through the inside and through no corner, all of them are drawn. -/
theorem C122_all_partial (w h : ℝ) (hw : 0 < w) (hh : 0 < h) (lines : List (ℝ × ℝ × ℝ))
    (hin : ∀ l ∈ lines, (∃ p, Inside w h p ∧ OnLine l.1 l.2.1 l.2.2 p) ∧ ∀ p, Corner w h p → ¬ OnLine l.1 l.2.1 l.2.2 p) :
    ∃ out, drawEpilines (fin w) (fin h) (lines.map fun l => (fin l.1, fin l.2.1, fin l.2.2)) = .ok out ∧
      out.length = lines.length ∧ ∀ i (hi : i < lines.length) (ho : i < out.length),
        drawLine (fin lines[i].1) (fin lines[i].2.1) (fin lines[i].2.2) (fin 0) (fin w) (fin 0) (fin h) = some out[i] := by
  induction lines with
  | nil => exact ⟨[], rfl, rfl, fun i hi => absurd hi (by simp)⟩
  | cons l t ih =>
    obtain ⟨out, h1, h2, h3⟩ := ih fun l hl => hin l (by simp [hl])
    obtain ⟨P, Q, hd, -⟩ := C122_segment_partial l.1 l.2.1 l.2.2 w h hw hh (hin l (by simp)).1 (hin l (by simp)).2
    refine ⟨[P, Q] :: out, ?_, by simp [h2], ?_⟩
    · simp only [List.map_cons, drawEpilines, hd, h1]; rfl
    · intro i hi ho
      cases i with
      | zero => exact hd
      | succ i => exact h3 i (by simpa using hi) (by simpa using ho)

example : ∃ p, Inside 4 2 p ∧ OnLine 0 1 (-1) p := ⟨⟨2, 1⟩, by norm_num [Inside], by norm_num [OnLine]⟩

example : ∀ p, Corner 4 2 p → ¬ OnLine 0 1 (-1) p := by
  rintro ⟨x, y⟩ ⟨-, hy⟩ h
  simp only [OnLine] at h hy
  rcases hy with rfl | rfl <;> norm_num at h

example : ∃ p q, p ≠ q ∧ Corner 4 2 p ∧ Corner 4 2 q ∧ OnLine 1 (-2) 0 p ∧ OnLine 1 (-2) 0 q := by
  refine ⟨⟨0, 0⟩, ⟨4, 2⟩, ?_, ?_⟩
  · intro h; have := congrArg V2.x h; norm_num at this
  · norm_num [Corner, OnLine]
