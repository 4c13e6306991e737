import Verif.Proofs.Projection
import Verif.Model.Spatial

/-! Helper lemmas for the orientation properties. -/

open Classical Num

namespace M3

theorem apply_is {A : M3} {p : V3 Num} {q : V3 ℝ} (h : p.Is q) : (A.apply p).Is (A.applyR q) :=
  ⟨h.dot (V3.is_num _), h.dot (V3.is_num _), h.dot (V3.is_num _)⟩

/-- The rows are orthonormal and positively oriented. -/
structure Rot (A : M3) : Prop where
  n0 : A.r0.normSq = 1
  n1 : A.r1.normSq = 1
  n2 : A.r2.normSq = 1
  d01 : A.r0.dot A.r1 = 0
  d02 : A.r0.dot A.r2 = 0
  d12 : A.r1.dot A.r2 = 0
  det1 : A.det = 1

theorem applyR_T_applyR {A : M3} (c : mul A.T A = one) (q : V3 ℝ) : A.T.applyR (A.applyR q) = q := by
  obtain ⟨⟨a, b, e⟩, ⟨f, g, h⟩, ⟨i, j, k⟩⟩ := A
  obtain ⟨x, y, z⟩ := q
  simp only [mul, rowMul, T, one, V3.dot, M3.mk.injEq, V3.mk.injEq] at c
  obtain ⟨⟨c1, c2, c3⟩, ⟨c4, c5, c6⟩, ⟨c7, c8, c9⟩⟩ := c
  simp only [applyR, T, V3.dot, V3.mk.injEq]
  refine ⟨?_, ?_, ?_⟩
  · linear_combination x * c1 + y * c2 + z * c3
  · linear_combination x * c4 + y * c5 + z * c6
  · linear_combination x * c7 + y * c8 + z * c9

theorem applyR_applyR_T {A : M3} (c : mul A A.T = one) (q : V3 ℝ) : A.applyR (A.T.applyR q) = q :=
  applyR_T_applyR (A := A.T) c q

theorem normSq_applyR {A : M3} (c : mul A.T A = one) (q : V3 ℝ) : (A.applyR q).normSq = q.normSq := by
  obtain ⟨⟨a, b, e⟩, ⟨f, g, h⟩, ⟨i, j, k⟩⟩ := A
  obtain ⟨x, y, z⟩ := q
  simp only [mul, rowMul, T, one, V3.dot, M3.mk.injEq, V3.mk.injEq] at c
  obtain ⟨⟨c1, c2, c3⟩, ⟨c4, c5, c6⟩, ⟨c7, c8, c9⟩⟩ := c
  simp only [applyR, V3.dot, V3.normSq]
  linear_combination x * x * c1 + 2 * x * y * c2 + 2 * x * z * c3 + y * y * c5 + 2 * y * z * c6 + z * z * c9

theorem applyR_sub (A : M3) (p q : V3 ℝ) : A.applyR (p - q) = A.applyR p - A.applyR q := by
  ext <;> simp [applyR, V3.dot] <;> ring
theorem applyR_add (A : M3) (p q : V3 ℝ) : A.applyR (p + q) = A.applyR p + A.applyR q := by
  ext <;> simp [applyR, V3.dot] <;> ring
theorem applyR_mulS (A : M3) (p : V3 ℝ) (s : ℝ) : A.applyR (p.mulS s) = (A.applyR p).mulS s := by
  ext <;> simp [applyR, V3.dot] <;> ring
end M3

namespace Spatial

theorem rot_TR (a b c : ℝ) : M3.mul (rotation a b c).T (rotation a b c) = M3.one := by
  have ha := Real.sin_sq_add_cos_sq a
  have hb := Real.sin_sq_add_cos_sq b
  have hc := Real.sin_sq_add_cos_sq c
  set sa := Real.sin a; set ca := Real.cos a
  set sb := Real.sin b; set cb := Real.cos b
  set sc := Real.sin c; set cc := Real.cos c
  simp only [rotation, R_roll, R_tilt, R_head, M3.mul, M3.rowMul, M3.T, M3.one, V3.dot, M3.mk.injEq,
    V3.mk.injEq]
  refine ⟨⟨?_, ?_, ?_⟩, ⟨?_, ?_, ?_⟩, ⟨?_, ?_, ?_⟩⟩ <;>
    grobner

theorem rot_RT (a b c : ℝ) : M3.mul (rotation a b c) (rotation a b c).T = M3.one := by
  have ha := Real.sin_sq_add_cos_sq a
  have hb := Real.sin_sq_add_cos_sq b
  have hc := Real.sin_sq_add_cos_sq c
  set sa := Real.sin a; set ca := Real.cos a
  set sb := Real.sin b; set cb := Real.cos b
  set sc := Real.sin c; set cc := Real.cos c
  simp only [rotation, R_roll, R_tilt, R_head, M3.mul, M3.rowMul, M3.T, M3.one, V3.dot, M3.mk.injEq,
    V3.mk.injEq]
  refine ⟨⟨?_, ?_, ?_⟩, ⟨?_, ?_, ?_⟩, ⟨?_, ?_, ?_⟩⟩ <;>
    grobner

/-- The determinant of the rotation matrix is 1, hence `np.linalg.inv` does not raise. -/
theorem det_rot (a b c : ℝ) : (rotation a b c).det = 1 := by
  have ha := Real.sin_sq_add_cos_sq a
  have hb := Real.sin_sq_add_cos_sq b
  have hc := Real.sin_sq_add_cos_sq c
  set sa := Real.sin a; set ca := Real.cos a
  set sb := Real.sin b; set cb := Real.cos b
  set sc := Real.sin c; set cc := Real.cos c
  simp only [rotation, R_roll, R_tilt, R_head, M3.mul, M3.rowMul, M3.T, M3.det, V3.dot, V3.cross]
  grobner

/-- The inverse of the rotation matrix is its transpose. -/
theorem inv_rot (a b c : ℝ) : (rotation a b c).inv = (rotation a b c).T := by
  have hd := det_rot a b c
  unfold M3.inv
  simp only [hd]
  have ha := Real.sin_sq_add_cos_sq a
  have hb := Real.sin_sq_add_cos_sq b
  have hc := Real.sin_sq_add_cos_sq c
  clear hd
  set sa := Real.sin a; set ca := Real.cos a
  set sb := Real.sin b; set cb := Real.cos b
  set sc := Real.sin c; set cc := Real.cos c
  simp only [rotation, R_roll, R_tilt, R_head, M3.mul, M3.rowMul, M3.T, V3.dot, V3.cross, V3.divS, div_one,
    M3.mk.injEq, V3.mk.injEq]
  refine ⟨⟨?_, ?_, ?_⟩, ⟨?_, ?_, ?_⟩, ⟨?_, ?_, ?_⟩⟩ <;>
    grobner

end Spatial
