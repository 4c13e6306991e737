import Verif.Model.Ray

/-! # The inputs that the property tests of rays draw (tests/test_ray.py, tests/strategies.py)

The numbers are exact reals, as in `Drawn`. -/

open Classical

namespace DrawnRay

open Ray (Tri)

/-- tests/test_ray.py:74-76: what `test_rayIntersectTriangle` draws for one triangle. -/
structure Draw where
  origin : V3 ℝ
  a : V3 ℝ
  b : V3 ℝ
  c : V3 ℝ
  p1 : ℝ
  p2 : ℝ

/-- `elements=st.floats(l, u)`. -/
def Within (l u : ℝ) (p : V3 ℝ) : Prop := (l ≤ p.x ∧ p.x ≤ u) ∧ (l ≤ p.y ∧ p.y ≤ u) ∧ l ≤ p.z ∧ p.z ≤ u

/-- tests/test_ray.py:74-76: the ranges. -/
structure Draw.Ok (d : Draw) : Prop where
  origin : Within 0 5 d.origin
  a : Within 10 100 d.a
  b : Within 10 100 d.b
  c : Within 10 100 d.c
  p1 : 1 / 10 ≤ d.p1 ∧ d.p1 ≤ 9 / 10
  p2 : 1 / 10 ≤ d.p2 ∧ d.p2 ≤ 9 / 10

/-- tests/test_ray.py:79-80: the triangle. -/
noncomputable def Draw.tri (d : Draw) : Tri ℝ := ⟨d.a, d.b + ⟨17 / 10, 1 / 2, 3 / 10⟩, d.c + ⟨27 / 10, 9 / 2, 33 / 10⟩⟩

/-- `np.allclose(x, y, 0.001)`. -/
def AllClose (x y : V3 ℝ) : Prop :=
  |x.x - y.x| ≤ 1 / 10 ^ 8 + 1 / 1000 * |y.x| ∧ |x.y - y.y| ≤ 1 / 10 ^ 8 + 1 / 1000 * |y.y| ∧ |x.z - y.z| ≤ 1 / 10 ^ 8 + 1 / 1000 * |y.z|

/-- tests/test_ray.py:53-62: `getPointInTriangle` does not reject the triangle. -/
structure Kept (T : Tri ℝ) : Prop where
  ab : ¬ AllClose T.a T.b
  ac : ¬ AllClose T.a T.c
  bc : ¬ AllClose T.b T.c
  dirs : ¬ AllClose ((T.b - T.a).divS (T.b - T.a).norm) ((T.c - T.a).divS (T.c - T.a).norm)

/-- tests/test_ray.py:64: the target point. -/
noncomputable def target (T : Tri ℝ) (p1 p2 : ℝ) : V3 ℝ := T.a + (T.b - T.a).mulS p1 + (T.c - T.a).mulS (p2 * (1 - p1))

/-- tests/test_ray.py:65-66: the ray. -/
noncomputable def toward (o P : V3 ℝ) : V3 ℝ := (P - o).divS (P - o).norm

/-- tests/strategies.py:160-166: what `line` draws; of the angles only those that are used. -/
structure LineDraw where
  origin : V3 ℝ
  theta : ℝ
  phi : ℝ
  phi1 : ℝ
  phi2 : ℝ
  distance : ℝ

/-- tests/strategies.py:162-166: the ranges. -/
structure LineDraw.Ok (d : LineDraw) : Prop where
  origin : Within (-100) 100 d.origin
  theta : -90 ≤ d.theta ∧ d.theta ≤ 90
  phi : 0 ≤ d.phi ∧ d.phi ≤ 360
  phi1 : 0 ≤ d.phi1 ∧ d.phi1 ≤ 360
  phi2 : 0 ≤ d.phi2 ∧ d.phi2 ≤ 360
  distance : 0 ≤ d.distance ∧ d.distance ≤ 10

/-- `np.deg2rad`. -/
noncomputable def rad (x : ℝ) : ℝ := x * (Real.pi / 180)

/-- tests/strategies.py:168-171: the first direction. -/
noncomputable def LineDraw.normal (d : LineDraw) : V3 ℝ :=
  ⟨Real.sin (rad d.theta) * Real.cos (rad d.phi), Real.sin (rad d.theta) * Real.sin (rad d.phi), Real.cos (rad d.theta)⟩

/-- tests/strategies.py:174-180: a direction of a line, from the angle it is made of. -/
noncomputable def LineDraw.dir (d : LineDraw) (phi : ℝ) : V3 ℝ :=
  let n := d.normal
  let c := Real.sin (rad phi)
  let b := Real.cos (rad phi)
  let v : V3 ℝ := ⟨(-n.z * c - n.y * b) / n.x, b, c⟩
  v.divS v.norm

/-- `np.all(x - y < 1e-2)`. -/
def Below (x y : V3 ℝ) : Prop := x.x - y.x < 1 / 100 ∧ x.y - y.y < 1 / 100 ∧ x.z - y.z < 1 / 100

/-- tests/strategies.py:172-173, 182-185: the draw is not rejected. -/
structure LineDraw.Kept (d : LineDraw) : Prop where
  x : 1 / 10 ^ 20 ≤ |d.normal.x|
  n1 : ¬ Below d.normal (d.dir d.phi1)
  n2 : ¬ Below d.normal (d.dir d.phi2)
  dirs : ¬ Below (d.dir d.phi1) (d.dir d.phi2)

/-- tests/strategies.py:189-190: the closest points of the two lines. -/
noncomputable def LineDraw.c1 (d : LineDraw) : V3 ℝ := d.origin - d.normal.mulS (1 / 2 * d.distance)
/-- tests/strategies.py:190. -/
noncomputable def LineDraw.c2 (d : LineDraw) : V3 ℝ := d.origin + d.normal.mulS (1 / 2 * d.distance)

/-- tests/strategies.py:192-193: the points the lines are given by. -/
noncomputable def LineDraw.o1 (d : LineDraw) : V3 ℝ := d.c1 + (d.dir d.phi1).mulS 2
/-- tests/strategies.py:193. -/
noncomputable def LineDraw.o2 (d : LineDraw) : V3 ℝ := d.c2 + (d.dir d.phi2).mulS 2

end DrawnRay
