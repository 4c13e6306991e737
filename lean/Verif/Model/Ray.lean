import Verif.Vec

/-! # Model of `cameratransform/ray.py` -/

open Classical

namespace Ray

/-- One triangle, an array of dimensions (3,3). -/
@[ext] structure Tri (α : Type) where
  a : V3 α
  b : V3 α
  c : V3 α

/-- A real triangle as array of ideal IEEE numbers. -/
def Tri.num (t : Tri ℝ) : Tri Num := ⟨t.a.num, t.b.num, t.c.num⟩

/-- ray.py:60-86: the entry of `rI` for one triangle and one ray, after all the masks (nan = no hit). -/
noncomputable def hitParam (origin direction : V3 Num) (T : Tri Num) (usePlanes : Bool := false) : Num :=
  let v0 := T.a
  let u := T.b - v0
  let v := T.c - v0
  let normal := u.cross v
  let b := normal.dot direction
  let a := normal.dot (v0 - origin)
  let r := a / b
  -- ray is parallel to the plane (`a != 0.0` is true for nan)
  let r := if Num.eqv b (.fin 0) ∧ ¬ Num.eqv a (.fin 0) then .nan else r
  -- ray is parallel and lies in the plane
  let r := if Num.eqv b (.fin 0) ∧ Num.eqv a (.fin 0) then .fin 0 else r
  -- behind the origin
  let r := if r < .fin 0 then .nan else r
  if usePlanes then r
  else
    let w := origin + direction.mulS r - v0
    let denom := u.dot v * u.dot v - u.dot u * v.dot v
    let si := (u.dot v * w.dot v - v.dot v * w.dot u) / denom
    let r := if si < .fin 0 ∨ .fin 1 < si then .nan else r
    let ti := (u.dot v * w.dot u - u.dot u * w.dot v) / denom
    if ti < .fin 0 ∨ .fin 1 < si + ti then .nan else r

/-- ray.py:88-90: `a[np.isnan(a)] = np.inf`, in place. -/
noncomputable def nanToInf (x : Num) : Num := if x = .nan then .pinf else x

/-- `np.argmin` followed by taking that entry: the first smallest entry of a non-empty list. -/
noncomputable def firstMin : Num → List Num → Num
  | m, [] => m
  | m, x :: xs => if x < m then firstMin x xs else firstMin m xs

/-- ray.py:27-100 `ray_intersect_triangle` for one ray and a list of triangles.  `np.argmin` of an empty
array raises ValueError (`none`).  `nanargmin` writes `inf` over the nans of `rI` itself (line 90), and
line 95 reads the chosen entry from this modified array. -/
noncomputable def rayIntersectTriangle (origin direction : V3 Num) (mesh : List (Tri Num))
    (usePlanes : Bool := false) : Option (V3 Num) :=
  match mesh.map fun T => nanToInf (hitParam origin direction T usePlanes) with
  | [] => none
  | r :: rs => some (origin + direction.mulS (firstMin r rs))

/-- ray.py:27-100 for R rays, each with its origin (a common origin is broadcast): every ray is treated on its own
(line 94: the minimum is taken along axis 0, per ray). -/
noncomputable def rayIntersectTriangleBatch (rays : List (V3 Num × V3 Num)) (mesh : List (Tri Num)) (usePlanes : Bool) :
    Option (List (V3 Num)) :=
  rays.mapM fun r => rayIntersectTriangle r.1 r.2 mesh usePlanes

/-- ray.py:103-104 `distanceLinePoint`. -/
noncomputable def distanceLinePoint (p1 v1 p2 : V3 Num) : Num :=
  (v1.cross (p1 - p2)).normN / v1.normN

/-- `np.linalg.solve` of a 2x2 system by Cramer's rule; `none` is `LinAlgError` (singular matrix).  With
nan entries numpy does not raise, and neither does this. -/
noncomputable def solve2 (a1 b1 a2 b2 c1 c2 : Num) : Option (Num × Num) :=
  let det := a1 * b2 - b1 * a2
  if Num.eqv det (.fin 0) then none
  else some ((c1 * b2 - b1 * c2) / det, (a1 * c2 - c1 * a2) / det)

/-- The 2x2 system of ray.py:130-135 and 146-151. -/
noncomputable def solveLines (p1 v1 p2 v2 : V3 Num) : Option (Num × Num) :=
  let a1 := v1.dot v1
  let a2 := v1.dot v2
  let b1 := -(v2.dot v1)
  let b2 := -(v2.dot v2)
  let c1 := -(v1.dot (p1 - p2))
  let c2 := -(v2.dot (p1 - p2))
  solve2 a1 b1 a2 b2 c1 c2

/-- `np.mean([p, q], axis=0)` of two rows. -/
noncomputable def mean2 (p q : V3 Num) : V3 Num := (p + q).divS (.fin 2)

/-- ray.py:144-157 `__intersectionOfTwoLines`. -/
noncomputable def intersectionSingle (p1 v1 p2 v2 : V3 Num) : V3 Num :=
  match solveLines p1 v1 p2 v2 with
  | none => V3.nan
  | some (s, t) => mean2 (p1 + v1.mulS s) (p2 + v2.mulS t)

/-- ray.py:128-140 `intersectionOfTwoLines` for N lines: all systems are solved in one call, which raises
if one of them is singular; then every row is processed on its own. -/
noncomputable def intersectionBatch (p1 p2 : V3 Num) (vs : List (V3 Num × V3 Num)) : List (V3 Num) :=
  match vs.mapM fun v => solveLines p1 v.1 p2 v.2 with
  | some sol => (vs.zip sol).map fun x => mean2 (p1 + x.1.1.mulS x.2.1) (p2 + x.1.2.mulS x.2.2)
  | none => vs.map fun v => intersectionSingle p1 v.1 p2 v.2

/-- `np.isclose(x, 0)` with the default tolerances: `|x - 0| <= 1e-8 + 1e-5 * |0|`. -/
noncomputable def isClose0 (x : Num) : Prop := Num.abs x ≤ .fin (1 / 10 ^ 8)

/-- ray.py:199-233 `__distanceOfTwoLines`. -/
noncomputable def distanceOfTwoLines (p1 v1 p2 v2 : V3 Num) : Num :=
  let p1p2 := p2 - p1
  let cr := v1.cross v2
  let ncr := cr.normN
  if isClose0 ncr then
    let nv1 := v1.normN
    if isClose0 nv1 then
      if isClose0 v2.normN then p1p2.normN
      else (p1p2.cross v2).normN / v2.normN
    else (p1p2.cross v1).normN / nv1
  else Num.abs (p1p2.dot cr) / ncr

/-- ray.py:181-182: the batch version maps the single one. -/
noncomputable def distanceOfTwoLinesBatch (p1 p2 : V3 Num) (vs : List (V3 Num × V3 Num)) : List Num :=
  vs.map fun v => distanceOfTwoLines p1 v.1 p2 v.2

/-- ray.py:235-254 `areaOfTriangle` for one 3D triangle. -/
noncomputable def areaOfTriangle (T : Tri Num) : Num :=
  let a := (T.a - T.b).normN
  let b := (T.b - T.c).normN
  let c := (T.c - T.a).normN
  let s := (a + b + c) / .fin 2
  Num.sqrt (s * (s - a) * (s - b) * (s - c))

/-- ray.py:257-290 `areaOfQuadrilateral` for one quadrilateral.  Only the first two coordinates of the
corners are used. -/
noncomputable def areaOfQuadrilateral (A B C D : V2 Num) : Num :=
  .fin (1 / 2) * Num.abs ((A.y - C.y) * (D.x - B.x) + (B.y - D.y) * (A.x - C.x))

/-- ray.py:296-301: the loop of `extrudeLine`, with the previous point. -/
def extrudeAux {α : Type} (z0 z1 : α) : V2 α → List (V2 α) → List (Tri α)
  | _, [] => []
  | last, p :: ps =>
    ⟨⟨p.x, p.y, z0⟩, ⟨last.x, last.y, z0⟩, ⟨p.x, p.y, z1⟩⟩ ::
    ⟨⟨p.x, p.y, z0⟩, ⟨last.x, last.y, z0⟩, ⟨last.x, last.y, z1⟩⟩ :: extrudeAux z0 z1 p ps

/-- ray.py:293-302 `extrudeLine`. -/
def extrudeLine {α : Type} (points : List (V2 α)) (z0 z1 : α) : List (Tri α) :=
  match points with
  | [] => []
  | p :: ps => extrudeAux z0 z1 p ps

/-- ray.py:305-332 `getClosestPointFromLine` for one row: the caller's `ray` array after the call (line
326 divides in place) and the result. -/
noncomputable def getClosestPointFromLine (origin ray point : V3 Num) : V3 Num × V3 Num :=
  let delta := point - origin
  let ray' := ray.divS ray.normN
  let factor := ray'.x * delta.x + ray'.y * delta.y + ray'.z * delta.z
  (ray', origin + ray'.mulS factor)

end Ray
