import Verif.Model.Camera
import Verif.Model.Statistic
import Mathlib.Analysis.SpecialFunctions.Log.Basic

/-! # Model of the two-camera functions of `CameraGroup` (camera.py:215-325)

The group is given by the current values of its first two cameras; construction and parameters of groups are modelled
in `Verif/Model/Group.lean`. -/

open Classical

namespace Stereo

open Camera

/-- camera.py:218-222 `spaceFromImages` for one pair of image points. -/
noncomputable def spaceFromImages (c1 c2 : Cam) (p1 p2 : V2 Num) : V3 Num :=
  let r1 := getRay c1 p1
  let r2 := getRay c2 p2
  Ray.intersectionSingle r1.1 r1.2 r2.1 r2.2

/-- camera.py:218-222 `spaceFromImages` for (Nx2) arrays.  The origin of the rays of a camera is computed once
(camera.py:1051). -/
noncomputable def spaceFromImagesBatch (c1 c2 : Cam) (ps : List (V2 Num × V2 Num)) : List (V3 Num) :=
  Ray.intersectionBatch (Spatial.spaceFromCamera c1.orient.mat ⟨.fin 0, .fin 0, .fin 0⟩)
    (Spatial.spaceFromCamera c2.orient.mat ⟨.fin 0, .fin 0, .fin 0⟩)
    (ps.map fun p => ((getRay c1 p.1).2, (getRay c2 p.2).2))

/-- camera.py:224-228 `discanteBetweenRays` for one pair of image points. -/
noncomputable def discanteBetweenRays (c1 c2 : Cam) (p1 p2 : V2 Num) : Num :=
  let r1 := getRay c1 p1 true
  let r2 := getRay c2 p2 true
  Ray.distanceOfTwoLines r1.1 r1.2 r2.1 r2.2

/-- camera.py:224-228 `discanteBetweenRays` for (Nx2) arrays: ray.py:181-182 goes through the rows. -/
noncomputable def discanteBetweenRaysBatch (c1 c2 : Cam) (ps : List (V2 Num × V2 Num)) : List Num :=
  Ray.distanceOfTwoLinesBatch (Spatial.spaceFromCamera c1.orient.mat ⟨.fin 0, .fin 0, .fin 0⟩)
    (Spatial.spaceFromCamera c2.orient.mat ⟨.fin 0, .fin 0, .fin 0⟩)
    (ps.map fun p => ((getRay c1 p.1 true).2, (getRay c2 p.2 true).2))

/-- camera.py:230-232 `imagesFromSpace` for one row. -/
noncomputable def imagesFromSpace (cams : List Cam) (P : V3 Num) : List (V2 Num) := cams.map fun c => imageFromSpace c P

/-- camera.py:215-216 `getBaseline`. -/
noncomputable def getBaseline (c1 c2 : Cam) : Num :=
  Num.sqrt (((.fin c1.orient.pos.x : Num) - .fin c2.orient.pos.x).npow 2 + ((.fin c1.orient.pos.y : Num) - .fin c2.orient.pos.y).npow 2)

/-- Componentwise difference of two pixels. -/
noncomputable def sub2 (a b : V2 Num) : V2 Num := ⟨a.x - b.x, a.y - b.y⟩

/-- `np.linalg.norm` of a pixel. -/
noncomputable def norm2 (a : V2 Num) : Num := Num.sqrt (a.x * a.x + a.y * a.y)

/-- ray.py:323-332 `getClosestPointFromLine` for one row of two coordinates. -/
noncomputable def closestOnLine (origin ray point : V2 Num) : V2 Num :=
  let delta := sub2 point origin
  let r : V2 Num := ⟨ray.x / norm2 ray, ray.y / norm2 ray⟩
  let factor := r.x * delta.x + r.y * delta.y
  ⟨origin.x + factor * r.x, origin.y + factor * r.y⟩

/-- camera.py:256-263 and 278-285: the distance of `qj` from the epipolar line of `qi`, for one row. -/
noncomputable def epipolarDistance (ci cj : Cam) (qi qj : V2 Num) (hide : Bool) : Num :=
  let r := getRay ci qi
  let p1 := imageFromSpace cj (r.1 + r.2.mulS (.fin 1)) hide
  let p2 := imageFromSpace cj (r.1 + r.2.mulS (.fin 2)) hide
  norm2 (sub2 (closestOnLine p1 (sub2 p2 p1) qj) qj)

/-- camera.py:271-289 `pointCorrespondenceError` for one correspondence: both directions, hidden points included. -/
noncomputable def pointCorrespondenceError (c1 c2 : Cam) (q1 q2 : V2 Num) : Num × Num :=
  (epipolarDistance c1 c2 q1 q2 false, epipolarDistance c2 c1 q2 q1 false)

/-- What `drawEpilines` of `plotMyEpiploarLines` draws for one correspondence: the curve, the corresponding point, the foot of
its perpendicular, and the number next to the point (the text `"%.1f"` of it). -/
structure Drawn where
  curve : List (V2 Num)
  point : V2 Num
  foot : V2 Num
  distance : Num

/-- camera.py:394-410: one round of the loop of `drawEpilines`; `np.arange(-10000, 10000, 100)` has 200 elements. -/
noncomputable def drawMine (cA cB : Cam) (pA pB : V2 Num) : Drawn :=
  let r := getRay cB pB true
  let pixel (i : ℕ) := imageFromSpace cA (r.1 + r.2.mulS (.fin (-10000 + 100 * i))) false
  let foot := closestOnLine (pixel 0) (sub2 (pixel 1) (pixel 0)) pA
  ⟨(List.range 200).map pixel, pA, foot, norm2 (sub2 foot pA)⟩

/-- camera.py:386-421 `plotMyEpiploarLines`: the drawings in the two images; `zip` stops at the shorter array. -/
noncomputable def plotMine (c1 c2 : Cam) (q1 q2 : List (V2 Num)) : List Drawn × List Drawn :=
  (List.zipWith (drawMine c1 c2) q1 q2, List.zipWith (drawMine c2 c1) q2 q1)

/-- `stats.norm(loc=m, scale=s).logpdf(x)` for `s > 0`. -/
noncomputable def normLogpdf (m s : ℝ) (x : Num) : Num :=
  -(((x - .fin m) / .fin s).npow 2) / .fin 2 - .fin (Real.log (Real.sqrt (2 * Real.pi))) - .fin (Real.log s)

/-- camera.py:249-267: the term of `addPointCorrespondenceInformation` for the rows of the two arrays of pixels.  Here the
points on the ray are projected with `hide_backpoints=True`. -/
noncomputable def correspondenceTerm (c1 c2 : Cam) (qs : List (V2 Num × V2 Num)) (uncertainty : ℝ) : Num :=
  .fin 0 + Stat.npsum (qs.map fun q => normLogpdf 0 uncertainty (epipolarDistance c1 c2 q.1 q.2 true)) +
    Stat.npsum (qs.map fun q => normLogpdf 0 uncertainty (epipolarDistance c2 c1 q.2 q.1 true))

/-- camera.py:243-247: the term of `addBaselineInformation`. -/
noncomputable def baselineTerm (c1 c2 : Cam) (target uncertainty : ℝ) : Num := normLogpdf target uncertainty (getBaseline c1 c2)

/-- camera.py:311-315 `rotationToEuler`: roll, tilt and heading in degrees. -/
noncomputable def rotationToEuler (R : M3) : V3 Num :=
  ⟨.fin 180 + Num.rad2deg (Num.arctan2 (.fin R.r0.z) (-.fin R.r1.z)), Num.rad2deg (Num.arccos (.fin R.r2.z)),
   .fin 180 + Num.rad2deg (Num.arctan2 (.fin R.r2.x) (.fin R.r2.y))⟩

end Stereo
