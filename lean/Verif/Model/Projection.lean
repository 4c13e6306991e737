import Verif.Vec

/-! # Model of `cameratransform/projection.py`: rays, images and fields of view

Row functions; the code applies them to every row of an (Nx2) or (Nx3) array. -/

open Classical

namespace Projection

/-- The three projection classes. -/
inductive Kind where
  | rectilinear
  | cylindrical
  | equirectangular
deriving DecidableEq

/-- The intrinsic parameter values the conversions use (projection.py:164-174). -/
@[ext] structure Intr where
  fx : ℝ
  fy : ℝ
  cx : ℝ
  cy : ℝ
  w : ℝ
  h : ℝ

/-- projection.py:387-388, 463-464, 541-542: `ray /= np.linalg.norm(ray, axis=-1)[..., None]`. -/
noncomputable def normRay (normed : Bool) (ray : V3 Num) : V3 Num :=
  if normed then ray.divS ray.normN else ray

/-- projection.py:379-390 `RectilinearProjection.getRay`. -/
noncomputable def getRayRect (I : Intr) (p : V2 Num) (normed : Bool) : V3 Num :=
  let ray : V3 Num :=
    ⟨-(p.x - .fin I.cx) / .fin I.fx, (p.y - .fin I.cy) / .fin I.fy, .fin 1⟩
  let out := -(normRay normed ray)
  out

/-- projection.py:451-466 `CylindricalProjection.getRay`. -/
noncomputable def getRayCyl (I : Intr) (p : V2 Num) (normed : Bool) : V3 Num :=
  let alpha := (p.x - .fin I.cx) / .fin I.fx
  let x := -Num.sin alpha * .fin 1
  let z := Num.cos alpha * .fin 1
  let y := .fin 1 * (p.y - .fin I.cy) / .fin I.fy
  let out := -(normRay normed ⟨x, y, z⟩)
  out

/-- projection.py:529-544 `EquirectangularProjection.getRay`. -/
noncomputable def getRayEqui (I : Intr) (p : V2 Num) (normed : Bool) : V3 Num :=
  let alpha := (p.x - .fin I.cx) / .fin I.fx
  let x := -Num.sin alpha * .fin 1
  let z := Num.cos alpha * .fin 1
  let y := .fin 1 * Num.tan ((p.y - .fin I.cy) / .fin I.fy)
  let out := -(normRay normed ⟨x, y, z⟩)
  out

/-- `getRay` of the class `k`. -/
noncomputable def getRay (k : Kind) (I : Intr) (p : V2 Num) (normed : Bool := false) : V3 Num :=
  match k with
  | .rectilinear => getRayRect I p normed
  | .cylindrical => getRayCyl I p normed
  | .equirectangular => getRayEqui I p normed

/-- projection.py:400, 477, 555: `points[np.abs(points[..., 2]) < 1e-10] = 0`.  The mask selects whole
rows, so all three coordinates of the point are set to 0. -/
noncomputable def snap (p : V3 Num) : V3 Num :=
  if Num.abs p.z < .fin (1 / 10 ^ 10) then ⟨.fin 0, .fin 0, .fin 0⟩ else p

/-- projection.py:401-408, after the reset of small depths. -/
noncomputable def projRect (I : Intr) (p : V3 Num) (hide : Bool) : V2 Num :=
  let t : V2 Num := ⟨-p.x * .fin I.fx / p.z + .fin I.cx, p.y * .fin I.fy / p.z + .fin I.cy⟩
  if hide = true ∧ .fin 0 < p.z then V2.nan else t

/-- projection.py:478-487, after the reset of small depths. -/
noncomputable def projCyl (I : Intr) (p : V3 Num) : V2 Num :=
  let t : V2 Num :=
    ⟨-(.fin I.fx) * Num.arctan2 (-p.x) (-p.z) + .fin I.cx,
     -(.fin I.fy) * p.y / Num.sqrt (p.x.npow 2 + p.z.npow 2) + .fin I.cy⟩
  if t.y = .nan then V2.nan else t

/-- projection.py:556-563, after the reset of small depths. -/
noncomputable def projEqui (I : Intr) (p : V3 Num) : V2 Num :=
  ⟨-(.fin I.fx) * Num.arctan2 (-p.x) (-p.z) + .fin I.cx,
   -(.fin I.fy) * Num.arctan2 p.y (Num.sqrt (p.x.npow 2 + p.z.npow 2)) + .fin I.cy⟩

/-- projection.py:392-408 `RectilinearProjection.imageFromCamera`. -/
noncomputable def imageFromCameraRect (I : Intr) (p : V3 Num) (hide : Bool) : V2 Num :=
  projRect I (snap p) hide

/-- projection.py:468-487 `CylindricalProjection.imageFromCamera` (`hide_backpoints` is not used). -/
noncomputable def imageFromCameraCyl (I : Intr) (p : V3 Num) (_hide : Bool) : V2 Num :=
  projCyl I (snap p)

/-- projection.py:546-563 `EquirectangularProjection.imageFromCamera` (`hide_backpoints` is not used). -/
noncomputable def imageFromCameraEqui (I : Intr) (p : V3 Num) (_hide : Bool) : V2 Num :=
  projEqui I (snap p)

/-- `imageFromCamera` of the class `k`. -/
noncomputable def imageFromCamera (k : Kind) (I : Intr) (p : V3 Num) (hide : Bool := true) : V2 Num :=
  match k with
  | .rectilinear => imageFromCameraRect I p hide
  | .cylindrical => imageFromCameraCyl I p hide
  | .equirectangular => imageFromCameraEqui I p hide

/-- `imageFromCamera` called with an (Nx3) float array of the caller.  `ensure_array_format` returns
`np.asarray(points)` (utils.py:23, 36), i.e. the caller's own array, and line 400/477/555 writes into
it.  Returns the array of the caller after the call, and the image points. -/
noncomputable def imageFromCameraInPlace (k : Kind) (I : Intr) (pts : List (V3 Num)) (hide : Bool := true) :
    List (V3 Num) × List (V2 Num) :=
  (pts.map snap, pts.map fun p => imageFromCamera k I p hide)

/-- projection.py:410-412, 489-491, 565-567 `getFieldOfView`. -/
noncomputable def getFieldOfView (k : Kind) (I : Intr) : Num × Num :=
  let atanView (s f : ℝ) : Num := Num.rad2deg (.fin 2 * Num.arctan (.fin s / (.fin 2 * .fin f)))
  let linView (s f : ℝ) : Num := Num.rad2deg (.fin s / .fin f)
  match k with
  | .rectilinear => (atanView I.w I.fx, atanView I.h I.fy)
  | .cylindrical => (linView I.w I.fx, atanView I.h I.fy)
  | .equirectangular => (linView I.w I.fx, linView I.h I.fy)

/-- projection.py:414-418, 493-497, 569-573 `focallengthFromFOV`.  The arguments are the two optional
angles; `view_x` has priority.  Without any angle the code computes with `None` and raises a TypeError,
here `none`. -/
noncomputable def focallengthFromFOV (k : Kind) (w h : ℝ) (view_x view_y : Option Num) : Option Num :=
  let tanF (s : ℝ) (v : Num) : Num := .fin s / (.fin 2 * Num.tan (Num.deg2rad v / .fin 2))
  let linF (s : ℝ) (v : Num) : Num := .fin s / Num.deg2rad v
  match k, view_x, view_y with
  | .rectilinear, some v, _ => some (tanF w v)
  | .rectilinear, none, some v => some (tanF h v)
  | .cylindrical, some v, _ => some (linF w v)
  | .cylindrical, none, some v => some (tanF h v)
  | .equirectangular, some v, _ => some (linF w v)
  | .equirectangular, none, some v => some (linF h v)
  | _, none, none => none

/-- projection.py:420-426, 499-505, 575-581 `imageFromFOV`. -/
noncomputable def imageFromFOV (k : Kind) (I : Intr) (view_x view_y : Option Num) : Option Num :=
  let tanI (f : ℝ) (v : Num) : Num := .fin f * (.fin 2 * Num.tan (Num.deg2rad v / .fin 2))
  let linI (f : ℝ) (v : Num) : Num := .fin f * Num.deg2rad v
  match k, view_x, view_y with
  | .rectilinear, some v, _ => some (tanI I.fx v)
  | .rectilinear, none, some v => some (tanI I.fy v)
  | .cylindrical, some v, _ => some (linI I.fx v)
  | .cylindrical, none, some v => some (tanI I.fy v)
  | .equirectangular, some v, _ => some (linI I.fx v)
  | .equirectangular, none, some v => some (linI I.fy v)
  | _, none, none => none

end Projection
