import Verif.Model.Spatial
import Verif.Model.Projection
import Verif.Model.Ray

/-! # Model of the conversions of `cameratransform/camera.py`

The camera is given by the current values of its parameters; how the parameters get and keep their
values is modelled in `Verif/Model/System.lean`. -/

open Classical

namespace Camera

/-- A lens: the two conversion methods (lens_distortion.py:46-52, 151-173, 245-267). -/
structure Lens where
  imageFromDistorted : V2 Num → V2 Num
  distortedFromImage : V2 Num → V2 Num

/-- lens_distortion.py:46-52, 77-81 `NoDistortion`. -/
def noDistortion : Lens := ⟨id, id⟩

/-- The two orientation classes with their parameter values. -/
inductive Orient where
  | thr (p : Spatial.Params)
  | ypr (p : Spatial.ParamsYPR)

/-- The stored matrices after `_initCameraMatrix`. -/
noncomputable def Orient.mat : Orient → Spatial.CamMatrix
  | .thr p => (Spatial.initCameraMatrix p).2
  | .ypr p => (Spatial.initCameraMatrixYPR p).2

/-- The position parameters. -/
def Orient.pos : Orient → V3 ℝ
  | .thr p => ⟨p.pos_x_m, p.pos_y_m, p.elevation_m⟩
  | .ypr p => ⟨p.pos_x_m, p.pos_y_m, p.elevation_m⟩

/-- A camera: projection class and intrinsics, orientation, lens (camera.py:444-459). -/
structure Cam where
  kind : Projection.Kind
  intr : Projection.Intr
  orient : Orient
  lens : Lens

/-- camera.py:1005 `imageFromSpace` for one row. -/
noncomputable def imageFromSpace (c : Cam) (p : V3 Num) (hide : Bool := true) : V2 Num :=
  c.lens.distortedFromImage
    (Projection.imageFromCamera c.kind c.intr (Spatial.cameraFromSpace c.orient.mat p) hide)

/-- camera.py:1049-1056 `getRay` for one row. -/
noncomputable def getRay (c : Cam) (p : V2 Num) (normed : Bool := false) : V3 Num × V3 Num :=
  (Spatial.spaceFromCamera c.orient.mat ⟨.fin 0, .fin 0, .fin 0⟩,
   Spatial.spaceFromCamera c.orient.mat
     (Projection.getRay c.kind c.intr (c.lens.imageFromDistorted p) normed) true)

/-- The exceptions the modelled functions raise. -/
inductive PyErr where
  | unboundLocal
  | valueError
  | typeError
  | indexError
  | assertionError
  | attributeError
deriving DecidableEq

/-- The optional arguments of `spaceFromImage` (camera.py:1058-1059; `Z` defaults to 0). -/
structure Constraint where
  X : Option Num := none
  Y : Option Num := none
  Z : Option Num := some (.fin 0)
  D : Option Num := none
  mesh : Option (List (Ray.Tri Num)) := none

/-- camera.py:1124-1130: index and value of the constrained coordinate, X before Y before Z. -/
def Constraint.given (k : Constraint) : Option (Fin 3 × Num) :=
  match k.X, k.Y, k.Z with
  | some v, _, _ => some (0, v)
  | none, some v, _ => some (1, v)
  | none, none, some v => some (2, v)
  | none, none, none => none

/-- camera.py:1149-1157: the point for a factor, nan for a negative factor. -/
noncomputable def pointAt (offset direction : V3 Num) (factor : Num) : V3 Num :=
  if factor < .fin 0 then V3.nan else direction.mulS factor + offset

/-- camera.py:1121-1157 `spaceFromImage` for one row.  For a batch numpy broadcasts the constraint
(scalar, or one value per row), so that every row is computed like this. -/
noncomputable def spaceFromImage (c : Cam) (p : V2 Num) (k : Constraint) : Except PyErr (V3 Num) :=
  match k.mesh with
  | some m =>
    let r := getRay c p
    match Ray.rayIntersectTriangle r.1 r.2 m with
    | none => .error .valueError
    | some q => .ok q
  | none =>
    match k.D with
    | some d =>
      let r := getRay c p true
      .ok (pointAt r.1 r.2 d)
    | none =>
      match k.given with
      | none => .error .unboundLocal
      | some (i, v) =>
        let r := getRay c p
        .ok (pointAt r.1 r.2 ((v - r.1.get i) / r.2.get i))

/-- camera.py:1243-1251 `getObjectHeight` for one pair of image points. -/
noncomputable def getObjectHeight (c : Cam) (feet head : V2 Num) (Z : Num := .fin 0) : Except PyErr Num := do
  let f ← spaceFromImage c feet { Z := some Z }
  let h1 ← spaceFromImage c head { Y := some f.y }
  let h2 ← spaceFromImage c head { X := some f.x }
  let h := Ray.mean2 h1 h2
  return h.z - f.z

/-- camera.py:1272-1278 `getObjectLength` for one pair of image points. -/
noncomputable def getObjectLength (c : Cam) (front back : V2 Num) (Z : Num := .fin 0) : Except PyErr Num := do
  let f ← spaceFromImage c front { Z := some Z }
  let b ← spaceFromImage c back { Z := some Z }
  return (f - b).normN

/-- camera.py:1505-1519 `rotateSpace` on a `SpatialOrientation`: the heading is assigned first (and
wrapped by the callback), then the position. -/
noncomputable def rotateSpace (p : Spatial.Params) (delta : ℝ) : Spatial.Params :=
  let d := Spatial.rad delta
  { p with
    heading_deg := Spatial.wrap360 (p.heading_deg + delta)
    pos_x_m := Real.cos d * p.pos_x_m + Real.sin d * p.pos_y_m
    pos_y_m := -Real.sin d * p.pos_x_m + Real.cos d * p.pos_y_m }

end Camera
