import Verif.Model.Camera
import Verif.Model.Gps

/-! # Stacks of points: `spaceFromImage` (camera.py) and the conversions of gps.py for arrays with any number of axes

An array is its shape and its entries.  The axes are listed from the last to the first (an Nx2 array has the shape `[2, N]`),
an index as well.  Entries outside the shape have no meaning. -/

open Classical

namespace Batch

open Camera (PyErr Cam)
open Num (fin)

/-- A numpy array. -/
structure Nd where
  shape : List ℕ
  at_ : List ℕ → Num

/-- Broadcasting of one axis. -/
def bdim (a b : ℕ) : Option ℕ := if a = b then some a else if a = 1 then some b else if b = 1 then some a else none

/-- Broadcasting of shapes. -/
def bshape : List ℕ → List ℕ → Option (List ℕ)
  | [], t => some t
  | s, [] => some s
  | a :: s, b :: t => match bdim a b, bshape s t with
    | some d, some r => some (d :: r)
    | _, _ => none

/-- The index in an array of the given shape that belongs to an index of the broadcast result. -/
def bidx : List ℕ → List ℕ → List ℕ
  | [], _ => []
  | _, [] => []
  | a :: s, i :: is => (if a = 1 then 0 else i) :: bidx s is

/-- An operation of two arrays; ValueError if the shapes do not fit. -/
def Nd.op (f : Num → Num → Num) (a b : Nd) : Except PyErr Nd := match bshape a.shape b.shape with
  | none => .error .valueError
  | some r => .ok ⟨r, fun i => f (a.at_ (bidx a.shape i)) (b.at_ (bidx b.shape i))⟩

/-- A number as array. -/
def scalar (x : Num) : Nd := ⟨[], fun _ => x⟩

/-- `a[..., k]`. -/
def Nd.last (a : Nd) (k : ℕ) : Nd := ⟨a.shape.tail, fun i => a.at_ (k :: i)⟩

/-- The shape of `a[:, None]`, a new axis behind the first one. -/
def colShape : List ℕ → Option (List ℕ)
  | [] => none
  | [n] => some [1, n]
  | a :: s => (colShape s).map (a :: ·)

/-- The index in `a` that belongs to an index of `a[:, None]`. -/
def colIdx : List ℕ → List ℕ
  | [] => []
  | [_, n] => [n]
  | a :: t => a :: colIdx t

/-- `a[:, None]` (camera.py:1154); IndexError for an array without axes. -/
def Nd.col (a : Nd) : Except PyErr Nd := match colShape a.shape with
  | none => .error .indexError
  | some s => .ok ⟨s, fun i => a.at_ (colIdx i)⟩

/-- `p[f < 0] = np.nan` (camera.py:1156): the axes of `f` are the first axes of `p`, otherwise IndexError. -/
noncomputable def mask (p f : Nd) : Except PyErr Nd :=
  if p.shape.drop (p.shape.length - f.shape.length) = f.shape then
    .ok ⟨p.shape, fun i => if f.at_ (i.drop (i.length - f.shape.length)) < fin 0 then .nan else p.at_ i⟩
  else .error .indexError

/-- A component of a point. -/
def comp (p : V3 Num) : ℕ → Num
  | 0 => p.x
  | 1 => p.y
  | _ => p.z

/-- The directions of camera.py:1007-1056 `getRay` for a stack of points.  Simplified: lens, projection and orientation only work
along the last axis (or transpose twice), so every point is treated alone. -/
noncomputable def directions (c : Cam) (points : Nd) (normed : Bool) : Nd :=
  ⟨3 :: points.shape.tail, fun i => match i with
    | [] => .nan
    | k :: i => comp (Camera.getRay c ⟨points.at_ (0 :: i), points.at_ (1 :: i)⟩ normed).2 k⟩

/-- The offset of `getRay`, an array of three entries. -/
noncomputable def offset (c : Cam) : Nd :=
  ⟨[3], fun i => comp (Spatial.spaceFromCamera c.orient.mat ⟨fin 0, fin 0, fin 0⟩) (i.headD 0)⟩

/-- The constraint of `spaceFromImage`: a coordinate (a number, list or array, X, Y or Z), or the distance D as a number, as
a list or as an array. -/
inductive Con
  | coord (k : ℕ) (v : Nd)
  | distNum (d : Num)
  | distList (d : Nd)
  | distArr (d : Nd)

/-- camera.py:1151: a factor that is no array. -/
noncomputable def plain (c : Cam) (dir f : Nd) : Except PyErr Nd := do
  let p ← dir.op (· * ·) f
  p.op (· + ·) (offset c)

/-- camera.py:1154: a factor that is an array; `offset[None, :]` has the shape (1, 3). -/
noncomputable def perRow (c : Cam) (dir f : Nd) : Except PyErr Nd := do
  let g ← f.col
  let p ← dir.op (· * ·) g
  p.op (· + ·) ⟨[3, 1], fun i => (offset c).at_ [i.headD 0]⟩

/-- camera.py:1121-1157 `spaceFromImage` without a mesh.  Operations whose result has no axes give a number and no array
(line 1149); comparing a list with 0 (line 1156) is a TypeError. -/
noncomputable def spaceFromImage (c : Cam) (points : Nd) (con : Con) : Except PyErr Nd :=
  match points.shape with
  | [] => .error .indexError
  | n :: _ => if n ≠ 2 then .error .assertionError else
    match con with
    | .coord k v => do
      let dir := directions c points false
      let d ← v.op (· - ·) (scalar ((offset c).at_ [k]))
      let f ← d.op (· / ·) (dir.last k)
      let p ← if f.shape = [] then plain c dir f else perRow c dir f
      mask p f
    | .distNum d => do
      let p ← plain c (directions c points true) (scalar d)
      mask p (scalar d)
    | .distList d => do
      let _ ← plain c (directions c points true) d
      .error .typeError
    | .distArr d => do
      let p ← perRow c (directions c points true) d
      mask p d

/-- `np.array(l).T`: all arrays need to have the same shape.  Simplified: old versions of numpy make an array of objects
instead of raising ValueError. -/
def stackT (l : List Nd) : Except PyErr Nd := match l with
  | [] => .ok ⟨[0], fun _ => .nan⟩
  | a :: _ => if ∀ b ∈ l, b.shape = a.shape then
      .ok ⟨l.length :: a.shape.reverse, fun i => match i with
        | [] => .nan
        | k :: i => match l[k]? with
          | some b => b.at_ i.reverse
          | none => .nan⟩
    else .error .valueError

/-- gps.py:397-458 `moveDistance` from one start point for arrays of distances and bearings of the same shape. -/
noncomputable def moveDistance (start : Gps.Pt) (distance bearing : Nd) : Except PyErr Nd :=
  let t := fun i => Gps.moveDistance start (distance.at_ i) (bearing.at_ i)
  let lat : Nd := ⟨distance.shape, fun i => (t i).lat⟩
  let lon : Nd := ⟨distance.shape, fun i => (t i).lon⟩
  match start.h with
  | some h => stackT [lat, lon, ⟨distance.shape, fun _ => h⟩]
  | none => stackT [lat, lon]

/-- gps.py:471-477 `gpsFromSpace` for an array of points. -/
noncomputable def gpsFromSpace (space : Nd) (gps0 : Gps.Pt) : Except PyErr Nd := do
  let bearing : Nd := ⟨space.shape.tail, fun i => Num.rad2deg (Num.arctan2 (space.at_ (0 :: i)) (space.at_ (1 :: i)))⟩
  let distance : Nd := ⟨space.shape.tail, fun i => Gps.norm2 (space.at_ (0 :: i)) (space.at_ (1 :: i))⟩
  let target ← moveDistance gps0 distance bearing
  if space.shape.head? = some 3 then stackT [target.last 0, target.last 1, space.last 2] else .ok target

/-- A point of an array of gps points with two or three columns. -/
def ptAt (gps : Nd) (i : List ℕ) : Gps.Pt :=
  ⟨gps.at_ (0 :: i), gps.at_ (1 :: i), if gps.shape.headD 0 < 3 then none else some (gps.at_ (2 :: i))⟩

/-- gps.py:461-468 `spaceFromGPS` for an array of points; `len(gps[..., :])` (line 462) is the size of the first axis. -/
noncomputable def spaceFromGPS (gps : Nd) (gps0 : Gps.Pt) : Except PyErr Nd := do
  let height : Nd ←
    if gps.shape.getLast? = some 2 then .ok ⟨gps.shape.tail, fun _ => fin 0⟩
    else if gps.shape.headD 0 < 3 then .error .indexError
    else .ok (gps.last 2)
  let x : Nd := ⟨gps.shape.tail, fun i => (Gps.spaceRow gps0 (ptAt gps i) (fin 0)).x⟩
  let y : Nd := ⟨gps.shape.tail, fun i => (Gps.spaceRow gps0 (ptAt gps i) (fin 0)).y⟩
  stackT [x, y, height]

end Batch
