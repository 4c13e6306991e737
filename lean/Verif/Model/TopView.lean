import Verif.Model.View

/-! # Model of the cached maps of `cameratransform/camera.py`: top views and undistorted images

The casts to float32 (lines 1306, 1395) and the interpolation of `cv2.remap` are not modelled. -/

open Classical

namespace TopView

open Camera View

/-- `[x_min, x_max, y_min, y_max]`. -/
@[ext] structure Extent where
  x0 : ℝ
  x1 : ℝ
  y0 : ℝ
  y1 : ℝ

/-- What the modelled functions raise. -/
inductive Err where
  /-- `np.arange` with step 0. -/
  | zeroDivision
  /-- `np.nanmin` of an empty array, or an array of the wrong shape. -/
  | index
  /-- The square root of a negative number is nan; `np.arange` with step nan raises ValueError. -/
  | value
deriving DecidableEq

/-- `np.meshgrid(np.arange(x0, x1, s), np.arange(y0, y1, s))` by rows: one row per y. -/
noncomputable def mesh (e : Extent) (s : ℝ) : List (List (V2 ℝ)) :=
  (arange e.y0 e.y1 s).map fun y => (arange e.x0 e.x1 s).map fun x => ⟨x, y⟩

/-- camera.py:1384-1395: the map of the top view; the rows are reversed (`[:, ::-1, :]`). -/
noncomputable def topMap (c : Cam) (e : Extent) (s Z : ℝ) (hide : Bool) : List (List (V2 Num)) :=
  ((mesh e s).map fun r => r.map fun p => imageFromSpace c ⟨.fin p.x, .fin p.y, .fin Z⟩ hide).reverse

/-- camera.py:1296-1306: the map for undistorting. -/
noncomputable def undistortMap (c : Cam) (e : Extent) (s : ℝ) : List (List (V2 Num)) :=
  ((mesh e s).map fun r => r.map fun p => c.lens.distortedFromImage p.num).reverse

/-- The smallest entry of a list (`np.nanmin`; the arrays here contain no nan). -/
noncomputable def nanmin : List ℝ → Option ℝ
  | [] => none
  | x :: xs => some (xs.foldl min x)

/-- The largest entry of a list. -/
noncomputable def nanmax : List ℝ → Option ℝ
  | [] => none
  | x :: xs => some (xs.foldl max x)

/-- camera.py:1367-1370: the default extent of the top view. -/
noncomputable def defaultExtent (c : Cam) : Option Extent := do
  let border := imageBorder c.intr.w c.intr.h 1
  let x0 ← nanmin (border.map V2.x)
  let x1 ← nanmax (border.map V2.x)
  let y0 ← nanmin (border.map V2.y)
  let y1 ← nanmax (border.map V2.y)
  return ⟨x0, x1, y0, y1⟩

/-- camera.py:1380-1381: the default scaling of the top view; `none` is nan, if one of the products is negative.  Simplified: images
without pixels are treated in the same way; in the code their scaling is inf and their map empty, if the extent is not empty. -/
noncomputable def defaultScaling (c : Cam) (e : Extent) : Option ℝ :=
  if 0 ≤ (e.x1 - e.x0) * (e.y1 - e.y0) ∧ 0 < c.intr.w * c.intr.h then
    some (Real.sqrt ((e.x1 - e.x0) * (e.y1 - e.y0)) / Real.sqrt (c.intr.w * c.intr.h))
  else none

/-- An extent argument: a list object of the caller. -/
abbrev Ref := ℕ

/-- The extent the cache remembers: a list object of the caller (line 1397 keeps a reference), or the list
made by the function itself, to which nobody else has access. -/
inductive Kept where
  | ref (r : Ref)
  | own (e : Extent)

/-- One cache (`map`, `last_extent`, `last_scaling`). -/
structure Cache where
  map : List (List (V2 Num))
  extent : Kept
  scaling : ℝ

/-- The parts of a camera object, and of the caller's memory, the two functions depend on. -/
structure State where
  /-- the values of the parameters -/
  cam : Cam
  /-- the contents of the caller's lists -/
  heap : Ref → Extent
  /-- `map`, `last_extent`, `last_scaling` -/
  top : Option Cache := none
  /-- `map_undistort`, `last_extent_undistort`, `last_scaling_undistort` -/
  undist : Option Cache := none

/-- The present contents of the remembered extent. -/
def Kept.now (heap : Ref → Extent) : Kept → Extent
  | .ref r => heap r
  | .own e => e

/-- camera.py:1373-1375, 1290-1292: the test for the cached map. -/
noncomputable def hit (s : State) (cache : Option Cache) (e : Extent) (scaling : Option ℝ) : Option Cache :=
  match cache with
  | none => none
  | some k => if k.extent.now s.heap = e ∧ some k.scaling = scaling then some k else none

/-- The arguments of `getTopViewOfImage` that concern the map. -/
structure Args where
  extent : Option Ref := none
  scaling : Option ℝ := none
  Z : ℝ := 0
  hide : Bool := true

/-- camera.py:1365-1401 `_getMap`: the state afterwards, the map and whether it was computed. -/
noncomputable def getMap (s : State) (a : Args) : Except Err (State × List (List (V2 Num)) × Bool) :=
  match (match a.extent with
    | none => (defaultExtent s.cam).map fun e => (e, Kept.own e)
    | some r => some (s.heap r, Kept.ref r)) with
  | none => .error .index
  | some (e, kept) =>
    match hit s s.top e a.scaling with
    | some k => .ok (s, k.map, false)
    | none =>
      match (match a.scaling with
        | none => defaultScaling s.cam e
        | some v => some v) with
      | none => .error .value
      | some v =>
        if v = 0 then .error .zeroDivision
        else
          let m := topMap s.cam e v a.Z a.hide
          .ok ({ s with top := some ⟨m, kept, v⟩ }, m, true)

/-- camera.py:1280-1312 `_getUndistortMap`. -/
noncomputable def getUndistortMap (s : State) (extent : Option Ref) (scaling : Option ℝ) :
    Except Err (State × List (List (V2 Num)) × Bool) :=
  let (e, kept) : Extent × Kept := match extent with
    | none => (⟨0, s.cam.intr.w, 0, s.cam.intr.h⟩, .own ⟨0, s.cam.intr.w, 0, s.cam.intr.h⟩)
    | some r => (s.heap r, .ref r)
  let v := scaling.getD 1
  match hit s s.undist e (some v) with
  | some k => .ok (s, k.map, false)
  | none =>
    if v = 0 then .error .zeroDivision
    else
      let m := undistortMap s.cam e v
      .ok ({ s with undist := some ⟨m, kept, v⟩ }, m, true)

/-- The pixels `cv2.remap` returns; `sample` reads the image at a position. -/
def remap {α : Type} (sample : V2 Num → α) (m : List (List (V2 Num))) : List (List α) :=
  m.map fun r => r.map sample

/-- camera.py:1444, 1450-1456 `getTopViewOfImage`: the returned pixels. -/
noncomputable def topView {α : Type} (s : State) (sample : V2 Num → α) (a : Args) :
    Except Err (State × List (List α)) := do
  let (s, m, _) ← getMap s a
  return (s, remap sample m)

/-- camera.py:1349, 1355-1363 `undistortImage`: the rows are reversed again. -/
noncomputable def undistort {α : Type} (s : State) (sample : V2 Num → α) (extent : Option Ref)
    (scaling : Option ℝ) : Except Err (State × List (List α)) := do
  let (s, m, _) ← getUndistortMap s extent scaling
  return (s, (remap sample m).reverse)

/-- What a program does with a camera between the calls. -/
inductive Op where
  /-- any assignment, load or fit that changes parameter values -/
  | setCam (c : Cam)
  /-- the caller changes the contents of a list -/
  | write (r : Ref) (e : Extent)
  | top (a : Args)
  | undistort (extent : Option Ref) (scaling : Option ℝ)

/-- The state after an operation; a call that raises leaves the state as it was. -/
noncomputable def step (s : State) : Op → State
  | .setCam c => { s with cam := c }
  | .write r e => { s with heap := fun q => if q = r then e else s.heap q }
  | .top a => match getMap s a with
    | .ok (t, _) => t
    | .error _ => s
  | .undistort e v => match getUndistortMap s e v with
    | .ok (t, _) => t
    | .error _ => s

/-- The state after a list of operations. -/
noncomputable def run (s : State) (ops : List Op) : State := ops.foldl step s

end TopView
