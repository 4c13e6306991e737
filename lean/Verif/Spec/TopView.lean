import Verif.Model.TopView

/-! # Specification of the maps for top views and undistorted images -/

/-- The orientation of a camera moved by `dx` in the x direction. -/
def Camera.Orient.moved (dx : ℝ) : Camera.Orient → Camera.Orient
  | .thr p => .thr { p with pos_x_m := p.pos_x_m + dx }
  | .ypr p => .ypr { p with pos_x_m := p.pos_x_m + dx }

/-- The camera moved by `dx` in the x direction. -/
def Camera.Cam.moved (c : Camera.Cam) (dx : ℝ) : Camera.Cam := { c with orient := c.orient.moved dx }

namespace TopView

open Camera View

/-- The extent a call asks for. -/
def WantedExtent (s : State) (extent : Option Ref) (dflt : Option Extent) (e : Extent) : Prop :=
  match extent with
  | some r => s.heap r = e
  | none => dflt = some e

/-- The scaling a call asks for. -/
def WantedScaling (scaling : Option ℝ) (dflt : Option ℝ) (v : ℝ) : Prop :=
  match scaling with
  | some u => u = v
  | none => dflt = some v

/-- The map for the present camera, the present contents of the extent and the arguments of the call. -/
def RightMap (s : State) (a : Args) (m : List (List (V2 Num))) : Prop :=
  ∃ e v, WantedExtent s a.extent (defaultExtent s.cam) e ∧ WantedScaling a.scaling (defaultScaling s.cam e) v ∧
    m = topMap s.cam e v a.Z a.hide

/-- The map for undistorting with the present lens. -/
def RightUndistort (s : State) (extent : Option Ref) (scaling : Option ℝ) (m : List (List (V2 Num))) : Prop :=
  ∃ e v, WantedExtent s extent (some ⟨0, s.cam.intr.w, 0, s.cam.intr.h⟩) e ∧ WantedScaling scaling (some 1) v ∧
    m = undistortMap s.cam e v

/-- An operation that keeps the camera `c`, uses one height and one treatment of points behind the camera for
all top views, and does not change a list of the set `U` from which all extents are taken. -/
def Quiet (c : Cam) (Z : ℝ) (hide : Bool) (U : Set Ref) : Op → Prop
  | .setCam c' => c' = c
  | .write r _ => r ∉ U
  | .top a => a.Z = Z ∧ a.hide = hide ∧ ∀ r, a.extent = some r → r ∈ U
  | .undistort _ _ => True

/-- An operation that keeps the lens `L` and does not change a list of the set `U` from which the extents for
undistorting are taken. -/
def QuietLens (L : Lens) (U : Set Ref) : Op → Prop
  | .setCam c' => c'.lens = L
  | .write r _ => r ∉ U
  | .top _ => True
  | .undistort e _ => ∀ r, e = some r → r ∈ U

end TopView
