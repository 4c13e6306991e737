import Verif.Spec.Persist

/-! # What loading any file should give (C164) -/

set_option linter.constructorNameAsVariable false

open Classical

namespace Persist

open Sys

/-- The parameters of a camera that was just made by `load`, by name, with their values: an image of 100 x 50 px with a
focal length of 100 px and the standard orientation. -/
noncomputable def initialTable (kl : LKind) : List (String × ℝ) :=
  ([("gps_lat", 0), ("gps_lon", 0),
   ("focallength_x_px", 100), ("focallength_y_px", 100), ("center_x_px", 50), ("center_y_px", 25), ("image_height_px", 50),
   ("image_width_px", 100), ("sensor_height_mm", 13), ("sensor_width_mm", 17.3), ("focallength_px", 100),
   ("elevation_m", 30), ("tilt_deg", 85), ("roll_deg", 0), ("heading_deg", 0), ("pos_x_m", 0), ("pos_y_m", 0)] : List (String × ℝ)) ++
  match kl with
  | .none => []
  | .brown => [("k1", 0), ("k2", 0), ("k3", 0)]
  | .abc => [("a", 0), ("b", 0), ("c", 0)]

/-- The keys of a file that set the parameter `n`. -/
def sources (n : String) : List String :=
  if n = "focallength_x_px" ∨ n = "focallength_y_px" then [n, "focallength_px"] else [n]

/-- The last value in the file under one of the given keys. -/
def lastIn (vals : List (String × ℝ)) (ns : List String) : Option ℝ :=
  (vals.reverse.find? fun nx => nx.1 ∈ ns).map Prod.snd

/-- A heading of more than a turn is reduced. -/
noncomputable def reduced (n : String) (x : ℝ) : ℝ := if n = "heading_deg" ∧ Out x then x - 360 * ⌊x / 360⌋ else x

/-- The value of the parameter `n` after loading a file; `none` if the camera has no such parameter. -/
noncomputable def loadedValue (kl : LKind) (vals : List (String × ℝ)) (n : String) : Option ℝ :=
  ((initialTable kl).lookup n).map fun d => match lastIn vals (sources n) with
    | some x => reduced n x
    | none => d

/-- The camera a file describes. -/
noncomputable def described (spline : LensModel.Spline) (kp : Projection.Kind) (kl : LKind) (vals : List (String × ℝ)) : Camera.Cam :=
  let v := fun n => (loadedValue kl vals n).getD 0
  let I : Projection.Intr := ⟨v "focallength_x_px", v "focallength_y_px", v "center_x_px", v "center_y_px", v "image_width_px", v "image_height_px"⟩
  { kind := kp
    intr := I
    orient := .thr ⟨v "elevation_m", v "tilt_deg", v "roll_deg", v "heading_deg", v "pos_x_m", v "pos_y_m"⟩
    lens := match kl with
      | .none => Camera.noDistortion
      | .brown => (LensModel.brown spline I (v "k1") (v "k2") (v "k3")).lens
      | .abc => (LensModel.abc spline I (v "a") (v "b") (v "c")).lens }

end Persist
