import Verif.Spec.Camera
import Verif.Model.Lens

/-! # Turning, zooming and shifting a picture -/

open Camera

namespace Turned

/-- A lens class with its parameters. -/
inductive Choice where
  | none
  | brown (k1 k2 k3 : ℝ)
  | abc (a b c : ℝ)

/-- The lens of a camera with the given intrinsic parameters. -/
noncomputable def Choice.lens (spline : LensModel.Spline) (I : Projection.Intr) : Choice → Lens
  | .none => noDistortion
  | .brown k1 k2 k3 => (LensModel.brown spline I k1 k2 k3).lens
  | .abc a b c => (LensModel.abc spline I a b c).lens

/-- The scale of the lens is not zero. -/
def Choice.Usable (I : Projection.Intr) : Choice → Prop
  | .none => True
  | .brown _ _ _ => I.fx ≠ 0 ∧ I.fy ≠ 0
  | .abc _ _ _ => 0 < I.w ∧ 0 < I.h

/-- The orientation after `roll_deg` was increased by `d`. -/
def rolled (d : ℝ) : Orient → Orient
  | .thr p => .thr { p with roll_deg := p.roll_deg + d }
  | .ypr p => .ypr { p with roll_deg := p.roll_deg + d }

/-- The angle by which the picture turns, clockwise (the y axis of a picture points down). -/
noncomputable def angle (d : ℝ) : Orient → ℝ
  | .thr _ => d * Real.pi / 180
  | .ypr _ => -(d * Real.pi / 180)

/-- `q` turned around `m` by the angle `a`. -/
noncomputable def turn (m : V2 ℝ) (a : ℝ) (q : V2 ℝ) : V2 ℝ :=
  ⟨m.x + Real.cos a * (q.x - m.x) - Real.sin a * (q.y - m.y), m.y + Real.sin a * (q.x - m.x) + Real.cos a * (q.y - m.y)⟩

/-- The camera looks horizontally and is upright. -/
def Level : Orient → Prop
  | .thr p => p.tilt_deg = 90 ∧ p.roll_deg = 0
  | .ypr p => p.pitch_deg = 0 ∧ p.roll_deg = 0

/-- The orientation after `heading_deg` or `yaw_deg` was increased by `d`. -/
def panned (d : ℝ) : Orient → Orient
  | .thr p => .thr { p with heading_deg := p.heading_deg + d }
  | .ypr p => .ypr { p with yaw_deg := p.yaw_deg + d }

end Turned

