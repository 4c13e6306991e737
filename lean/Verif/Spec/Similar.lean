import Verif.Spec.Lines
import Verif.Spec.Epipolar

/-! # Changing the whole world: specification -/

open Classical Camera

/-- The camera `c'` is the camera `c` after the world was changed by `T` and lengths were multiplied by `s`: it has the same projection and
lens, and sees everything where it was seen before, at `s` times the distance. -/
def Similar.Carried (T : V3 ℝ → V3 ℝ) (s : ℝ) (c c' : Cam) : Prop :=
  c'.kind = c.kind ∧ c'.intr = c.intr ∧ c'.lens = c.lens ∧
    ∀ P Q : V3 ℝ, (Spatial.cameraFromSpace c.orient.mat P.num).Is Q → (Spatial.cameraFromSpace c'.orient.mat (T P).num).Is (Q.mulS s)

/-- The viewing ray of the pixel `q` of the first camera does not pass through the second camera, and its points at depth 1 and 2
are in front of the second camera. -/
def Similar.Ahead (c1 c2 : Cam) (q : V2 ℝ) : Prop :=
  ∃ d : V3 ℝ, (getRay c1 q.num).2.Is d ∧ V3.cross d (c1.orient.pos - c2.orient.pos) ≠ ⟨0, 0, 0⟩ ∧
    InFront c2 (c1.orient.pos + d) ∧ InFront c2 (c1.orient.pos + d.mulS 2)

/-- The orientation with the position multiplied by `k`. -/
def Similar.scaledOrient (k : ℝ) : Orient → Orient
  | .thr p => .thr { p with pos_x_m := k * p.pos_x_m, pos_y_m := k * p.pos_y_m, elevation_m := k * p.elevation_m }
  | .ypr p => .ypr { p with pos_x_m := k * p.pos_x_m, pos_y_m := k * p.pos_y_m, elevation_m := k * p.elevation_m }

/-- The camera with the position multiplied by `k`. -/
def Similar.scaled (c : Cam) (k : ℝ) : Cam := { c with orient := scaledOrient k c.orient }
