import Verif.Spec.Camera

/-! # Straight lines, distances from the camera along the ground and moving the camera -/

open Classical Camera

/-- Three points of the picture are on one straight line. -/
def Lines.Straight (a b c : V2 ℝ) : Prop := (b.x - a.x) * (c.y - a.y) = (b.y - a.y) * (c.x - a.x)

/-- The point `t` of the way from `P` to `Q`. -/
def Lines.along (P Q : V3 ℝ) (t : ℝ) : V3 ℝ := ⟨P.x + t * (Q.x - P.x), P.y + t * (Q.y - P.y), P.z + t * (Q.z - P.z)⟩

/-- How far a point is ahead of the camera: its horizontal distance from the camera in the direction of the heading (heading 0 is along y,
heading 90 along x). -/
noncomputable def Lines.ahead (o : Spatial.Params) (P : V3 ℝ) : ℝ :=
  Real.sin (o.heading_deg * Real.pi / 180) * (P.x - o.pos_x_m) + Real.cos (o.heading_deg * Real.pi / 180) * (P.y - o.pos_y_m)

/-- How far a point is to the right of the heading. -/
noncomputable def Lines.aside (o : Spatial.Params) (P : V3 ℝ) : ℝ :=
  Real.cos (o.heading_deg * Real.pi / 180) * (P.x - o.pos_x_m) - Real.sin (o.heading_deg * Real.pi / 180) * (P.y - o.pos_y_m)

/-- The camera after `pos_x_m`, `pos_y_m` and `elevation_m` were increased by `d`. -/
def Lines.movedOrient (d : V3 ℝ) : Orient → Orient
  | .thr p => .thr { p with pos_x_m := p.pos_x_m + d.x, pos_y_m := p.pos_y_m + d.y, elevation_m := p.elevation_m + d.z }
  | .ypr p => .ypr { p with pos_x_m := p.pos_x_m + d.x, pos_y_m := p.pos_y_m + d.y, elevation_m := p.elevation_m + d.z }

/-- The moved camera. -/
def Lines.moved (c : Cam) (d : V3 ℝ) : Cam := { c with orient := movedOrient d c.orient }
