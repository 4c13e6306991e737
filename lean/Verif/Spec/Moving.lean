import Verif.Spec.Turned
import Mathlib.Topology.Algebra.Order.Field

/-! # Cameras whose parameters change continuously -/

open Camera Topology

namespace Moving

variable {X : Type} [TopologicalSpace X]

/-- A point that moves continuously at `x`. -/
def Point (P : X → V3 ℝ) (x : X) : Prop :=
  ContinuousAt (fun x => (P x).x) x ∧ ContinuousAt (fun x => (P x).y) x ∧ ContinuousAt (fun x => (P x).z) x

/-- A pixel that moves continuously at `x`. -/
def Pixel (p : X → V2 ℝ) (x : X) : Prop := ContinuousAt (fun x => (p x).x) x ∧ ContinuousAt (fun x => (p x).y) x

/-- Intrinsic parameters that change continuously at `x`. -/
def Intr (I : X → Projection.Intr) (x : X) : Prop :=
  ContinuousAt (fun x => (I x).fx) x ∧ ContinuousAt (fun x => (I x).fy) x ∧ ContinuousAt (fun x => (I x).cx) x ∧ ContinuousAt (fun x => (I x).cy) x ∧
    ContinuousAt (fun x => (I x).w) x ∧ ContinuousAt (fun x => (I x).h) x

/-- An orientation whose six parameters change continuously at `x`. -/
def Orient (o : X → Camera.Orient) (x : X) : Prop :=
  (∃ p : X → Spatial.Params, (∀ x, o x = .thr (p x)) ∧ ContinuousAt (fun x => (p x).elevation_m) x ∧ ContinuousAt (fun x => (p x).tilt_deg) x ∧
    ContinuousAt (fun x => (p x).roll_deg) x ∧ ContinuousAt (fun x => (p x).heading_deg) x ∧ ContinuousAt (fun x => (p x).pos_x_m) x ∧
    ContinuousAt (fun x => (p x).pos_y_m) x) ∨
  (∃ p : X → Spatial.ParamsYPR, (∀ x, o x = .ypr (p x)) ∧ ContinuousAt (fun x => (p x).elevation_m) x ∧ ContinuousAt (fun x => (p x).yaw_deg) x ∧
    ContinuousAt (fun x => (p x).pitch_deg) x ∧ ContinuousAt (fun x => (p x).roll_deg) x ∧ ContinuousAt (fun x => (p x).pos_x_m) x ∧
    ContinuousAt (fun x => (p x).pos_y_m) x)

/-- A lens whose parameters change continuously at `x`. -/
def Lens (L : X → Turned.Choice) (x : X) : Prop :=
  (∀ x, L x = .none) ∨
  (∃ a b c : X → ℝ, (∀ x, L x = .brown (a x) (b x) (c x)) ∧ ContinuousAt a x ∧ ContinuousAt b x ∧ ContinuousAt c x) ∨
  (∃ a b c : X → ℝ, (∀ x, L x = .abc (a x) (b x) (c x)) ∧ ContinuousAt a x ∧ ContinuousAt b x ∧ ContinuousAt c x)

/-- The point is away from the plane of the camera; in front of a rectilinear camera, and not at the cut of a panorama. -/
def Clear (k : Projection.Kind) (o : Camera.Orient) (P : V3 ℝ) : Prop :=
  ∃ C : V3 ℝ, (Spatial.cameraFromSpace o.mat P.num).Is C ∧ Projection.minDepth < |C.z| ∧
    match k with
    | .rectilinear => C.z < 0
    | _ => C.x ≠ 0 ∨ C.z < 0

end Moving
