import Verif.Spec.Camera

/-! # Projective maps between pictures -/

open Camera

namespace Warp

/-- `q` is the image of `p` under the projective map with the matrix `H`. -/
def To (H : M3) (p q : V2 ℝ) : Prop :=
  (H.applyR ⟨p.x, p.y, 1⟩).z ≠ 0 ∧ q.x * (H.applyR ⟨p.x, p.y, 1⟩).z = (H.applyR ⟨p.x, p.y, 1⟩).x ∧
    q.y * (H.applyR ⟨p.x, p.y, 1⟩).z = (H.applyR ⟨p.x, p.y, 1⟩).y

/-- Four numbers have the same cross ratio as four others: `(u₀ - u₂)(u₁ - u₃) / ((u₀ - u₃)(u₁ - u₂))`, without divisions. -/
def SameCross (u t : Fin 4 → ℝ) : Prop :=
  (u 0 - u 2) * (u 1 - u 3) * ((t 0 - t 3) * (t 1 - t 2)) = (u 0 - u 3) * (u 1 - u 2) * ((t 0 - t 2) * (t 1 - t 3))

/-- The camera looks straight down. -/
def Down : Orient → Prop
  | .thr p => p.tilt_deg = 0
  | .ypr p => p.pitch_deg = -90

/-- The angle by which the picture of a camera looking down is turned. -/
def turn : Orient → ℝ
  | .thr p => p.heading_deg - p.roll_deg
  | .ypr p => p.yaw_deg + p.roll_deg

end Warp
