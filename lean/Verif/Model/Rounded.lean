import Verif.Model.Camera

/-! # Model of the projection and of the orientation with rounding errors

The other files compute with exact numbers.  Here every operation on finite numbers returns some number whose relative error is at most `u`:
the functions are relations between the arguments and the possible results.  For doubles `u = 2 ^ -53` holds for
`+ - * /` and `sqrt`; the functions `sin` and `cos` of numpy need a few units more.  A fused multiplication and addition is covered, as an
error may be 0.  Not modelled: overflow and underflow. -/

open Classical

namespace Rounded

open Projection

/-- `y` is a possible result of an operation with the exact result `x`. -/
def Rd (u x y : ℝ) : Prop := |y - x| ≤ u * |x|

/-- The sum of three numbers, in any order (`np.dot` does not specify the order). -/
def Sum3 (u a b c y : ℝ) : Prop :=
  (∃ s, Rd u (a + b) s ∧ Rd u (s + c) y) ∨ (∃ s, Rd u (b + c) s ∧ Rd u (a + s) y) ∨
    ∃ s, Rd u (a + c) s ∧ Rd u (s + b) y

/-- One entry of the result of `np.dot`. -/
def Dot (u : ℝ) (p q : V3 ℝ) (y : ℝ) : Prop :=
  ∃ a b c, Rd u (p.x * q.x) a ∧ Rd u (p.y * q.y) b ∧ Rd u (p.z * q.z) c ∧ Sum3 u a b c y

/-- projection.py:387-388: `ray /= np.linalg.norm(ray, axis=-1)[..., None]`. -/
def Normed (u : ℝ) (v q : V3 ℝ) : Prop :=
  ∃ s n, Dot u v v s ∧ Rd u (Real.sqrt s) n ∧ Rd u (v.x / n) q.x ∧ Rd u (v.y / n) q.y ∧ Rd u (v.z / n) q.z

/-- projection.py:379-390 `RectilinearProjection.getRay`. -/
def RayRect (u : ℝ) (I : Intr) (p : V2 ℝ) (normed : Bool) (out : V3 ℝ) : Prop :=
  ∃ a b c d, Rd u (p.x - I.cx) a ∧ Rd u (-a / I.fx) b ∧ Rd u (p.y - I.cy) c ∧ Rd u (c / I.fy) d ∧
    if normed then ∃ q, Normed u ⟨b, d, 1⟩ q ∧ out = -q else out = -⟨b, d, 1⟩

/-- projection.py:392-408 `RectilinearProjection.imageFromCamera`; after the reset of line 400 the result is 0/0. -/
def ImageRect (u : ℝ) (I : Intr) (P : V3 ℝ) (hide : Bool) (out : V2 Num) : Prop :=
  if |P.z| < 1 / 10 ^ 10 then out = V2.nan
  else if hide = true ∧ 0 < P.z then out = V2.nan
  else ∃ a b x c d y, Rd u (-P.x * I.fx) a ∧ Rd u (a / P.z) b ∧ Rd u (b + I.cx) x ∧
    Rd u (P.y * I.fy) c ∧ Rd u (c / P.z) d ∧ Rd u (d + I.cy) y ∧ out.Is ⟨x, y⟩

/-- `np.deg2rad`: the multiplication with the constant `pi / 180`. -/
def Deg2rad (u d y : ℝ) : Prop := ∃ k c, Rd u Real.pi k ∧ Rd u (k / 180) c ∧ Rd u (d * c) y

/-- `np.dot` of two 3x3 matrices. -/
def Mul (u : ℝ) (A B C : M3) : Prop :=
  Dot u A.r0 B.T.r0 C.r0.x ∧ Dot u A.r0 B.T.r1 C.r0.y ∧ Dot u A.r0 B.T.r2 C.r0.z ∧
  Dot u A.r1 B.T.r0 C.r1.x ∧ Dot u A.r1 B.T.r1 C.r1.y ∧ Dot u A.r1 B.T.r2 C.r1.z ∧
  Dot u A.r2 B.T.r0 C.r2.x ∧ Dot u A.r2 B.T.r1 C.r2.y ∧ Dot u A.r2 B.T.r2 C.r2.z

/-- spatial.py:119-129, 268-278: the rotation matrix of three angles. -/
def RotationOf (u roll tilt heading : ℝ) (R : M3) : Prop :=
  ∃ cr sr ct st ch sh, Rd u (Real.cos roll) cr ∧ Rd u (Real.sin roll) sr ∧ Rd u (Real.cos tilt) ct ∧
    Rd u (Real.sin tilt) st ∧ Rd u (Real.cos heading) ch ∧ Rd u (Real.sin heading) sh ∧
  ∃ M, Mul u ⟨⟨cr, sr, 0⟩, ⟨-sr, cr, 0⟩, ⟨0, 0, 1⟩⟩ ⟨⟨1, 0, 0⟩, ⟨0, ct, st⟩, ⟨0, -st, ct⟩⟩ M ∧
    Mul u M ⟨⟨ch, -sh, 0⟩, ⟨sh, ch, 0⟩, ⟨0, 0, 1⟩⟩ R

/-- spatial.py:110-129, 259-278: the rotation matrix of an orientation.  The heading (pitch) is the one after lines 108-109 (257-258). -/
def Rotation (u : ℝ) (o : Camera.Orient) (R : M3) : Prop :=
  match o with
  | .thr p => ∃ tilt roll heading, Deg2rad u p.tilt_deg tilt ∧ Deg2rad u p.roll_deg roll ∧ Deg2rad u p.heading_deg heading ∧
      RotationOf u roll tilt heading R
  | .ypr p => ∃ k pitch tilt roll yaw, Rd u Real.pi k ∧ Deg2rad u p.pitch_deg pitch ∧ Rd u (k / 2 + pitch) tilt ∧
      Deg2rad u p.roll_deg roll ∧ Deg2rad u p.yaw_deg yaw ∧ RotationOf u (-roll) tilt yaw R

/-- spatial.py:163-164 `cameraFromSpace`, for one row. -/
def CameraFromSpace (u : ℝ) (t : V3 ℝ) (R : M3) (p out : V3 ℝ) : Prop :=
  ∃ d : V3 ℝ, Rd u (p.x - t.x) d.x ∧ Rd u (p.y - t.y) d.y ∧ Rd u (p.z - t.z) d.z ∧
    Dot u d R.r0 out.x ∧ Dot u d R.r1 out.y ∧ Dot u d R.r2 out.z

/-- camera.py:1005 `imageFromSpace` of a rectilinear camera without lens distortion, at the position `t` and with the computed rotation matrix `R`. -/
def ImageFromSpace (u : ℝ) (I : Intr) (t : V3 ℝ) (R : M3) (P : V3 ℝ) (hide : Bool) (out : V2 Num) : Prop :=
  ∃ q, CameraFromSpace u t R P q ∧ ImageRect u I q hide out

/-- camera.py:1053 and spatial.py:200-201: the direction of the ray of a pixel in space.  `Rinv` is the result of `np.linalg.inv`
(spatial.py:130), whose algorithm is not modelled. -/
def Direction (u : ℝ) (I : Intr) (Rinv : M3) (p : V2 ℝ) (normed : Bool) (out : V3 ℝ) : Prop :=
  ∃ r, RayRect u I p normed r ∧ Dot u r Rinv.r0 out.x ∧ Dot u r Rinv.r1 out.y ∧ Dot u r Rinv.r2 out.z

/-- camera.py:1149-1157: the point for a factor.  The offset is the position `t`, as `np.dot([0, 0, 0], R) + t` is computed without errors. -/
def PointAt (u : ℝ) (t dir : V3 ℝ) (f : ℝ) (out : V3 Num) : Prop :=
  if f < 0 then out = V3.nan
  else ∃ a b c x y z, Rd u (dir.x * f) a ∧ Rd u (a + t.x) x ∧ Rd u (dir.y * f) b ∧ Rd u (b + t.y) y ∧
    Rd u (dir.z * f) c ∧ Rd u (c + t.z) z ∧ out.Is ⟨x, y, z⟩

/-- camera.py:1142-1157 `spaceFromImage` of a rectilinear camera without lens distortion, when the coordinate `i` is given.  Not modelled: rays
parallel to the plane, whose factor is infinite. -/
def SpaceFromImage (u : ℝ) (I : Intr) (t : V3 ℝ) (Rinv : M3) (p : V2 ℝ) (i : Fin 3) (v : ℝ) (out : V3 Num) : Prop :=
  ∃ dir a f, Direction u I Rinv p false dir ∧ Rd u (v - t.get i) a ∧ Rd u (a / dir.get i) f ∧ PointAt u t dir f out

/-- camera.py:1137-1157 `spaceFromImage` of a rectilinear camera without lens distortion, when the distance is given. -/
def SpaceFromImageD (u : ℝ) (I : Intr) (t : V3 ℝ) (Rinv : M3) (p : V2 ℝ) (D : ℝ) (out : V3 Num) : Prop :=
  ∃ dir, Direction u I Rinv p true dir ∧ PointAt u t dir D out

/-- `np.arctan2(y, x)` for finite `x` other than 0.  The sign of a zero `y`, which decides between a half turn to the left and to the right, is
left open. -/
def Arctan2 (u y x out : ℝ) : Prop := Rd u (Complex.arg ⟨x, y⟩) out ∨ y = 0 ∧ x < 0 ∧ Rd u (-Real.pi) out

/-- projection.py:451-466, 529-544 `getRay` of the two projections for panoramas; multiplications with `r = 1` have no error. -/
def RayPan (u : ℝ) (k : Kind) (I : Intr) (p : V2 ℝ) (normed : Bool) (out : V3 ℝ) : Prop :=
  ∃ a α s z b β y, Rd u (p.x - I.cx) a ∧ Rd u (a / I.fx) α ∧ Rd u (Real.sin α) s ∧ Rd u (Real.cos α) z ∧
    Rd u (p.y - I.cy) b ∧ Rd u (b / I.fy) β ∧ (match k with | .equirectangular => Rd u (Real.tan β) y | _ => y = β) ∧
    if normed then ∃ q, Normed u ⟨-s, y, z⟩ q ∧ out = -q else out = -⟨-s, y, z⟩

/-- `np.sqrt(x ** 2 + z ** 2)`. -/
def Hyp (u x z out : ℝ) : Prop := ∃ a b c, Rd u (x ^ 2) a ∧ Rd u (z ^ 2) b ∧ Rd u (a + b) c ∧ Rd u (Real.sqrt c) out

/-- projection.py:468-487, 546-563 `imageFromCamera` of the two projections for panoramas.  After the reset of line 477 the cylindrical result is
0/0; after the one of line 555 the horizontal angle is `arctan2(-0., -0.)`, minus half a turn. -/
def ImagePan (u : ℝ) (k : Kind) (I : Intr) (P : V3 ℝ) (out : V2 Num) : Prop :=
  if |P.z| < 1 / 10 ^ 10 then
    match k with
    | .equirectangular => ∃ h b x, Rd u (-Real.pi) h ∧ Rd u (-I.fx * h) b ∧ Rd u (b + I.cx) x ∧ out.Is ⟨x, I.cy⟩
    | _ => out = V2.nan
  else ∃ h b x n y, Arctan2 u (-P.x) (-P.z) h ∧ Rd u (-I.fx * h) b ∧ Rd u (b + I.cx) x ∧ Hyp u P.x P.z n ∧
    (match k with
    | .equirectangular => ∃ v c, Arctan2 u P.y n v ∧ Rd u (-I.fy * v) c ∧ Rd u (c + I.cy) y
    | _ => ∃ v c, Rd u (-I.fy * P.y) v ∧ Rd u (v / n) c ∧ Rd u (c + I.cy) y) ∧ out.Is ⟨x, y⟩

/-- camera.py:1005 `imageFromSpace` of a panorama without lens distortion. -/
def ImageFromSpacePan (u : ℝ) (k : Kind) (I : Intr) (t : V3 ℝ) (R : M3) (P : V3 ℝ) (out : V2 Num) : Prop :=
  ∃ q, CameraFromSpace u t R P q ∧ ImagePan u k I q out

/-- camera.py:1053 and spatial.py:200-201: the direction of the ray of a pixel of a panorama in space. -/
def DirectionPan (u : ℝ) (k : Kind) (I : Intr) (Rinv : M3) (p : V2 ℝ) (normed : Bool) (out : V3 ℝ) : Prop :=
  ∃ r, RayPan u k I p normed r ∧ Dot u r Rinv.r0 out.x ∧ Dot u r Rinv.r1 out.y ∧ Dot u r Rinv.r2 out.z

/-- camera.py:1142-1157 `spaceFromImage` of a panorama without lens distortion, when the coordinate `i` is given.  Not modelled: rays parallel
to the plane, whose factor is infinite. -/
def SpaceFromImagePan (u : ℝ) (k : Kind) (I : Intr) (t : V3 ℝ) (Rinv : M3) (p : V2 ℝ) (i : Fin 3) (v : ℝ) (out : V3 Num) : Prop :=
  ∃ dir a f, DirectionPan u k I Rinv p false dir ∧ Rd u (v - t.get i) a ∧ Rd u (a / dir.get i) f ∧ PointAt u t dir f out

end Rounded
