import Verif.Model.Camera
import Verif.Model.Gps
import Verif.Model.Statistic
import Verif.Model.View

/-!
# Model: the information terms of a camera

camera.py:515-809: the functions that `addObjectHeightInformation`, `addObjectLengthInformation`, `addLandmarkInformation`,
`addLandmarkInformationGPS` and `addHorizonInformation` append to `log_prob`.  The arrays of N rows are lists of rows;
numbers given once for all rows are repeated in every row.  Which terms are in `log_prob` is modelled in
`Model/Statistic.lean`.
-/

open Classical Camera

namespace Terms

/-- `stats.norm(m, s).logpdf(x)`: nan for a scale that is not positive. -/
noncomputable def logpdf (m : Num) (s : ℝ) (x : Num) : Num :=
  if 0 < s then
    -(((x - m) / .fin s).npow 2) / .fin 2 - .fin (Real.log (Real.sqrt (2 * Real.pi))) - .fin (Real.log s)
  else .nan

/-- The argument `variation`: a float or int; an object with an attribute `value` (a `FitParameter`), given by its current
value; a numpy array (or numpy integer), which has no such attribute. -/
inductive Variation where
  | number (s : ℝ)
  | stochastic (value : ℝ)
  | array (s : List ℝ)

/-- camera.py:536-540, 549 and 604-609, 618: the scale of the distribution. -/
def Variation.scale : Variation → Except PyErr ℝ
  | .number s => .ok s
  | .stochastic v => .ok v
  | .array _ => .error .attributeError

/-- One object of `addObjectHeightInformation`. -/
structure HeightRow where
  feet : V2 Num
  head : V2 Num
  height : ℝ

/-- camera.py:538-546, 550-555 `heigthInformation`. -/
noncomputable def heightTerm (c : Cam) (rows : List HeightRow) (variation : Variation) : Except PyErr Num := do
  let s ← variation.scale
  let values ← rows.mapM fun r => do
    let h ← getObjectHeight c r.feet r.head
    return logpdf (.fin r.height) s h
  return Stat.npsum values

/-- One object of `addObjectLengthInformation`. -/
structure LengthRow where
  front : V2 Num
  back : V2 Num
  length : ℝ

/-- camera.py:607-615, 620-626 `lengthInformation`. -/
noncomputable def lengthTerm (c : Cam) (rows : List LengthRow) (Z : ℝ) (variation : Variation) : Except PyErr Num := do
  let s ← variation.scale
  let values ← rows.mapM fun r => do
    let l ← getObjectLength c r.front r.back (.fin Z)
    return logpdf (.fin r.length) s l
  return Stat.npsum values

/-- One landmark: its pixel, its position, the uncertainties of its three coordinates. -/
structure Landmark where
  pixel : V2 Num
  pos : V3 Num
  sigma : V3 ℝ

/-- camera.py:675 `np.max(uncertainties)`. -/
noncomputable def maxSigma : List (V3 ℝ) → ℝ
  | [] => 0
  | [s] => max s.x (max s.y s.z)
  | s :: ss => max (max s.x (max s.y s.z)) (maxSigma ss)

/-- camera.py:676: entry `k` of `np.linspace(-2*offset, +2*offset, 1000)`. -/
noncomputable def sampled (offset : ℝ) (k : ℕ) : ℝ := -2 * offset + k * ((2 * offset - -2 * offset) / 999)

/-- camera.py:687-696 for one landmark: the log probabilities of the coordinates of 1000 points on the ray of the pixel
(`getClosestPointFromLine` norms the rays in place, so these are the rays used in line 694). -/
noncomputable def landmarkValues (c : Cam) (offset : ℝ) (l : Landmark) : List Num :=
  let r := getRay c l.pixel true
  let n := Ray.getClosestPointFromLine r.1 r.2 l.pos
  let distance := (n.2 - c.orient.pos.num).normN
  (List.range 1000).flatMap fun (k : ℕ) =>
    let factor := distance + .fin (sampled offset k)
    [logpdf l.pos.x l.sigma.x (r.1.x + n.1.x * factor), logpdf l.pos.y l.sigma.y (r.1.y + n.1.y * factor),
     logpdf l.pos.z l.sigma.z (r.1.z + n.1.z * factor)]

/-- camera.py:686-696 `landmarkInformation`. -/
noncomputable def landmarkTerm (c : Cam) (ls : List Landmark) : Num :=
  Stat.npsum (ls.flatMap (landmarkValues c (maxSigma (ls.map Landmark.sigma))))

/-- A landmark given by gps coordinates. -/
structure GpsLandmark where
  pixel : V2 Num
  geo : Gps.Pt
  sigma : V3 ℝ

/-- camera.py:740-758: `landmarkInformation` of `addLandmarkInformationGPS`.  A single landmark has become an array with one
row (lines 738-741), so the positions are always converted as a 2-D array. -/
noncomputable def gpsLandmarkTerm (c : Cam) (gps_lat gps_lon : ℝ) (ls : List GpsLandmark) : Except PyErr Num := do
  let ps ← Gps.cameraSpaceFromGPS gps_lat gps_lon (.many (ls.map GpsLandmark.geo))
  return landmarkTerm c ((ls.zip ps).map fun q => ⟨q.1.pixel, q.2, q.1.sigma⟩)

/-- camera.py:798-806 `horizonInformation` for an array of horizon points. -/
noncomputable def horizonTerm (c : Cam) (horizon : List (V2 ℝ)) (uncertainty : ℝ) : Except PyErr Num := do
  let rows ← View.imageHorizon c (some (horizon.map V2.x))
  let deviation := horizon.zipWith (fun p r => match r.2 with
    | some y => Num.fin p.y - .fin (y : ℝ)
    | none => .nan) rows
  return Stat.npsum (deviation.map (logpdf (.fin 0) uncertainty))

end Terms
