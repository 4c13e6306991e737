import Verif.Spec.Terms
import Verif.Spec.Same
import Verif.Model.FitPlot

/-! # Specification of the plot of the fit information -/

open Classical Camera Terms

namespace FitPlot

/-- A lens that treats equal pixels equally. -/
def Respects (L : Camera.Lens) : Prop := ∀ a b, V2.SameN a b → V2.SameN (L.distortedFromImage a) (L.distortedFromImage b)

/-- The image of the point is a single pixel: at the seam of a panorama there are two. -/
def OffSeam (c : Cam) (P : V3 ℝ) : Prop := c.kind = .rectilinear ∨ ¬ OnSeam c P

/-- The pixels belong to an upright object of the given height on the ground. -/
def Standing (c : Cam) (r : HeightRow) : Prop :=
  ∃ x y : ℝ, Sees c ⟨x, y, 0⟩ r.feet ∧ r.head = imageFromSpace c (V3.num ⟨x, y, r.height⟩) ∧ OffSeam c ⟨x, y, r.height⟩ ∧ c.orient.pos.z ≠ 0

/-- The pixels belong to a flat object of length `l` at height `Z`. -/
def Lying (c : Cam) (Z l : ℝ) (r : V2 Num × V2 Num) : Prop :=
  ∃ A B : V3 ℝ, Sees c A r.1 ∧ Sees c B r.2 ∧ A.z = Z ∧ B.z = Z ∧ A ≠ B ∧ V3.dist A B = l ∧ OffSeam c B ∧ c.orient.pos.z ≠ Z

/-- The information is exactly what the camera sees; lengths are given by one number. -/
def Info.True (c : Cam) : Info → Prop
  | .heights rows => ∀ r ∈ rows, Standing c r
  | .lengths rows Z l => ∃ x, (l = .number x ∨ l = .array [x]) ∧ ∀ r ∈ rows, Lying c Z x r
  | .landmarks ls => ∀ l ∈ ls, ∃ P : V3 ℝ, l.pos.Is P ∧ l.pixel = imageFromSpace c P.num ∧ OffSeam c P
  | .horizon ps => ∀ p ∈ ps, ∃ y : ℕ, View.horizonRow c p.x = .ok (some y) ∧ p.y = y

/-- What was observed: the heads of objects, the backs of objects, the pixels of landmarks, points on the horizon. -/
def Info.observations : Info → List (V2 Num)
  | .heights rows => rows.map HeightRow.head
  | .lengths rows _ _ => rows.map Prod.snd
  | .landmarks ls => ls.map Landmark.pixel
  | .horizon ps => ps.map V2.num

/-- Every circle is at its marker. -/
def Drawing.Agrees (d : Drawing) : Prop := List.Forall₂ V2.SameN d.observed d.predicted

/-- The lines go from the given points to the circles. -/
def Drawing.LinesFrom (d : Drawing) (ps : List (V2 Num)) : Prop :=
  d.connection = (List.zipWith (fun p q => [p, q, V2.nan]) ps d.predicted).flatten

/-- Where the lines start: for flat objects at the front, otherwise at what was observed. -/
def Info.starts : Info → List (V2 Num)
  | .lengths rows _ _ => rows.map Prod.fst
  | i => i.observations

/-- The information given by some calls, since the last `clearLogProbability`. -/
noncomputable def given {I : Type} : List (Op I) → List I
  | [] => []
  | .add i _ :: t => if .clear ∈ t then given t else i :: given t
  | .custom _ :: t => given t
  | .clear :: t => given t

/-- What is used for fitting: given without `only_plot` or as an own function, since the last `clearLogProbability`. -/
noncomputable def used {I : Type} : List (Op I) → List I
  | [] => []
  | .add i onlyPlot :: t => if .clear ∈ t ∨ onlyPlot = true then used t else i :: used t
  | .custom i :: t => if .clear ∈ t then used t else i :: used t
  | .clear :: t => used t

end FitPlot
