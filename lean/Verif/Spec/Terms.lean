import Verif.Model.Terms
import Verif.Spec.Camera

/-! # Specifications for the information terms -/

open Classical Camera

namespace Terms

/-- The camera sees the point `P` in the pixel `q`, with a lens that is exact there. -/
def Sees (c : Cam) (P : V3 ℝ) (q : V2 Num) : Prop :=
  Visible c P ∧ ExactFor c P true ∧ q = imageFromSpace c P.num

/-- The pixels of the object are those of an upright object of the given height that stands on the ground, not at the
height of the camera and neither straight north or south nor straight east or west of it. -/
def Upright (c : Cam) (r : HeightRow) : Prop :=
  ∃ x y : ℝ, Sees c ⟨x, y, 0⟩ r.feet ∧ Sees c ⟨x, y, r.height⟩ r.head ∧ c.orient.pos.z ≠ 0 ∧
    c.orient.pos.x ≠ x ∧ c.orient.pos.y ≠ y

/-- The pixels of the object are those of a flat object of the given length at height `Z`. -/
def Flat (c : Cam) (Z : ℝ) (r : LengthRow) : Prop :=
  ∃ A B : V3 ℝ, Sees c A r.front ∧ Sees c B r.back ∧ A.z = Z ∧ B.z = Z ∧ V3.dist A B = r.length ∧ c.orient.pos.z ≠ Z

/-- `P` lies on the ray of the pixel, in the direction of view. -/
def OnSight (c : Cam) (q : V2 Num) (P : V3 ℝ) : Prop :=
  ∃ d : V3 ℝ, (getRay c q).2.Is d ∧ ∃ u : ℝ, 0 ≤ u ∧ P = d.mulS u + c.orient.pos

/-- The lens corrects the pixel to a pixel or gives nan, but no infinite numbers. -/
def Sighted (c : Cam) (q : V2 Num) : Prop :=
  (∃ p : V2 ℝ, (c.lens.imageFromDistorted q).Is p) ∨ c.lens.imageFromDistorted q = V2.nan

/-- The density of the normal distribution with mean `m` and standard deviation `s`. -/
noncomputable def density (m s x : ℝ) : ℝ := Real.exp (-((x - m) ^ 2 / (2 * s ^ 2))) / (s * Real.sqrt (2 * Real.pi))

/-- The landmark has a finite position and the same positive uncertainty in all directions. -/
def Round (l : Landmark) : Prop := (∃ P : V3 ℝ, l.pos.Is P) ∧ ∃ s : ℝ, 0 < s ∧ l.sigma = ⟨s, s, s⟩

/-- Something known about the scene, as given to the `add…Information` functions. -/
inductive Info where
  | heights (rows : List HeightRow) (variation : Variation)
  | lengths (rows : List LengthRow) (Z : ℝ) (variation : Variation)
  | landmarks (ls : List Landmark)
  | horizon (points : List (V2 ℝ)) (uncertainty : ℝ)

/-- The term it adds to `log_prob`. -/
noncomputable def Info.term (c : Cam) : Info → Except PyErr Num
  | .heights rows v => heightTerm c rows v
  | .lengths rows Z v => lengthTerm c rows Z v
  | .landmarks ls => .ok (landmarkTerm c ls)
  | .horizon ps u => horizonTerm c ps u

/-- The uncertainties are positive numbers (or parameters with a positive value); landmarks have the same one in all
directions. -/
def Info.Valid : Info → Prop
  | .heights _ v => ∃ s, 0 < s ∧ (v = .number s ∨ v = .stochastic s)
  | .lengths _ _ v => ∃ s, 0 < s ∧ (v = .number s ∨ v = .stochastic s)
  | .landmarks ls => ∀ l ∈ ls, Round l
  | .horizon _ u => 0 < u

/-- The information is exactly what the camera sees. -/
def Info.True (c : Cam) : Info → Prop
  | .heights rows _ => ∀ r ∈ rows, Upright c r
  | .lengths rows Z _ => ∀ r ∈ rows, Flat c Z r
  | .landmarks ls => ∀ l ∈ ls, ∃ P : V3 ℝ, l.pos.Is P ∧ Sees c P l.pixel
  | .horizon ps _ => ∀ p ∈ ps, ∃ y : ℕ, View.horizonRow c p.x = .ok (some y) ∧ p.y = y

/-- The camera measures what the information says: `getObjectHeight` and `getObjectLength` give the known heights and
lengths, the landmarks are on the rays of their pixels and `getImageHorizon` gives the observed rows. -/
def Info.Fits (c : Cam) : Info → Prop
  | .heights rows _ => ∀ r ∈ rows, ∃ H, getObjectHeight c r.feet r.head = .ok H ∧ Num.Is H r.height
  | .lengths rows Z _ => ∀ r ∈ rows, ∃ L, getObjectLength c r.front r.back (.fin Z) = .ok L ∧ Num.Is L r.length
  | .landmarks ls => ∀ l ∈ ls, ∃ P : V3 ℝ, l.pos.Is P ∧ OnSight c l.pixel P
  | .horizon ps _ => ∀ p ∈ ps, ∃ y : ℕ, View.horizonRow c p.x = .ok (some y) ∧ p.y = y

/-- The pixels of the landmarks are corrected to pixels or nan. -/
def Info.Sighted (c : Cam) : Info → Prop
  | .landmarks ls => ∀ l ∈ ls, Terms.Sighted c l.pixel
  | _ => _root_.True

end Terms
