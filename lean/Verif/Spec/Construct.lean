import Verif.Model.Construct

/-! # What the arguments of a projection mean -/

set_option linter.constructorNameAsVariable false

namespace Construct

/-- An optional number is not 0. -/
def NZ (x : Option ℝ) : Prop := x ≠ some 0

/-- No number given is 0. -/
structure Nonzero (a : Args) : Prop where
  f : a.f ≠ some (.num (.fin 0)) ∧ a.f ≠ some (.num .nzero)
  fx : NZ a.fx
  fy : NZ a.fy
  cx : NZ a.cx
  cy : NZ a.cy
  fmm : NZ a.fmm
  iw : NZ a.iw
  ih : NZ a.ih
  sw : NZ a.sw
  sh : NZ a.sh
  vx : NZ a.vx
  vy : NZ a.vy
  image : ∀ i, a.image = some i → i.size.1 ≠ 0 ∧ i.size.2 ≠ 0
  sensor : ∀ s, a.sensor = some s → s.1 ≠ 0 ∧ s.2 ≠ 0

/-- The size of the image is given once. -/
def OneImage (a : Args) : Prop :=
  (a.image ≠ none ∧ a.iw = none ∧ a.ih = none) ∨ (a.image = none ∧ a.iw ≠ none ∧ a.ih ≠ none)

/-- The centre is given at most once. -/
def OneCentre (a : Args) : Prop := a.center = none ∨ (a.cx = none ∧ a.cy = none)

/-- The size of the sensor is given at most once. -/
def OneSensor (a : Args) : Prop := a.sensor = none ∨ (a.sw = none ∧ a.sh = none)

/-- The focal length is given in exactly one way: one number, two numbers, in mm with a sensor, or by a field of view. -/
def OneFocal (a : Args) : Prop :=
  (a.f ≠ none ∧ a.fx = none ∧ a.fy = none ∧ a.fmm = none ∧ a.vx = none ∧ a.vy = none) ∨
  (a.fx ≠ none ∧ a.fy ≠ none ∧ a.f = none ∧ a.fmm = none ∧ a.vx = none ∧ a.vy = none) ∨
  (a.fmm ≠ none ∧ (a.sensor ≠ none ∨ a.sw ≠ none ∨ a.sh ≠ none) ∧ a.f = none ∧ a.fx = none ∧ a.fy = none ∧ a.vx = none ∧ a.vy = none) ∨
  ((a.vx ≠ none ∨ a.vy ≠ none) ∧ a.f = none ∧ a.fx = none ∧ a.fy = none ∧ a.fmm = none)

/-- Neither contradictory nor incomplete. -/
structure Consistent (a : Args) : Prop where
  image : OneImage a
  centre : OneCentre a
  sensor : OneSensor a
  focal : OneFocal a

/-- The focal length is given along one side of the image and the field of view along the other. -/
def Mixed (a : Args) : Prop :=
  (a.fx ≠ none ∧ a.fy = none ∧ a.vx = none ∧ a.vy ≠ none) ∨ (a.fx = none ∧ a.fy ≠ none ∧ a.vx ≠ none ∧ a.vy = none)

/-- The width and height of the image that are meant. -/
def Width (a : Args) (w : ℝ) : Prop := match a.image with
  | none => a.iw = some w
  | some (.tuple x _) => w = x
  | some (.array _ cols) => w = cols

@[inherit_doc Width]
def Height (a : Args) (h : ℝ) : Prop := match a.image with
  | none => a.ih = some h
  | some (.tuple _ y) => h = y
  | some (.array rows _) => h = rows

end Construct
