import Verif.Model.Group
import Verif.Spec.Same

/-! # What groups of cameras are expected to do -/

set_option linter.constructorNameAsVariable false

open Classical Sys

namespace Group

/-- The number of objects given. -/
def Arg.number : Arg → ℕ
  | .many l => l.length
  | _ => 1

/-- The expected number of cameras. -/
def Args.size (a : Args) : ℕ := max a.proj.number (max a.orient.number a.lens.number)

/-- The object that camera `i` is expected to use: the only one, or the `i`-th. -/
def Arg.entry (new : ℕ) (a : Arg) (i : ℕ) : Option ℕ := match a with
  | .none => some new
  | .one x => some x
  | .many [x] => some x
  | .many l => l[i]?

/-- The number of objects in the argument that was given as a list last. -/
def Args.lastNumber (a : Args) : ℕ := match a.lens, a.orient with
  | .many l, _ => l.length
  | _, .many l => l.length
  | _, _ => a.proj.number

/-- The arguments describe `a.size` cameras, and the last list has this length. -/
structure Fits (a : Args) : Prop where
  proj : a.proj.number = a.size ∨ a.proj.number = 1
  orient : a.orient.number = a.size ∨ a.orient.number = 1
  lens : a.lens.number = a.size ∨ a.lens.number = 1
  last : a.lastNumber = a.size

/-- A lens that already belongs to a projection is used with the same projection again, as far as the names in the group
are the same. -/
def Free (s : St) (a : Args) : Prop := ∀ (i l : ℕ) (L : LObj) (p p' : ℕ), (a.lens.ids a.newL)[i]? = some l → s.lenses l = some L →
  L.kind ≠ .none → L.proj = some p' → (a.proj.number = 1 ↔ a.lens.number = 1) → (a.proj.ids 0)[i]? = some p → p = p'

/-- The objects given exist, the new ones are new. -/
structure Usable (s : St) (a : Args) : Prop where
  proj : a.proj ≠ .none
  ps : ∀ p ∈ a.proj.ids 0, s.projs p ≠ .none
  os : a.orient ≠ .none → ∀ o ∈ a.orient.ids 0, s.orients o ≠ .none
  ls : a.lens ≠ .none → ∀ l ∈ a.lens.ids 0, s.lenses l ≠ .none
  newO : s.orients a.newO = .none
  newL : s.lenses a.newL = .none
  newG : s.groups a.g = .none
  cid : Function.Injective a.cid

/-- What can happen after a state. -/
inductive Later (s : St) : St → Prop
  | refl : Later s s
  | step {t op} : Later s t → t.ok op → Later s (t.step op)

/-- The name under which a group is expected to offer the parameter `n` of the `i`-th of `m` objects. -/
def title (m i : ℕ) (n : String) : String := if m = 1 then n else "C" ++ toString i ++ "_" ++ n

/-- `v` shows the parameter `n` of the other object under the name `m`: reading and writing are the same. -/
def Shows (t : St) (v : View) (m : String) (w : View) (n : String) : Prop :=
  t.getattr v m = t.getattr w n ∧ (∃ q, (t.dict v).lookup m = some q) ∧
  (∀ x b, t.step (.set v m x b) = t.step (.set w n x b)) ∧
  (∀ μ σ, t.step (.setStats v m μ σ) = t.step (.setStats w n μ σ)) ∧
  ∀ x, t.step (.setDefault v m x) = t.step (.setDefault w n x)

end Group

namespace Group

/-- The camera uses the orientation. -/
def Uses (s : St) (o c : ℕ) : Prop := ∃ C, s.cams c = some C ∧ C.orient = o

/-- The point is far enough from the plane of the camera, and stays so when the world is scaled by `k`. -/
def Deep (c : Camera.Cam) (P : V3 ℝ) (k : ℝ) : Prop :=
  ∃ Q : V3 ℝ, (Spatial.cameraFromSpace c.orient.mat P.num).Is Q ∧ Projection.minDepth ≤ |Q.z| ∧ Projection.minDepth ≤ |k * Q.z|

end Group

namespace Group

/-- The distorting lens `l` belongs to the projection `p`, or is going to when the group is built. -/
def Pair (s : St) (a : Args) (l p : ℕ) : Prop := ∃ L, s.lenses l = some L ∧ L.kind ≠ .none ∧
  (L.proj = some p ∨ ∃ i < a.size, a.lens.entry a.newL i = some l ∧ a.proj.entry 0 i = some p)

/-- No distorting lens belongs to two projections, and no projection to two distorting lenses. -/
def Apart (s : St) (a : Args) : Prop := ∀ l p l' p', Pair s a l p → Pair s a l' p' → (l = l' ↔ p = p')

end Group
