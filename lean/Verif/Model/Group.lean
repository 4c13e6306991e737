import Verif.Model.System

/-! # Model of groups of cameras (camera.py:174-213, 423-425)

The constructor of `CameraGroup` as a sequence of operations on the parameter system, and `scaleSpace`. -/

set_option linter.constructorNameAsVariable false

open Classical Sys

namespace Group

/-- An argument of `CameraGroup` (camera.py:184-191): nothing, one object, or a list of objects.  Objects of other
classes, and lists that contain them, are not modelled. -/
inductive Arg | none | one (i : ℕ) | many (l : List ℕ)
deriving DecidableEq

/-- camera.py:184-191 `checkCount`, the list of objects; `new` is the identity of the object that `default()`
creates. -/
def Arg.ids (new : ℕ) : Arg → List ℕ
  | .none => [new]
  | .one i => [i]
  | .many l => l

/-- camera.py:184-191 `checkCount`, the new value of `self.N`. -/
def Arg.count (n : ℕ) : Arg → ℕ
  | .many l => l.length
  | _ => n

/-- The arguments of `CameraGroup(projection, orientation, lens)` (camera.py:179-180), the identities of the objects
that are created for missing arguments, of the group, and of its cameras. -/
structure Args where
  proj : Arg
  orient : Arg
  lens : Arg
  newO : ℕ
  newL : ℕ
  g : ℕ
  cid : ℕ → ℕ

/-- `self.projection_list` (camera.py:193).  `RectilinearProjection()` raises, see `build`. -/
def Args.ps (a : Args) : List ℕ := a.proj.ids 0
/-- `self.orientation_list` (camera.py:194). -/
def Args.os (a : Args) : List ℕ := a.orient.ids a.newO
/-- `self.lens_list` (camera.py:195). -/
def Args.ls (a : Args) : List ℕ := a.lens.ids a.newL

/-- `self.N` after the three calls (camera.py:182, 193-195). -/
def Args.n (a : Args) : ℕ := a.lens.count (a.orient.count (a.proj.count 1))

/-- `"C%d_%s" % (index, name)` (camera.py:204). -/
def cname (i : ℕ) (n : String) : String := "C" ++ toString i ++ "_" ++ n

/-- The assignments `params[…] = …` of one call of `gatherParameters` (camera.py:198-204), in order. -/
def pairs (s : St) (vs : List View) : Dict :=
  if vs.length = 1 then vs.flatMap s.dict
  else vs.zipIdx.flatMap fun vi => (s.dict vi.1).map fun kv => (cname vi.2 kv.1, kv.2)

/-- `params` (camera.py:197-208). -/
def gather (s : St) (a : Args) : Dict :=
  dictUpdate (dictUpdate (dictUpdate [] (pairs s (a.ps.map .proj))) (pairs s (a.os.map .orient))) (pairs s (a.ls.map .lens))

/-- `zip(range(N), cycle(projections), cycle(orientations), cycle(lenses))` (camera.py:212-213); nothing if one of the
lists is empty. -/
def Args.triples (a : Args) : List (ℕ × ℕ × ℕ × ℕ) := (List.range a.n).filterMap fun i =>
  match a.ps[i % a.ps.length]?, a.os[i % a.os.length]?, a.ls[i % a.ls.length]? with
  | some p, some o, some l => some (i, p, o, l)
  | _, _, _ => .none

/-- The objects that `checkCount` creates (camera.py:185-186). -/
noncomputable def defaults (s : St) (a : Args) : St :=
  let s := if a.orient = .none then s.step (.newOrient a.newO .thr fun _ => .none) else s
  if a.lens = .none then s.step (.newLens a.newL .none fun _ => .none) else s

/-- The cameras are created one after the other (camera.py:212-213). -/
noncomputable def cameras (s : St) (cid : ℕ → ℕ) (ts : List (ℕ × ℕ × ℕ × ℕ)) : St :=
  ts.foldl (fun s t => s.step (.newCam (cid t.1) t.2.1 t.2.2.1 t.2.2.2)) s

/-- camera.py:179-213 `CameraGroup.__init__`: the state afterwards and the list `self.cameras`, or `none` if it raises.
Without a projection `RectilinearProjection()` raises a `ValueError` (projection.py:161-162).  The parameters are
collected (206-210) before the cameras are created (212). -/
noncomputable def build (s : St) (a : Args) : Option (St × List ℕ) :=
  if a.proj = .none then .none
  else
    let s1 := defaults s a
    let s2 := s1.step (.newGroup a.g (gather s1 a))
    some (cameras s2 a.cid a.triples, a.triples.map fun t => a.cid t.1)

/-- One round of the loop of `scaleSpace` (camera.py:425): the three values are read, multiplied, and then assigned one
after the other.  A missing value counts as 0 (in the states of the model there is none).  The assigned values are
numpy scalars, not one-element lists. -/
noncomputable def scaleOne (s : St) (k : ℝ) (c : ℕ) : St :=
  let rd := fun n => (((s.getattr (.cam c) n).getD .none).getD 0)
  let x := rd "pos_x_m"
  let y := rd "pos_y_m"
  let z := rd "elevation_m"
  ((s.step (.set (.cam c) "pos_x_m" (some (x * k)) false)).step (.set (.cam c) "pos_y_m" (some (y * k)) false)).step
    (.set (.cam c) "elevation_m" (some (z * k)) false)

/-- camera.py:423-425 `scaleSpace` for a group with the given cameras. -/
noncomputable def scaleSpace (s : St) (cams : List ℕ) (k : ℝ) : St := cams.foldl (fun s c => scaleOne s k c) s

end Group
