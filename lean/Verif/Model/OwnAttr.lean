import Verif.Model.Persist

/-! # Model of the ordinary attributes of cameras

parameter_set.py:170-179 and camera.py:1521-1586: a name that is no parameter of a camera becomes an ordinary attribute of the object, and an
ordinary attribute is found before `__getattr__` looks for a parameter.  `Camera.load` calls `__init__` again (camera.py:1584), which replaces the
parameters and leaves the ordinary attributes.  Modelled are numbers that the user or `load` assigns; not modelled are names the library
uses for other things (e.g. `lens` or `R_earth`). -/

namespace OwnAttr

open Sys Persist

/-- The program together with the ordinary attributes of the cameras. -/
structure St where
  sys : Sys.St
  own : ℕ → String → Option ℝ

/-- `getattr(cam, name)`: the ordinary attribute, otherwise the parameter (parameter_set.py:170-174). -/
noncomputable def St.getattr (s : St) (c : ℕ) (n : String) : Option (Option ℝ) :=
  match s.own c n with
  | some x => some (some x)
  | none => s.sys.getattr (.cam c) n

/-- `cam.name = x` for a number (parameter_set.py:176-179). -/
noncomputable def St.setattr (s : St) (c : ℕ) (n : String) (x : ℝ) : St :=
  match (s.sys.dict (.cam c)).lookup n with
  | some q => { s with sys := s.sys.assign q (some x) false }
  | none => { s with own := Function.update s.own c (Function.update (s.own c) n (some x)) }

/-- camera.py:1521-1550 `Camera.save`; the numbers are those that `getattr` gives (line 1531). -/
noncomputable def St.save (s : St) (c : ℕ) (disk : Disk) (name : String) : Disk × Except Err Unit :=
  let keys := exports s.sys (.cam c) (some "focallength_px")
  let f : File :=
    { values := keys.map fun kv => (kv.1, ((s.getattr c kv.1).bind id).getD 0)
      projection := (s.sys.cams c).bind fun C => (s.sys.projs C.proj).map fun P => projCode P.kind
      lens := (s.sys.cams c).bind fun C => (s.sys.lenses C.lens).map fun L => lensCode L.kind }
  writeJson disk name (∀ kv ∈ keys, s.own c kv.1 ≠ none ∨ Serialisable (s.sys.par kv.2)) f

/-- camera.py:1552-1586 `Camera.load` of the camera `c`; `p`, `l`, `o` are the new objects. -/
noncomputable def St.load (s : St) (c p l o : ℕ) (disk : Disk) (name : String) : Except Err St := do
  let f ← readJson disk name
  let kp ← projOf f.projection
  let kl ← lensOfCode f.lens
  let sys := s.sys.step (.newProj p kp initArgs false)
  let sys := sys.step (.newLens l kl fun _ => none)
  let sys := sys.step (.newOrient o .thr fun _ => none)
  let sys := sys.step (.newCam c p o l)
  pure (f.values.foldl (fun s nx => s.setattr c nx.1 nx.2) { s with sys := sys })

end OwnAttr
