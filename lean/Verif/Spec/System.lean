import Verif.Model.System

/-! # Specification of the parameter system

What a user expects to read, computed from the history of calls alone: a log of the last assigned values, without
callbacks, caches or parameter states. -/

set_option linter.constructorNameAsVariable false

open Classical

namespace Sys

/-- What was assigned last.
`val`: the last assigned value, `none` if there was none or `None` was assigned.  `dflt`: the last default.
`mean`: the mean if the last assignment was a tuple.  `user`: the value was set by the user.
`exc`: one of the following happened to the parameter since its last assignment by the user, so that the code is not expected to
follow the log: a heading got an uncertainty or a default outside [-360, 360]; a camera with different focal lengths was sampled.
`excFit`: a heading outside [-360, 360] came from a fit. -/
structure Log where
  val : Pid → Option ℝ
  dflt : Pid → Option ℝ
  mean : Pid → Option ℝ
  user : Pid → Prop
  exc : Pid → Prop
  excFit : Pid → Prop

/-- Outside the range that is kept. -/
def Out (x : ℝ) : Prop := x < -360 ∨ 360 < x

/-- A heading or pitch is kept modulo 360. -/
noncomputable def norm360 (q : Pid) (x : ℝ) : ℝ := match q with
  | .o _ .turn => if Out x then x - 360 * ⌊x / 360⌋ else x
  | _ => x

/-- Is this a heading or a pitch? -/
def IsTurn : Pid → Prop
  | .o _ .turn => True
  | _ => False

/-- What to read: the value, else the default. -/
noncomputable def Log.read (L : Log) (q : Pid) : Option ℝ := match L.val q with
  | some x => some (norm360 q x)
  | none => L.dflt q

/-- The new values: `w` are the writes; a write to `focallength_px` is also a write to the two focal lengths. -/
def spread (w : Pid → Option (Option ℝ)) (old : Pid → Option ℝ) : Pid → Option ℝ
  | .p p .fx => ((w (.p p .f)).or (w (.p p .fx))).getD (old (.p p .fx))
  | .p p .fy => ((w (.p p .f)).or (w (.p p .fy))).getD (old (.p p .fy))
  | q => (w q).getD (old q)

/-- The last value in a list of names and values for a parameter. -/
noncomputable def lastOf (d : Dict) (vals : List (String × ℝ)) (q : Pid) : Option ℝ :=
  (vals.reverse.find? fun nv => d.lookup nv.1 = some q).map Prod.snd

/-- The parameter is in the dictionary. -/
def InDict (d : Dict) (q : Pid) : Prop := ∃ n, (n, q) ∈ d

/-- A new object with the parameters `new`. -/
noncomputable def Log.create (L : Log) (new : Pid → Option (Option ℝ × Option ℝ)) : Log where
  val q := match new q with
    | some x => x.1
    | none => L.val q
  dflt q := match new q with
    | some x => x.2
    | none => L.dflt q
  mean q := match new q with
    | some _ => none
    | none => L.mean q
  user q := match new q with
    | some x => x.1 ≠ none
    | none => L.user q
  exc q := match new q with
    | some _ => False
    | none => L.exc q
  excFit q := match new q with
    | some _ => False
    | none => L.excFit q

/-- Redrawing the parameters with an uncertainty: `w` gives their values. -/
noncomputable def Log.redraw (L : Log) (d : Dict) (w : Pid → Option ℝ) : Log :=
  let val := spread (fun q => if InDict d q ∧ L.mean q ≠ none then some (w q) else none) L.val
  { L with
    val := val
    exc := fun q => match q with
      | .p p .fx => L.exc q ∨ InDict d (.p p .f) ∧ val q ≠ val (.p p .f)
      | .p p .fy => L.exc q ∨ InDict d (.p p .f) ∧ val q ≠ val (.p p .f)
      | _ => L.exc q }

/-- The value of a parameter of an orientation that was never given: 30 m above the ground, tilted by 85 degrees and otherwise
at the origin looking north. -/
noncomputable def initialO : OField → ℝ
  | .roll => 0
  | .turn => 0
  | .posX => 0
  | .posY => 0
  | .elev => 30
  | .ang => 85

/-- The value of a parameter of a projection that was never given: the centre 0 and a sensor of 17.3 x 13 mm; the others have
none. -/
noncomputable def initialP : PField → Option ℝ
  | .f => none
  | .fx => none
  | .fy => none
  | .iw => none
  | .ih => none
  | .cx => some 0
  | .cy => some 0
  | .sw => some 17.3
  | .sh => some 13

/-- The log after a call; `dict` gives the dictionaries of names at that time. -/
noncomputable def Log.step (dict : View → Dict) (L : Log) : Op → Log
  | .newOrient o _ args => L.create fun q => match q with
    | .o o' f => if o' = o then some (args f, some (initialO f)) else none
    | _ => none
  | .newProj p _ args _ => L.create fun q => match q with
    | .p p' .f => if p' = p then some (args .fx, none) else none
    | .p p' f => if p' = p then some (args f, initialP f) else none
    | _ => none
  | .newLens l _ args => L.create fun q => match q with
    | .l l' f => if l' = l then some (args f, some 0) else none
    | _ => none
  | .newCam c _ _ _ => L.create fun q => match q with
    | .c c' _ => if c' = c then some (some 0, some 0) else none
    | _ => none
  | .newGroup .. => L
  | .setTrace .. => L
  | .set v n x _ => match (dict v).lookup n with
    | none => L
    | some q0 => { L with
      val := spread (fun q => if q = q0 then some x else none) L.val
      mean := fun q => if q = q0 then none else L.mean q
      user := fun q => if q = q0 then x ≠ none else L.user q
      exc := fun q => if q = q0 then IsTurn q ∧ x = none ∧ ∃ d, L.dflt q = some d ∧ Out d else L.exc q
      excFit := fun q => if q = q0 then False else L.excFit q }
  | .setStats v n m _ => match (dict v).lookup n with
    | none => L
    | some q0 => { L with
      val := spread (fun q => if q = q0 then some (some m) else none) L.val
      mean := fun q => if q = q0 then some m else L.mean q
      user := fun q => if q = q0 then True else L.user q
      exc := fun q => if q = q0 then IsTurn q else L.exc q
      excFit := fun q => if q = q0 then False else L.excFit q }
  | .setDefault v n x => match (dict v).lookup n with
    | none => L
    | some q0 => { L with
      dflt := fun q => if q = q0 then some x else L.dflt q
      exc := fun q => if q = q0 then L.exc q ∨ IsTurn q ∧ L.val q = none ∧ Out x else L.exc q }
  | .setFit v vals _ => { L with
      val := spread (fun q => (lastOf (dict v) vals q).map some) L.val
      user := fun q => if lastOf (dict v) vals q = none then L.user q else False
      excFit := fun q => L.excFit q ∨ IsTurn q ∧ ∃ x, lastOf (dict v) vals q = some x ∧ Out x }
  | .sample v draw _ => L.redraw (dict v) fun q => some (draw q)
  | .toMean v _ => L.redraw (dict v) L.mean

/-- Nothing was assigned yet. -/
def Log.empty : Log where
  val _ := none
  dflt _ := some 0
  mean _ := none
  user _ := False
  exc _ := False
  excFit _ := False

/-- A history: the state and the log. -/
inductive Run : St → Log → Prop
  | start : Run St.empty Log.empty
  | step {s L op} : Run s L → s.ok op → Run (s.step op) (L.step s.dict op)

/-- No projection gets two distorting lenses, and no distorting lens two projections. -/
def St.excl (s : St) : Op → Prop
  | .newCam _ p _ l => ∀ L, s.lenses l = some L → L.kind ≠ .none →
    (L.proj = none ∨ L.proj = some p) ∧ ∀ l' L', l' ≠ l → s.lenses l' = some L' → L'.kind ≠ .none → L'.proj ≠ some p
  | _ => True

/-- The states after a history in which lenses and projections are not shared. -/
inductive ReachX : St → Prop
  | start : ReachX St.empty
  | step {s op} : ReachX s → s.ok op → s.excl op → ReachX (s.step op)

/-- The object has no instance attributes that hide parameters: it is not a projection that was built from a field of
view. -/
def Plain (s : St) (v : View) : Prop := ∀ p P, v = .proj p → s.projs p = some P → P.attr = none

/-- An orientation with given parameter values. -/
def orientOf (k : OKind) (v : OField → ℝ) : Camera.Orient := match k with
  | .thr => .thr ⟨v .elev, v .ang, v .roll, v .turn, v .posX, v .posY⟩
  | .ypr => .ypr ⟨v .elev, v .ang, v .turn, v .roll, v .posX, v .posY⟩

/-- The camera with the current parameter values, without any cached attribute. -/
noncomputable def St.camNow (spline : LensModel.Spline) (s : St) (c : ℕ) : Option Camera.Cam :=
  match s.cams c with
  | none => none
  | some C =>
    match s.projs C.proj, s.orients C.orient, s.lenses C.lens with
    | some P, some O, some L =>
      let p := C.proj
      let o := C.orient
      let l := C.lens
      let I : Projection.Intr := ⟨s.rd (.p p .fx), s.rd (.p p .fy), s.rd (.p p .cx), s.rd (.p p .cy), s.rd (.p p .iw), s.rd (.p p .ih)⟩
      some {
        kind := P.kind
        intr := I
        orient := orientOf O.kind fun f => s.rd (.o o f)
        lens := match L.kind with
          | .none => Camera.noDistortion
          | .brown => (LensModel.brown spline I (s.rd (.l l .k1)) (s.rd (.l l .k2)) (s.rd (.l l .k3))).lens
          | .abc => (LensModel.abc spline I (s.rd (.l l .k1)) (s.rd (.l l .k2)) (s.rd (.l l .k3))).lens }
    | _, _, _ => none

/-- The type of a parameter by its role: the first group of the exterior parameters (4) are the elevation, the first
angle and the roll, the second group (8) the position on the ground and the angle of direction; 2 are the interior
parameters, 16 the lens, 32 the GPS position. -/
def Pid.type : Pid → ℕ
  | .o _ .elev => 4
  | .o _ .ang => 4
  | .o _ .roll => 4
  | .o _ .turn => 8
  | .o _ .posX => 8
  | .o _ .posY => 8
  | .p .. => 2
  | .l .. => 16
  | .c .. => 32

end Sys
