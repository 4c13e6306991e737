import Verif.Model.Lens

/-! # Model of the parameter system

`parameter_set.py` and the constructors of the classes that use it: objects hold `Parameter` objects, share
them, and recompute cached attributes in callbacks.

A `Parameter` object is created by exactly one constructor call; it is named here by the object it was created
for and its role.  All objects live in one state, so that sharing is visible. -/

set_option linter.constructorNameAsVariable false

open Classical

namespace Sys

/-- The six parameters of an orientation, by position: spatial.py:84-94 (elevation, tilt, roll, heading, x, y)
and spatial.py:232-243 (elevation, yaw, roll, pitch, x, y). -/
inductive OField | elev | ang | roll | turn | posX | posY
deriving DecidableEq

/-- projection.py:164-190. -/
inductive PField | fx | fy | cx | cy | ih | iw | sh | sw | f
deriving DecidableEq

/-- lens_distortion.py:114-119 (k1, k2, k3) and 206-211 (a, b, c). -/
inductive LField | k1 | k2 | k3
deriving DecidableEq

/-- camera.py:454. -/
inductive CField | lat | lon
deriving DecidableEq

/-- A `Parameter` object: the object it was created for and its role. -/
inductive Pid
  | o (id : ℕ) (f : OField)
  | p (id : ℕ) (f : PField)
  | l (id : ℕ) (f : LField)
  | c (id : ℕ) (f : CField)
deriving DecidableEq

/-- parameter_set.py:26-29. -/
inductive State | default | userSet | fit
deriving DecidableEq

/-- The callbacks that are stored in parameters: `orientation._initCameraMatrix` (spatial.py:96, 245),
`lens._init_inverse` (lens_distortion.py:121, 138, 213, 230) and the closure of `focallength_px`
(projection.py:181-189). -/
inductive Cb | matrix (o : ℕ) | lens (l : ℕ) | focal (p : ℕ)
deriving DecidableEq

/-- parameter_set.py:40-59 `Parameter`.  `range` is not modelled.  `boxed` says that the value is a 0-dimensional
numpy array instead of a number. -/
structure Param where
  value : Option ℝ
  default : Option ℝ
  mean : Option ℝ := none
  std : ℝ := 0
  state : State
  type : ℕ
  callback : Option Cb := none
  boxed : Bool := false

/-- The two classes of spatial.py. -/
inductive OKind | thr | ypr
deriving DecidableEq

/-- The three classes of lens_distortion.py. -/
inductive LKind | none | brown | abc
deriving DecidableEq

/-- An orientation object with the matrices computed by the last `_initCameraMatrix`. -/
structure OObj where
  kind : OKind
  mat : Spatial.CamMatrix

/-- A projection object; `attr` are the instance attributes `image_width_px`, `image_height_px` that the
constructor leaves behind if a field of view is given (projection.py:146-147). -/
structure PObj where
  kind : Projection.Kind
  attr : Option (ℝ × ℝ) := none

/-- What `_init_inverse` computed last: the coefficients (they determine `d` and `_convert_radius_inverse`),
`scale` and `offset` (lens_distortion.py:141-146, 233-240). -/
@[ext] structure Snap where
  ks : V3 ℝ
  scale : V2 ℝ
  offset : V2 ℝ

/-- A lens object. -/
structure LObj where
  kind : LKind
  proj : Option ℕ := none
  snap : Snap

/-- A dictionary from names to parameters. -/
abbrev Dict := List (String × Pid)

/-- A camera object. -/
structure CObj where
  proj : ℕ
  orient : ℕ
  lens : ℕ
  params : Dict

/-- A row of a trace: the sampled values by name, and the log probability. -/
abbrev Row := List (String × ℝ) × Num

/-- The objects that have a `ParameterSet`. -/
inductive View | orient (o : ℕ) | proj (p : ℕ) | lens (l : ℕ) | cam (c : ℕ) | group (g : ℕ)
deriving DecidableEq

/-- The state of the program. -/
structure St where
  par : Pid → Param
  orients : ℕ → Option OObj
  projs : ℕ → Option PObj
  lenses : ℕ → Option LObj
  cams : ℕ → Option CObj
  groups : ℕ → Option Dict
  traces : View → Option (List Row)

/-- The parameter names of an orientation (spatial.py:84-94, 232-243). -/
def OField.name : OKind → OField → String
  | _, .elev => "elevation_m"
  | .thr, .ang => "tilt_deg"
  | .ypr, .ang => "yaw_deg"
  | _, .roll => "roll_deg"
  | .thr, .turn => "heading_deg"
  | .ypr, .turn => "pitch_deg"
  | _, .posX => "pos_x_m"
  | _, .posY => "pos_y_m"

/-- projection.py:164-190. -/
def PField.name : PField → String
  | .fx => "focallength_x_px"
  | .fy => "focallength_y_px"
  | .cx => "center_x_px"
  | .cy => "center_y_px"
  | .ih => "image_height_px"
  | .iw => "image_width_px"
  | .sh => "sensor_height_mm"
  | .sw => "sensor_width_mm"
  | .f => "focallength_px"

/-- lens_distortion.py:116-118, 208-210. -/
def LField.name : LKind → LField → String
  | .abc, .k1 => "a"
  | .abc, .k2 => "b"
  | .abc, .k3 => "c"
  | _, .k1 => "k1"
  | _, .k2 => "k2"
  | _, .k3 => "k3"

/-- camera.py:454. -/
def CField.name : CField → String
  | .lat => "gps_lat"
  | .lon => "gps_lon"

def OField.all : List OField := [.elev, .ang, .roll, .turn, .posX, .posY]
def PField.all : List PField := [.fx, .fy, .cx, .cy, .ih, .iw, .sh, .sw, .f]
/-- The parameters a lens takes over from its projection (lens_distortion.py:130-135, 222-227). -/
def PField.lens : List PField := [.iw, .ih, .fx, .fy, .cx, .cy]
def LField.all : List LField := [.k1, .k2, .k3]
def CField.all : List CField := [.lat, .lon]

/-- `orientation.parameters.parameters` (spatial.py:83-94, 231-243). -/
def orientDict (k : OKind) (o : ℕ) : Dict := OField.all.map fun f => (f.name k, .o o f)

/-- `projection.parameters.parameters` (projection.py:164-190). -/
def projDict (p : ℕ) : Dict := PField.all.map fun f => (f.name, .p p f)

/-- `lens.parameters.parameters`: empty for `NoDistortion` (lens_distortion.py:44), else the coefficients, and after
`setProjection` also the parameters taken over from the projection (lens_distortion.py:126-136, 218-228). -/
def lensDict (k : LKind) (l : ℕ) (proj : Option ℕ) : Dict :=
  match k with
  | .none => []
  | k => LField.all.map (fun f => (f.name k, .l l f)) ++
    match proj with
    | some p => PField.lens.map fun f => (f.name, .p p f)
    | none => []

/-- `d[k] = v`: replaces in place or appends. -/
def dictSet (d : Dict) (k : String) (v : Pid) : Dict :=
  match d with
  | [] => [(k, v)]
  | (k', v') :: t => if k' = k then (k, v) :: t else (k', v') :: dictSet t k v

/-- `d.update(e)`. -/
def dictUpdate (d e : Dict) : Dict := e.foldl (fun d kv => dictSet d kv.1 kv.2) d

/-- The `ParameterSet` of an object. -/
def St.dict (s : St) : View → Dict
  | .orient o => match s.orients o with
    | some O => orientDict O.kind o
    | none => []
  | .proj p => match s.projs p with
    | some _ => projDict p
    | none => []
  | .lens l => match s.lenses l with
    | some L => lensDict L.kind l L.proj
    | none => []
  | .cam c => match s.cams c with
    | some C => C.params
    | none => []
  | .group g => (s.groups g).getD []

/-- parameter_set.py:104-109: the value, or the default if the value is None. -/
def Param.read (q : Param) : Option ℝ := match q.value with
  | some v => some v
  | none => q.default

/-- A read that gives a number (`None` does not occur in a reachable state, `Sys.Struct.valid`). -/
noncomputable def St.rd (s : St) (q : Pid) : ℝ := (s.par q).read.getD 0

/-- Attribute access on an object (parameter_set.py:170-174): an instance attribute wins over the parameter; `none`
is AttributeError. -/
noncomputable def St.getattr (s : St) (v : View) (name : String) : Option (Option ℝ) :=
  match v with
  | .proj p =>
    match s.projs p with
    | some ⟨_, some (w, h)⟩ =>
      if name = PField.name .iw then some (some w)
      else if name = PField.name .ih then some (some h)
      else ((s.dict v).lookup name).map fun q => (s.par q).read
    | _ => ((s.dict v).lookup name).map fun q => (s.par q).read
  | _ => ((s.dict v).lookup name).map fun q => (s.par q).read

/-- `projection.image_width_px` inside the library (lens_distortion.py:239). -/
noncomputable def St.projWidth (s : St) (p : ℕ) : ℝ := match s.projs p with
  | some ⟨_, some (w, _)⟩ => w
  | _ => s.rd (.p p .iw)

/-- `projection.image_height_px` inside the library (lens_distortion.py:239). -/
noncomputable def St.projHeight (s : St) (p : ℕ) : ℝ := match s.projs p with
  | some ⟨_, some (_, h)⟩ => h
  | _ => s.rd (.p p .ih)

/-- Change one parameter object. -/
noncomputable def St.mod (s : St) (q : Pid) (f : Param → Param) : St :=
  { s with par := Function.update s.par q (f (s.par q)) }

/-- spatial.py:111-130, 260-279: the matrices for the current values. -/
noncomputable def St.matOf (s : St) (k : OKind) (o : ℕ) : Spatial.CamMatrix :=
  match k with
  | .thr => Spatial.matrices ⟨s.rd (.o o .elev), s.rd (.o o .ang), s.rd (.o o .roll), s.rd (.o o .turn),
      s.rd (.o o .posX), s.rd (.o o .posY)⟩
  | .ypr => Spatial.matricesYPR ⟨s.rd (.o o .elev), s.rd (.o o .ang), s.rd (.o o .turn), s.rd (.o o .roll),
      s.rd (.o o .posX), s.rd (.o o .posY)⟩

/-- spatial.py:107-109, 257-258: `self.heading_deg = self.heading_deg % 360` if it is out of range: the parameter
loses its mean and counts as set by the user (parameter_set.py:118-121).  The assignment calls the callback again,
which computes the same matrices as the rest of the outer call; this repetition is left out. -/
noncomputable def St.wrapTurn (s : St) (o : ℕ) : St :=
  if s.rd (.o o .turn) < -360 ∨ s.rd (.o o .turn) > 360 then
    s.mod (.o o .turn) fun q =>
      { q with value := some (Spatial.pymod (s.rd (.o o .turn)) 360), mean := none, state := .userSet, boxed := false }
  else s

/-- spatial.py:107-130, 256-279 `_initCameraMatrix`. -/
noncomputable def St.runMatrix (s : St) (o : ℕ) : St :=
  match s.orients o with
  | none => s
  | some O =>
    let s := s.wrapTurn o
    { s with orients := Function.update s.orients o (some { O with mat := s.matOf O.kind o }) }

/-- lens_distortion.py:141-146, 233-240: what `_init_inverse` computes, given the previous `scale` and `offset`. -/
noncomputable def St.snapOf (s : St) (l : ℕ) (k : LKind) (proj : Option ℕ) (old : Snap) : Snap :=
  let ks : V3 ℝ := ⟨s.rd (.l l .k1), s.rd (.l l .k2), s.rd (.l l .k3)⟩
  match proj with
  | none => ⟨ks, old.scale, old.offset⟩
  | some p =>
    match k with
    | .none => old
    | .brown => ⟨ks, ⟨s.rd (.p p .fx), s.rd (.p p .fy)⟩, ⟨s.rd (.p p .cx), s.rd (.p p .cy)⟩⟩
    | .abc => ⟨ks, ⟨min (s.projWidth p) (s.projHeight p) / 2, min (s.projWidth p) (s.projHeight p) / 2⟩,
        ⟨s.rd (.p p .cx), s.rd (.p p .cy)⟩⟩

/-- lens_distortion.py:141-146, 233-240 `_init_inverse`. -/
noncomputable def St.runLens (s : St) (l : ℕ) : St :=
  match s.lenses l with
  | none => s
  | some L => { s with lenses := Function.update s.lenses l (some { L with snap := s.snapOf l L.kind L.proj L.snap }) }

/-- Call a callback other than that of `focallength_px`. -/
noncomputable def St.runSimple (s : St) : Option Cb → St
  | some (.matrix o) => s.runMatrix o
  | some (.lens l) => s.runLens l
  | _ => s

/-- projection.py:182-184 and 185-187: `fx.value = f.value` and the call of the callback of `fx` (which is never that
of `focallength_px`). -/
noncomputable def St.copyF (s : St) (p : ℕ) (g : PField) : St :=
  let s := s.mod (.p p g) fun q => { q with value := (s.par (.p p .f)).value, boxed := (s.par (.p p .f)).boxed }
  s.runSimple (s.par (.p p g)).callback

/-- Call a callback; projection.py:181-187 for `focallength_px`. -/
noncomputable def St.run (s : St) : Cb → St
  | .matrix o => s.runMatrix o
  | .lens l => s.runLens l
  | .focal p => (s.copyF p .fx).copyF p .fy

/-- `if callback is not None: callback()`. -/
noncomputable def St.runOpt (s : St) : Option Cb → St
  | some cb => s.run cb
  | none => s

/-- Calling all callbacks of a set, in some order. -/
noncomputable def St.runAll (s : St) (order : List Cb) : St := order.foldl St.run s

/-- parameter_set.py:112-122 with a plain value. -/
noncomputable def St.assign (s : St) (q : Pid) (v : Option ℝ) (boxed : Bool) : St :=
  let s := s.mod q fun x => { x with mean := none, value := v, state := .userSet, boxed := boxed }
  s.runOpt (s.par q).callback

/-- parameter_set.py:112-122 with a tuple (69-72 `set_stats`). -/
noncomputable def St.assignStats (s : St) (q : Pid) (mean std : ℝ) : St :=
  let s := s.mod q fun x => { x with mean := some mean, value := some mean, std := std, state := .userSet, boxed := false }
  s.runOpt (s.par q).callback

/-- parameter_set.py:85-91: assignment to `defaults`. -/
noncomputable def St.assignDefault (s : St) (q : Pid) (v : ℝ) : St :=
  let s := s.mod q fun x => { x with default := some v }
  if (s.par q).value = none then s.runOpt (s.par q).callback else s

/-- parameter_set.py:142-147: the loop of `set_fit_parameters`; unknown names are skipped. -/
noncomputable def St.fitLoop (s : St) (d : Dict) : List (String × ℝ) → St
  | [] => s
  | (n, v) :: t => match d.lookup n with
    | some q => (s.mod q fun x => { x with value := some v, state := .fit, boxed := false }).fitLoop d t
    | none => s.fitLoop d t

/-- The set of callbacks collected in parameter_set.py:145-147. -/
noncomputable def St.fitCallbacks (s : St) (d : Dict) (vals : List (String × ℝ)) : List Cb :=
  vals.filterMap fun nv => (d.lookup nv.1).bind fun q => (s.par q).callback

/-- The callbacks of all parameters of a set (parameter_set.py:190-193, 208-211). -/
noncomputable def St.allCallbacks (s : St) (d : Dict) : List Cb := d.filterMap fun kv => (s.par kv.2).callback

/-- `order` is an order in which the set of the callbacks in `cbs` can be iterated. -/
def IsOrder (order cbs : List Cb) : Prop := order.Nodup ∧ ∀ cb, cb ∈ order ↔ cb ∈ cbs

/-- parameter_set.py:136-149 `set_fit_parameters`. -/
noncomputable def St.setFit (s : St) (d : Dict) (vals : List (String × ℝ)) (order : List Cb) : St :=
  (s.fitLoop d vals).runAll order

/-- parameter_set.py:61-63 for all parameters of a set; `draw` gives the normally distributed random numbers. -/
noncomputable def St.sampleLoop (s : St) (draw : Pid → ℝ) : Dict → St
  | [] => s
  | (_, q) :: t => (s.mod q fun x => if x.mean.isSome then { x with value := some (draw q), boxed := false } else x).sampleLoop draw t

/-- parameter_set.py:65-67 for all parameters of a set. -/
noncomputable def St.meanLoop (s : St) : Dict → St
  | [] => s
  | (_, q) :: t => (s.mod q fun x => if x.mean.isSome then { x with value := x.mean, boxed := false } else x).meanLoop t

/-- parameter_set.py:43-59: a new parameter object. -/
def newParam (value default : Option ℝ) (type : ℕ) (cb : Option Cb) : Param where
  value := value
  default := default
  state := if value.isSome then .userSet else .default
  type := type
  callback := cb

/-- spatial.py:84-94, 232-243: the defaults. -/
def OField.default : OField → ℝ
  | .elev => 30
  | .ang => 85
  | _ => 0

/-- parameter_set.py:31-37, spatial.py:84-94, 232-243: the types (TYPE_EXTRINSIC1 = 4, TYPE_EXTRINSIC2 = 8). -/
def OField.type : OField → ℕ
  | .elev | .ang | .roll => 4
  | _ => 8

/-- Constructor of the orientations (spatial.py:82-97, 230-246). -/
noncomputable def St.newOrient (s : St) (o : ℕ) (k : OKind) (args : OField → Option ℝ) : St :=
  let s := { s with
    par := fun q => match q with
      | .o o' f => if o' = o then newParam (args f) (some f.default) f.type (some (.matrix o)) else s.par q
      | _ => s.par q
    orients := Function.update s.orients o (some ⟨k, ⟨⟨0, 0, 0⟩, ⟨⟨0, 0, 0⟩, ⟨0, 0, 0⟩, ⟨0, 0, 0⟩⟩, ⟨⟨0, 0, 0⟩, ⟨0, 0, 0⟩, ⟨0, 0, 0⟩⟩⟩⟩) }
  s.runMatrix o

/-- projection.py:164-174: the defaults. -/
noncomputable def PField.default : PField → Option ℝ
  | .cx | .cy => some 0
  | .sh => some 13
  | .sw => some 17.3
  | _ => none

/-- The last part of the constructor of the projections (projection.py:164-190), given the values computed before
(see Verif/Model/Construct.lean); `attr` says whether a field of view was given (lines 146-147). -/
noncomputable def St.newProj (s : St) (p : ℕ) (k : Projection.Kind) (args : PField → Option ℝ) (attr : Bool) : St :=
  { s with
    par := fun q => match q with
      | .p p' .f => if p' = p then newParam (args .fx) none 2 (some (.focal p)) else s.par q
      | .p p' f => if p' = p then newParam (args f) f.default 2 none else s.par q
      | _ => s.par q
    projs := Function.update s.projs p (some ⟨k, if attr then some ((args .iw).getD 0, (args .ih).getD 0) else none⟩) }

/-- Constructor of the lenses (lens_distortion.py:43-44, 113-122, 205-214); `scale = 1` and `offset = [0, 0]` are
class attributes (lens_distortion.py:40-41). -/
noncomputable def St.newLens (s : St) (l : ℕ) (k : LKind) (args : LField → Option ℝ) : St :=
  let s := { s with
    par := fun q => match q with
      | .l l' f => if l' = l then newParam (args f) (some 0) 16 (some (.lens l)) else s.par q
      | _ => s.par q
    lenses := Function.update s.lenses l (some ⟨k, none, ⟨⟨0, 0, 0⟩, ⟨1, 1⟩, ⟨0, 0⟩⟩⟩) }
  s.runLens l

/-- `for name in self.parameters.parameters: ….callback = self._init_inverse` (lens_distortion.py:137-138, 229-230). -/
noncomputable def St.hook (s : St) (l : ℕ) : Dict → St
  | [] => s
  | (_, q) :: t => (s.mod q fun x => { x with callback := some (.lens l) }).hook l t

/-- `setProjection` (lens_distortion.py:61-62, 124-139, 216-231). -/
noncomputable def St.setProjection (s : St) (l p : ℕ) : St :=
  match s.lenses l with
  | none => s
  | some L =>
    if L.kind = .none then s
    else
      let s := { s with
        lenses := Function.update s.lenses l (some { L with proj := some p })
        traces := Function.update s.traces (.lens l) none }
      (s.hook l (lensDict L.kind l (some p))).runLens l

/-- camera.py:444-459 `Camera.__init__`. -/
noncomputable def St.newCam (s : St) (c p o l : ℕ) : St :=
  let s := s.setProjection l p
  let s := { s with
    par := fun q => match q with
      | .c c' _ => if c' = c then newParam (some 0) (some 0) 32 none else s.par q
      | _ => s.par q }
  let d : Dict := CField.all.map fun f => (f.name, .c c f)
  let d := dictUpdate d (s.dict (.proj p))
  let d := dictUpdate d (s.dict (.orient o))
  let d := dictUpdate d (s.dict (.lens l))
  { s with
    cams := Function.update s.cams c (some ⟨p, o, l, d⟩)
    traces := Function.update s.traces (.cam c) none }

/-- The operations a user can perform. -/
inductive Op
  | newOrient (o : ℕ) (k : OKind) (args : OField → Option ℝ)
  | newProj (p : ℕ) (k : Projection.Kind) (args : PField → Option ℝ) (attr : Bool)
  | newLens (l : ℕ) (k : LKind) (args : LField → Option ℝ)
  | newCam (c p o l : ℕ)
  | newGroup (g : ℕ) (d : Dict)
  | set (v : View) (name : String) (x : Option ℝ) (boxed : Bool)
  | setStats (v : View) (name : String) (mean std : ℝ)
  | setDefault (v : View) (name : String) (x : ℝ)
  | setFit (v : View) (vals : List (String × ℝ)) (order : List Cb)
  | sample (v : View) (draw : Pid → ℝ) (order : List Cb)
  | toMean (v : View) (order : List Cb)
  | setTrace (v : View) (t : Option (List Row))

/-- The effect of an operation.  Names that are no parameters set ordinary attributes, which are not modelled here (see `OwnAttr`).
`sample` and `toMean` are those without a trace (parameter_set.py:188-195, 206-213); with a trace both call
`set_fit_parameters` with a row of the trace (181-187, 197-205), which is `setFit`. -/
noncomputable def St.step (s : St) : Op → St
  | .newOrient o k args => s.newOrient o k args
  | .newProj p k args attr => s.newProj p k args attr
  | .newLens l k args => s.newLens l k args
  | .newCam c p o l => s.newCam c p o l
  | .newGroup g d => { s with groups := Function.update s.groups g (some d) }
  | .set v name x boxed => match (s.dict v).lookup name with
    | some q => s.assign q x boxed
    | none => s
  | .setStats v name m σ => match (s.dict v).lookup name with
    | some q => s.assignStats q m σ
    | none => s
  | .setDefault v name x => match (s.dict v).lookup name with
    | some q => s.assignDefault q x
    | none => s
  | .setFit v vals order => s.setFit (s.dict v) vals order
  | .sample v draw order => (s.sampleLoop draw (s.dict v)).runAll order
  | .toMean v order => (s.meanLoop (s.dict v)).runAll order
  | .setTrace v t => { s with traces := Function.update s.traces v t }

/-- When an operation is possible: new objects have new names (a camera can be initialised again, camera.py:1584),
existing objects are used, `None` is only assigned to parameters that were created with a default (otherwise later
computations raise), `sample` and `toMean` stand for calls without a trace, the callbacks are called in some order of
the set. -/
def St.ok (s : St) : Op → Prop
  | .newOrient o _ _ => s.orients o = none
  | .newProj p _ args _ => s.projs p = none ∧ ∀ f, f = .f ∨ args f ≠ none ∨ PField.default f ≠ none
  | .newLens l _ _ => s.lenses l = none
  | .newCam _ p o l => s.projs p ≠ none ∧ s.orients o ≠ none ∧ s.lenses l ≠ none
  | .newGroup g d => s.groups g = none ∧ ∀ kv ∈ d, ∃ v n, v ≠ View.group g ∧ (s.dict v).lookup n = some kv.2
  | .set v name x _ => x ≠ none ∨ ∀ p f, (s.dict v).lookup name = some (.p p f) → f.default ≠ none
  | .setStats .. => True
  | .setDefault .. => True
  | .setFit v vals order => IsOrder order (s.fitCallbacks (s.dict v) vals)
  | .sample v _ order => s.traces v = none ∧ IsOrder order (s.allCallbacks (s.dict v))
  | .toMean v order => s.traces v = none ∧ IsOrder order (s.allCallbacks (s.dict v))
  | .setTrace .. => True

/-- parameter_set.py:126-134 `get_fit_parameters`. -/
noncomputable def St.getFit (s : St) (v : View) (mask : Option ℕ) : List String :=
  (s.dict v).filterMap fun kv =>
    if (∃ m, mask = some m ∧ (s.par kv.2).type &&& m = 0) then none
    else if (s.par kv.2).state ≠ .userSet ∨ (s.par kv.2).value = none then some kv.1
    else none

/-- lens_distortion.py:148-149, 242-243 with the attributes of the lens object: `_convert_radius` reads the current
coefficients, but the `d` of the last `_init_inverse`; `_convert_radius_inverse` belongs to the coefficients of the
last `_init_inverse`. -/
noncomputable def St.lensOf (spline : LensModel.Spline) (s : St) (l : ℕ) : Camera.Lens :=
  match s.lenses l with
  | none => Camera.noDistortion
  | some L =>
    let k1 := s.rd (.l l .k1)
    let k2 := s.rd (.l l .k2)
    let k3 := s.rd (.l l .k3)
    match L.kind with
    | .none => Camera.noDistortion
    | .brown => LensModel.Radial.lens
      { scale := L.snap.scale
        offset := L.snap.offset
        conv := LensModel.brownRadius k1 k2 k3
        inv := LensModel.invertFunction spline LensModel.knots (LensModel.brownRadius L.snap.ks.x L.snap.ks.y L.snap.ks.z) }
    | .abc => LensModel.Radial.lens
      { scale := L.snap.scale
        offset := L.snap.offset
        conv := fun r => .fin (1 - L.snap.ks.x - L.snap.ks.y - L.snap.ks.z) * r + .fin k3 * r.npow 2 + .fin k2 * r.npow 3 +
          .fin k1 * r.npow 4
        inv := LensModel.invertFunction spline LensModel.knots (LensModel.abcRadius L.snap.ks.x L.snap.ks.y L.snap.ks.z) }

/-- The attributes a projection object uses (projection.py:344-581). -/
noncomputable def St.intrOf (s : St) (p : ℕ) : Projection.Intr :=
  ⟨s.rd (.p p .fx), s.rd (.p p .fy), s.rd (.p p .cx), s.rd (.p p .cy), s.projWidth p, s.projHeight p⟩

/-- camera.py:1002-1005 `imageFromSpace` for one row, with the cached matrices of the orientation and the cached
attributes of the lens. -/
noncomputable def St.imageFromSpace (spline : LensModel.Spline) (s : St) (c : ℕ) (pt : V3 Num) (hide : Bool := true) :
    Option (V2 Num) :=
  match s.cams c with
  | none => none
  | some C =>
    match s.projs C.proj, s.orients C.orient with
    | some P, some O => some ((s.lensOf spline C.lens).distortedFromImage
        (Projection.imageFromCamera P.kind (s.intrOf C.proj) (Spatial.cameraFromSpace O.mat pt) hide))
    | _, _ => none

/-- camera.py:1048-1056 `getRay` for one row, with the cached attributes. -/
noncomputable def St.getRay (spline : LensModel.Spline) (s : St) (c : ℕ) (pt : V2 Num) (normed : Bool := false) :
    Option (V3 Num × V3 Num) :=
  match s.cams c with
  | none => none
  | some C =>
    match s.projs C.proj, s.orients C.orient with
    | some P, some O => some (Spatial.spaceFromCamera O.mat ⟨.fin 0, .fin 0, .fin 0⟩,
        Spatial.spaceFromCamera O.mat
          (Projection.getRay P.kind (s.intrOf C.proj) ((s.lensOf spline C.lens).imageFromDistorted pt) normed) true)
    | _, _ => none

/-- Nothing exists yet. -/
def St.empty : St where
  par := fun _ => newParam none (some 0) 0 none
  orients := fun _ => none
  projs := fun _ => none
  lenses := fun _ => none
  cams := fun _ => none
  groups := fun _ => none
  traces := fun _ => none

/-- The states after some history. -/
inductive Reach : St → Prop
  | start : Reach St.empty
  | step {s op} : Reach s → s.ok op → Reach (s.step op)

end Sys
