import Verif.Model.QInput
import Mathlib.Logic.Function.Basic

/-! # Saving and loading a calibration, and adding images, in the calibration tool

Model of gui_tools/calibrate/gui_calibrate.py:171-172, 209-218, 280-293 (the buttons), 295-298 (`clearImages`), 380-395
(`saveCalibration`, `loadCalibration`), 343-378 (`newCalibration`, as far as it keeps the calibration and enables the save button), 421-434
(`loadBatch`) with the buttons of demonstrator/QtShortCuts.py:329-387 (`QInputFilename`).  Simplified: a file contains a calibration or none;
`json.load` gives back what `json.dump` wrote; the message box is left out; what `loadBatch` makes of a file name is a parameter (see
`Verif/Model/Chess.lean`); a file that is chosen for loading exists. -/

namespace CalFile

/-- File names `F`, calibrations `K`, images `I`. -/
structure St (F K I : Type) where
  /-- `self.calibration`; the save button is enabled when there is one (gui_calibrate.py:286, 355) -/
  calibration : Option K
  /-- `self.images` -/
  images : List I
  /-- the files with calibrations -/
  disk : F → Option K
  /-- `self.button_save`, `self.button_load`, `self.input_filename` -/
  save : QInput.St F
  load : QInput.St F
  add : QInput.St F

variable {F K I : Type}

/-- gui_calibrate.py:174-293: the window at the start, in the directory `cwd`. -/
def St.start (cwd : F) (disk : F → Option K) : St F K I :=
  ⟨none, [], disk, QInput.St.new cwd, QInput.St.new cwd, QInput.St.new cwd⟩

/-- What the user does: fit the calibration `k`; click a button and choose the file `f` in the dialog; clear the images.  Another program
writes the file `f`. -/
inductive Act (F K : Type) where
  | fit (k : K)
  | save (f : F)
  | load (f : F)
  | add (f : F)
  | clear
  | extern (f : F) (k : K)

/-- QtShortCuts.py:358-379 `_openDialog` with the chosen file: `setValue`, `_emitSignal`; the handler runs when the name was sent. -/
noncomputable def chosen (b : QInput.St F) (f : F) : QInput.St F × Bool :=
  let b' := b.act (.enter f)
  (b', b'.sent.length != b.sent.length)

open Classical in
/-- One action; `batch` gives the images that `loadBatch` finds for a file name (gui_calibrate.py:421-434). -/
noncomputable def St.act (batch : F → List I) (s : St F K I) : Act F K → St F K I
  | .fit k => { s with calibration := some k }
  | .save f =>
    match s.calibration with
    | none => s
    | some k =>
      let (b, told) := chosen s.save f
      if told then { s with save := b, disk := Function.update s.disk f (some k) } else { s with save := b }
  | .load f =>
    match s.disk f with
    | none => s
    | some k =>
      let (b, told) := chosen s.load f
      if told then { s with load := b, calibration := some k } else { s with load := b }
  | .add f =>
    let (b, told) := chosen s.add f
    if told then { s with add := b, images := s.images ++ batch f } else { s with add := b }
  | .clear => { s with images := [] }
  | .extern f k => { s with disk := Function.update s.disk f (some k) }

/-- The window after a history. -/
noncomputable def after (batch : F → List I) (cwd : F) (disk : F → Option K) (as : List (Act F K)) : St F K I :=
  as.foldl (St.act batch) (St.start cwd disk)

end CalFile
