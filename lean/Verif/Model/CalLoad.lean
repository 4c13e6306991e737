import Mathlib.Data.List.Basic
import Mathlib.Logic.Function.Basic

/-! # The window of the calibration tool: loading images and correcting them with the calibration

Model of gui_tools/calibrate/gui_calibrate.py:144-168 (`getUndistortedImage`, `resetCalibration`, `loadImage`), 343-378
(`newCalibration`), 464-479 (`imageSelected`) and of the cache `map_undistort` of camera.py:1289-1312 as a transition system: the main
thread runs one handler at a time, every selected image is loaded and corrected in a thread of its own, whose reads and writes of the
shared attributes are single steps.  Simplified: a picture is described by what it was corrected with (nothing, or a calibration); the
parameters of the camera are read in one step; all calibrations have the same image size, so that the extent of the map is always the
same; reading the file is one step that does not fail. -/

namespace CalLoad

variable {K : Type}

/-- What a picture was corrected with: `none` is the picture itself. -/
abbrev Pic (K : Type) := Option K

/-- How far a thread has come in `loadImage` (gui_calibrate.py:165-168, 154-160; camera.py:1289-1312): nothing done; picture loaded;
no corrected picture was there; no map was there and a map was computed; a map is there; the corrected picture is computed. -/
inductive Pc (K : Type) where
  | begin
  | loaded
  | missing
  | mapped (k : K)
  | found (k : K)
  | corrected (p : Pic K)

/-- A thread that loads an image; `camera` tells whether it was given the camera or None (gui_calibrate.py:471-477). -/
structure Thr (K : Type) where
  img : ℕ
  camera : Bool
  pc : Pc K

/-- The state of the window. -/
structure St (K : Type) where
  /-- how many images were created -/
  count : ℕ
  /-- `self.images` -/
  images : List ℕ
  /-- `self.calibration` -/
  calib : Option K
  /-- the parameters of `self.camera` -/
  cam : K
  /-- `self.camera.map_undistort`: what it was computed with -/
  map : Option K
  /-- `image_data_undistorted` of the images -/
  und : ℕ → Option (Pic K)
  /-- the running threads -/
  threads : List (Thr K)

/-- gui_calibrate.py:464-479: `imageSelected` (and `getSelectedImage`, 481-490): the thread is started for an image of the list. -/
def St.select (s : St K) (i : ℕ) : St K :=
  if i ∈ s.images then { s with threads := s.threads ++ [⟨i, s.calib.isSome, .begin⟩] } else s

/-- gui_calibrate.py:343-378: `newCalibration` with the calibration `k` while the image `i` is selected. -/
def St.calibrate (s : St K) (k : K) (i : ℕ) : St K :=
  St.select { s with calib := some k, cam := k, map := none, und := fun j => if j ∈ s.images then none else s.und j } i

/-- gui_calibrate.py:430-431: a new image. -/
def St.add (s : St K) : St K :=
  { s with count := s.count + 1, images := s.images ++ [s.count], und := Function.update s.und s.count none }

/-- gui_calibrate.py:295-297: `clearImages`. -/
def St.clear (s : St K) : St K := { s with images := [] }

/-- gui_calibrate.py:154-168 and camera.py:1289-1312: the next step of the `n`-th thread. -/
def St.work (s : St K) (n : ℕ) : St K :=
  match s.threads[n]? with
  | none => s
  | some ⟨i, c, .begin⟩ => { s with threads := s.threads.set n ⟨i, c, .loaded⟩ }
  | some ⟨i, c, .loaded⟩ =>
    match s.und i with
    | none => { s with threads := s.threads.set n ⟨i, c, .missing⟩ }
    | some _ => { s with threads := s.threads.eraseIdx n }
  | some ⟨i, false, .missing⟩ => { s with threads := s.threads.set n ⟨i, false, .corrected none⟩ }
  | some ⟨i, true, .missing⟩ =>
    match s.map with
    | none => { s with threads := s.threads.set n ⟨i, true, .mapped s.cam⟩ }
    | some k => { s with threads := s.threads.set n ⟨i, true, .found k⟩ }
  | some ⟨i, c, .mapped k⟩ => { s with map := some k, threads := s.threads.set n ⟨i, c, .found k⟩ }
  | some ⟨i, c, .found k⟩ => { s with threads := s.threads.set n ⟨i, c, .corrected (some k)⟩ }
  | some ⟨i, _, .corrected p⟩ => { s with und := Function.update s.und i (some p), threads := s.threads.eraseIdx n }

/-- What can happen. -/
inductive Act (K : Type) where
  | select (i : ℕ)
  | calibrate (k : K) (i : ℕ)
  | add
  | clear
  | work (n : ℕ)

/-- The effect of an action. -/
def St.act (s : St K) : Act K → St K
  | .select i => s.select i
  | .calibrate k i => s.calibrate k i
  | .add => s.add
  | .clear => s.clear
  | .work n => s.work n

/-- gui_calibrate.py:171-180: the window at the start, with the camera `k0`. -/
def St.init (k0 : K) : St K := ⟨0, [], none, k0, none, fun _ => none, []⟩

end CalLoad
