import Mathlib.Data.List.Basic
import Mathlib.Data.Finset.Basic

/-! # The window of the calibration tool: list of images, "Process" button, table

Model of gui_tools/calibrate/gui_calibrate.py:63-142 (`MyImage`), 295-298 (`clearImages`), 397-413 (`processImages`,
`processNextImage`), 415-438 (`updateTable`, `loadBatch`) and 454-462 (`imageDoubleClicked`) as a transition system: the main thread runs
one handler at a time, every image is processed in a thread of its own, whose writes to the attributes of the image and whose signals
are single steps.  A signal that is sent from such a thread to a method connected k times is k calls waiting in the main thread (Qt's
queued connections); they are delivered in any order.  Simplified: what `processImage` of calibrate.py finds in an image is a function
`det` of the image (nothing, or the corners) or an exception; the pictures, icons and the view are left out. -/

namespace CalWin

/-- gui_calibrate.py:68, 88, 126, 134, 139: the texts "False", "in progress", "Failed" and "True". -/
inductive Status where
  | no | progress | failed | yes
  deriving DecidableEq

/-- What a row of the table shows of an image (gui_calibrate.py:112-113). -/
structure Row where
  name : String
  status : Status
  use : Bool

/-- gui_calibrate.py:63-89, 434: the attributes of a `MyImage`. -/
structure Img (D : Type) where
  name : String
  status : Status
  use : Bool
  corners : Option D
  row : ℕ

/-- gui_calibrate.py:112-113: `getData`. -/
def Img.data {D : Type} (i : Img D) : Row := ⟨i.name, i.status, i.use⟩

/-- gui_calibrate.py:74-91, 434: a new `MyImage`, with the corners found in the output folder, and its row. -/
def Img.new {D : Type} (name : String) (cached : Option D) (row : ℕ) : Img D :=
  match cached with
  | some c => ⟨name, .yes, true, some c, row⟩
  | none => ⟨name, .no, false, none, row⟩

/-- How far a thread has come in `processImage` (gui_calibrate.py:125-142): nothing done; status "in progress" written; row signalled and
looking for the corners; corners written; status written; everything written; row signalled. -/
inductive Pc where
  | begin | started | detecting | gotCorners | gotStatus | written | signalled
  deriving DecidableEq

/-- A thread that processes an image. -/
structure Thr where
  img : ℕ
  pc : Pc
  deriving DecidableEq

/-- The state of the window. -/
structure St (D : Type) where
  /-- all images ever created -/
  imgs : ℕ → Img D
  /-- how many were created -/
  count : ℕ
  /-- `self.images` -/
  images : List ℕ
  /-- `self.process_image_index` -/
  index : ℕ
  /-- how often `processing_finished` of an image is connected to `processNextImage` -/
  conn : ℕ → ℕ
  /-- the running threads -/
  threads : List Thr
  /-- waiting calls of `processNextImage` -/
  calls : ℕ
  /-- waiting calls of `setTableRow` -/
  rows : List ℕ
  /-- what the table shows -/
  table : List Row
  /-- the images whose processing was started since the last click on "Process" (not in the code) -/
  log : List ℕ

variable {D : Type}

/-- Change an image. -/
def St.upd (s : St D) (i : ℕ) (f : Img D → Img D) : St D := { s with imgs := Function.update s.imgs i (f (s.imgs i)) }

/-- gui_calibrate.py:402-413: `processNextImage`. -/
def St.next (s : St D) : St D :=
  match s.images[s.index]? with
  | none => s
  | some i => { s with index := s.index + 1, conn := Function.update s.conn i (s.conn i + 1), threads := ⟨i, .begin⟩ :: s.threads,
                       log := s.log ++ [i] }

/-- gui_calibrate.py:397-400: `processImages`. -/
def St.click (s : St D) : St D := St.next { s with index := 0, log := [] }

/-- gui_calibrate.py:99-102: `setTableRow`; without such a row it raises and nothing changes. -/
def St.setRow (s : St D) (i : ℕ) : St D := { s with table := s.table.set (s.imgs i).row (s.imgs i).data }

/-- gui_calibrate.py:415-419: `updateTable`. -/
def St.updateTable (s : St D) : St D :=
  s.images.foldl St.setRow { s with table := s.images.map fun i => (s.imgs i).data }

/-- gui_calibrate.py:295-298: `clearImages`. -/
def St.clear (s : St D) : St D := St.updateTable { s with images := [] }

/-- gui_calibrate.py:430-435: the new images, each with its row; `k` rows are taken. -/
def St.create (s : St D) : List (String × Option D) → St D
  | [] => s
  | x :: xs => St.create { s with imgs := Function.update s.imgs s.count (Img.new x.1 x.2 s.images.length), count := s.count + 1,
                                  images := s.images ++ [s.count] } xs

/-- gui_calibrate.py:430-438: `loadBatch` with the found files and their stored corners. -/
def St.load (s : St D) (files : List (String × Option D)) : St D := St.updateTable (s.create files)

/-- gui_calibrate.py:454-462: double click on the last column of a row. -/
def St.toggle (s : St D) (r : ℕ) : St D :=
  match s.images[r]? with
  | none => s
  | some i => if (s.imgs i).corners.isSome then St.setRow (s.upd i fun m => { m with use := !m.use }) i else s

/-- gui_calibrate.py:125-142: the next step of the `k`-th thread; `det` is what is found in the images. -/
def St.work (s : St D) (det : ℕ → Option D) (k : ℕ) : St D :=
  match s.threads[k]? with
  | none => s
  | some ⟨i, .begin⟩ => { s.upd i (fun m => { m with status := .progress }) with threads := s.threads.set k ⟨i, .started⟩ }
  | some ⟨i, .started⟩ => { s with rows := i :: s.rows, threads := s.threads.set k ⟨i, .detecting⟩ }
  | some ⟨i, .detecting⟩ =>
    match det i with
    | none => { s.upd i (fun m => { m with status := .failed }) with threads := s.threads.set k ⟨i, .written⟩ }
    | some c => { s.upd i (fun m => { m with corners := some c }) with threads := s.threads.set k ⟨i, .gotCorners⟩ }
  | some ⟨i, .gotCorners⟩ => { s.upd i (fun m => { m with status := .yes }) with threads := s.threads.set k ⟨i, .gotStatus⟩ }
  | some ⟨i, .gotStatus⟩ => { s.upd i (fun m => { m with use := true }) with threads := s.threads.set k ⟨i, .written⟩ }
  | some ⟨i, .written⟩ => { s with rows := i :: s.rows, threads := s.threads.set k ⟨i, .signalled⟩ }
  | some ⟨i, .signalled⟩ => { s with calls := s.calls + s.conn i, threads := s.threads.eraseIdx k }

/-- gui_calibrate.py:131: an exception in `processImage` of calibrate.py ends the thread. -/
def St.die (s : St D) (k : ℕ) : St D :=
  match s.threads[k]? with
  | some ⟨_, .detecting⟩ => { s with threads := s.threads.eraseIdx k }
  | _ => s

/-- A waiting call of `processNextImage` is delivered. -/
def St.deliver (s : St D) : St D := if s.calls = 0 then s else St.next { s with calls := s.calls - 1 }

/-- A waiting call of `setTableRow` is delivered. -/
def St.deliverRow (s : St D) (k : ℕ) : St D :=
  match s.rows[k]? with
  | none => s
  | some i => St.setRow { s with rows := s.rows.eraseIdx k } i

/-- What can happen: the user presses "Process" or "Clear Images", adds images or double clicks; a thread makes a step or dies; a waiting
call is delivered, or is dropped because its image was destroyed. -/
inductive Act (D : Type) where
  | click
  | clear
  | load (files : List (String × Option D))
  | toggle (r : ℕ)
  | work (k : ℕ)
  | die (k : ℕ)
  | deliver
  | deliverRow (k : ℕ)
  | drop
  | dropRow (k : ℕ)

/-- The effect of an action. -/
def St.act (det : ℕ → Option D) (s : St D) : Act D → St D
  | .click => s.click
  | .clear => s.clear
  | .load fs => s.load fs
  | .toggle r => s.toggle r
  | .work k => s.work det k
  | .die k => s.die k
  | .deliver => s.deliver
  | .deliverRow k => s.deliverRow k
  | .drop => { s with calls := s.calls - 1 }
  | .dropRow k => { s with rows := s.rows.eraseIdx k }

/-- gui_calibrate.py:174-180: the window at the start. -/
def St.init (D : Type) : St D :=
  { imgs := fun _ => Img.new "" none 0, count := 0, images := [], index := 0, conn := fun _ => 0, threads := [], calls := 0, rows := [],
    table := [], log := [] }

/-- gui_calibrate.py:301-310: the images whose corners are given to OpenCV by `fitCalibration`, and their corners. -/
def St.fitted (s : St D) : List D :=
  s.images.filterMap fun i => if (s.imgs i).corners = none ∨ (s.imgs i).use = false then none else (s.imgs i).corners

end CalWin
