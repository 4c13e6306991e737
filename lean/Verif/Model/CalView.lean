import Verif.Model.CalLoad
import Verif.Model.QInput

/-! # The two views of the calibration tool

Model of gui_tools/calibrate/gui_calibrate.py:464-522 (`imageSelected`, `getSelectedImage`, `displayImage`, `keyPressEvent`), 242-243 (the
check box "Display Corrected"), 198 (selecting in the table), 295-298 (`clearImages`), 421-452 (`loadBatch`) and 165-168 (the signal of
`loadImage`) on top of `CalLoad`.  The signal that a thread sends when it has loaded an image is one or more calls of `displayImage` that
wait in the main thread, one for every connection made so far; the ones of images that were removed may get lost with the images.
Simplified: a batch contains at least one image; `getImage` does not fail; the extent of the views and the progress bar are left out; when
the table is cleared nothing is selected any more. -/

namespace CalView

variable {K : Type}

/-- The state of the window. -/
structure St (K : Type) where
  /-- the images, the calibration and the threads -/
  c : CalLoad.St K
  /-- whether `image_data` of an image is there -/
  data : ℕ → Bool
  /-- the selected row of the table -/
  sel : Option ℕ
  /-- `self.input_display_undistorted` -/
  box : QInput.St Bool
  /-- how often `loading_image_finished` of an image is connected -/
  conn : ℕ → ℕ
  /-- waiting calls of `displayImage`, with the image they come from -/
  calls : List ℕ
  /-- the picture in the upper view -/
  view1 : Option ℕ
  /-- the picture in the lower view and what it was corrected with -/
  view2 : Option (ℕ × CalLoad.Pic K)
  /-- how many exceptions were raised by `displayImage` -/
  raised : ℕ

/-- gui_calibrate.py:174-293: the window at the start, with the camera `k0`; the box is ticked. -/
def St.init (k0 : K) : St K := ⟨CalLoad.St.init k0, fun _ => false, none, QInput.St.new true, fun _ => 0, [], none, none, 0⟩

/-- gui_calibrate.py:481-490 `getSelectedImage`. -/
def St.selected (s : St K) : Option ℕ :=
  match s.sel with
  | none => s.c.images.head?
  | some r =>
    match s.c.images[r]? with
    | some i => some i
    | none => s.c.images.head?

/-- gui_calibrate.py:492-510 `displayImage`; `array2qimage(None)` raises. -/
def St.display (s : St K) : St K :=
  match s.selected with
  | none => s
  | some i =>
    let s1 := if s.data i then { s with view1 := some i } else s
    match s.box.value, s.c.und i with
    | true, some p => { s1 with view2 := some (i, p) }
    | _, _ => if s.data i then { s1 with view2 := some (i, none) } else { s1 with raised := s1.raised + 1 }

/-- gui_calibrate.py:464-479 `imageSelected`. -/
def St.imageSelected (s : St K) : St K :=
  match s.selected with
  | none => s
  | some i => { s with c := s.c.select i, conn := Function.update s.conn i (s.conn i + 1) }

/-- gui_calibrate.py:343-378 `newCalibration` with the calibration `k`. -/
def St.calibrate (s : St K) (k : K) : St K :=
  St.imageSelected { s with c := { s.c with calib := some k, cam := k, map := none,
                                            und := fun j => if j ∈ s.c.images then none else s.c.und j } }

/-- gui_calibrate.py:421-452 `loadBatch` with `n + 1` files: the images are added, the first image of the list is loaded, `displayImage`. -/
def St.loadBatch (s : St K) (n : ℕ) : St K :=
  let c := (CalLoad.St.add)^[n + 1] s.c
  let data := fun j => if s.c.count ≤ j ∧ j < c.count then false else s.data j
  match c.images.head? with
  | none => { s with c := c, data := data }
  | some i => St.display { s with c := c, data := Function.update data i true }

/-- gui_calibrate.py:165-168, 144-160: the next step of the `n`-th thread; when it ends, the signal is sent. -/
def St.work (s : St K) (n : ℕ) : St K :=
  match s.c.threads[n]? with
  | none => s
  | some ⟨i, _, pc⟩ =>
    { s with c := s.c.work n
             data := match pc with | .begin => Function.update s.data i true | _ => s.data
             calls := if (s.c.work n).threads.length < s.c.threads.length then List.replicate (s.conn i) i ++ s.calls else s.calls }

/-- What can happen: the user selects a row or nothing, fits or loads a calibration, adds a batch, clears the images, clicks the box,
presses D; a thread makes a step; a waiting call is delivered; a waiting call of an image that was removed is lost. -/
inductive Act (K : Type) where
  | select (r : Option ℕ)
  | calibrate (k : K)
  | load (n : ℕ)
  | clear
  | click
  | keyD
  | work (n : ℕ)
  | deliver (n : ℕ)
  | drop (n : ℕ)

/-- The effect of an action. -/
noncomputable def St.act (s : St K) : Act K → St K
  | .select none => St.imageSelected { s with sel := none }
  | .select (some r) => if r < s.c.images.length then St.imageSelected { s with sel := some r } else s
  | .calibrate k => s.calibrate k
  | .load n => s.loadBatch n
  | .clear => { s with c := s.c.clear, sel := none }
  | .click =>
    let b := s.box.act (.change (!s.box.value))
    if b.sent.length = s.box.sent.length then { s with box := b } else St.display { s with box := b }
  | .keyD => St.display { s with box := s.box.act (.program (!s.box.value)) }
  | .work n => s.work n
  | .deliver n => if n < s.calls.length then St.display { s with calls := s.calls.eraseIdx n } else s
  | .drop n =>
    match s.calls[n]? with
    | none => s
    | some i => if i ∈ s.c.images then s else { s with calls := s.calls.eraseIdx n }

/-- The window after a history. -/
noncomputable def after (k0 : K) (as : List (Act K)) : St K := as.foldl St.act (St.init k0)

end CalView
