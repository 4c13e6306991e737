import Verif.Props.Camera
import Verif.Proofs.Same

/-! # C14 for cameras with a distorting lens -/

open Classical Num Camera

/-- **C14** for cameras with a Brown or an ABC lens (any radial lens): after `rotateSpace(delta)` the image of the point
turned clockwise by delta is the image of the point before. -/
theorem C14_rotateSpace_radial (c : Cam) (o : Spatial.Params) (ho : c.orient = .thr o) (L : LensModel.Radial)
    (hl : c.lens = L.lens) (delta : ℝ) (P : V3 ℝ) (hseam : c.kind = .rectilinear ∨ ¬ OnSeam c P) (hide : Bool) :
    V2.SameN (imageFromSpace c P.num hide)
      (imageFromSpace { c with orient := .thr (rotateSpace o delta) }
        (Geo.clockwise (delta * Real.pi / 180) P).num hide) := by
  have := rotate_undistorted c o ho delta P hseam hide
  unfold imageFromSpace
  rw [hl]
  exact LensModel.transform_same L _ this.sameN

example (L : LensModel.Radial) : V2.SameN (imageFromSpace { exampleCam with lens := L.lens } (V3.num ⟨1, 2, 0⟩))
    (imageFromSpace { { exampleCam with lens := L.lens } with orient := .thr (rotateSpace ⟨10, 0, 0, 0, 0, 0⟩ 30) }
      (Geo.clockwise (30 * Real.pi / 180) ⟨1, 2, 0⟩).num) :=
  C14_rotateSpace_radial { exampleCam with lens := L.lens } ⟨10, 0, 0, 0, 0, 0⟩ rfl L rfl 30 ⟨1, 2, 0⟩ (Or.inl rfl) true
