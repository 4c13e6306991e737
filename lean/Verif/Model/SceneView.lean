import Verif.Model.Scene
import Verif.Model.View

/-!
# Model: what `Scene.plotSceneViews` and `Scene.renderImage` draw

The lines handed to matplotlib; labels, colours and the order of drawing in different axes are left out.
-/

open Classical Camera

namespace Scene

/-- A row of an object as numpy holds it. -/
def rowNum : Row → V3 Num
  | some P => P.num
  | none => V3.nan

/-- scene.py:81-82, 93-94: the line drawn in the image for an object. -/
noncomputable def objectImage (c : Cam) (o : List Row) : List (V2 Num) := o.map fun r => imageFromSpace c (rowNum r)

/-- The columns x, y of an (Nx3) array (scene.py:47, 74). -/
def top (l : List (V3 Num)) : List (V2 Num) := l.map fun p => ⟨p.x, p.y⟩
/-- The columns x, z of an (Nx3) array (scene.py:53, 76). -/
def front (l : List (V3 Num)) : List (V2 Num) := l.map fun p => ⟨p.x, p.z⟩
/-- The columns y, z of an (Nx3) array (scene.py:59, 78). -/
def side (l : List (V3 Num)) : List (V2 Num) := l.map fun p => ⟨p.y, p.z⟩

/-- A row of `getImageHorizon` as a point. -/
def horizonPoint (r : ℝ × Option ℕ) : V2 Num := ⟨.fin r.1, match r.2 with
  | some y => .fin y
  | none => .nan⟩

/-- `np.linspace(0, w, 100)`. -/
noncomputable def columns (w : ℝ) : List ℝ := (List.range 100).map fun (i : ℕ) => (i : ℝ) * (w / 99)

/-- The lines in the four axes, the cone of the camera and the horizon first, and the limits of the image. -/
structure Views where
  xy : List (List (V2 Num))
  xz : List (List (V2 Num))
  yz : List (List (V2 Num))
  image : List (List (V2 Num))
  xlim : ℝ × ℝ
  ylim : ℝ × ℝ

/-- scene.py:36-82 `plotSceneViews`.  `w` and `h` are the size parameters of the projection.  Line 38 calls a method of the camera
before line 61 asks whether there is one. -/
noncomputable def plotSceneViews (s : State) (w h : View.Size) : Except PyErr Views :=
  match s.camera with
  | none => .error .attributeError
  | some c => do
    let cone ← View.cameraCone c w h false
    let horizon ← View.imageHorizon c (some (columns w.val))
    return {
      xy := top cone :: s.objects.map fun o => top (o.map rowNum)
      xz := front cone :: s.objects.map fun o => front (o.map rowNum)
      yz := side cone :: s.objects.map fun o => side (o.map rowNum)
      image := horizon.map horizonPoint :: s.objects.map (objectImage c)
      xlim := (0, w.val)
      ylim := (h.val, 0) }

/-- A figure written by `renderImage`: its size in pixels, the lines and the limits of the axes that fill the figure. -/
structure Figure where
  width : ℝ
  height : ℝ
  lines : List (List (V2 Num))
  xlim : ℝ × ℝ
  ylim : ℝ × ℝ

/-- scene.py:84-98 `renderImage`: the size of the figure is given in inches (line 86) and there are 100 dots per inch (line 97);
`np.zeros` in line 89 wants integers. -/
noncomputable def renderImage (s : State) (w h : View.Size) : Except PyErr Figure :=
  match s.camera, w, h with
  | none, _, _ => .error .attributeError
  | some c, .int w, .int h => .ok {
      width := (w : ℝ) / 100 * 100
      height := (h : ℝ) / 100 * 100
      lines := s.objects.map (objectImage c)
      xlim := (0, w)
      ylim := (h, 0) }
  | some _, _, _ => .error .typeError

end Scene
