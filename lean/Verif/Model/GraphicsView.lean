import Verif.Vec

/-!
# Model: the image view of the calibration window

`QExtendedGraphicsView` (gui_tools/calibrate/QExtendedGraphicsView.py).  Simplifications: numbers are real numbers; the window shows the
scene point `(a, b)` at its pixel `(a, b)` (the view transform is the identity, lines 118-121 and 185, so `mapToScene` and `mapFromScene`
are the identity); the conversion of the results of `mapToOrigin` and `mapFromOrigin` to integers is left out; `panEvent` and `zoomEvent`
do nothing (lines 343-347); the `hud_*` items are left out; an exception ends the history.
-/

open Classical

namespace GView

/-- The attributes of a view.  `scale` is `m11` and `m22` of the transform of `scaler`, `trans`, `r1`, `org`, `off` are `dx, dy` of the
transforms of `translater`, `rotater1`, `origin`, `offset`; these transforms have no other entries. -/
structure View where
  size : V2 ℝ
  rect : V2 ℝ
  scale : ℝ
  trans : V2 ℝ
  r1 : V2 ℝ
  org : V2 ℝ
  off : V2 ℝ
  angle : ℝ
  rotation : ℝ
  fitted : Bool
  panning : Bool
  last : V2 ℝ
  initialized : Bool

/-- QExtendedGraphicsView.py:58-127 `__init__` of a view of the given size. -/
def init (size : V2 ℝ) : View :=
  { size, rect := ⟨1, 1⟩, scale := 1, trans := ⟨0, 0⟩, r1 := ⟨0, 0⟩, org := ⟨0, 0⟩, off := ⟨0, 0⟩, angle := 0, rotation := 0,
    fitted := true, panning := false, last := ⟨0, 0⟩, initialized := false }

/-- Where a point of an item in `origin` is shown: the transforms of the chain of parents (lines 73-80) from the inside, the rotation
being that of Qt, clockwise in a window with y downwards. -/
noncomputable def shown (v : View) (p : V2 ℝ) : V2 ℝ :=
  let a := v.angle * Real.pi / 180
  let x := p.x + v.org.x + v.off.x
  let y := p.y + v.org.y + v.off.y
  let x2 := Real.cos a * x - Real.sin a * y
  let y2 := Real.sin a * x + Real.cos a * y
  ⟨v.scale * (x2 + v.r1.x + v.trans.x), v.scale * (y2 + v.r1.y + v.trans.y)⟩

/-- Python's `/` of numbers, an exception for a divisor zero. -/
noncomputable def pdiv (a b : ℝ) : Option ℝ := if b = 0 then none else some (a / b)

/-- The test of lines 198, 219, 242. -/
def quarter (r : ℝ) : Prop := r = 90 ∨ r = 270

/-- The common part of lines 196-203 and 217-224 with `m` for `min` or `max`. -/
noncomputable def fitWith (m : ℝ → ℝ → ℝ) (v : View) : Option View := do
  let a ← pdiv v.size.x v.rect.x
  let b ← pdiv v.size.y v.rect.y
  let scale ← if quarter v.rotation then do
      let a ← pdiv v.size.x v.rect.y
      let b ← pdiv v.size.y v.rect.x
      pure (m a b)
    else pure (m a b)
  let xoff := v.size.x - v.rect.x * scale
  let yoff := v.size.y - v.rect.y * scale
  let tx ← pdiv (xoff * 0.5) scale
  let ty ← pdiv (yoff * 0.5) scale
  return { v with scale := scale, trans := ⟨tx, ty⟩ }

/-- QExtendedGraphicsView.py:194-206. -/
noncomputable def fitInView (v : View) : Option View := (fitWith min v).map fun v => { v with fitted := true }

/-- QExtendedGraphicsView.py:130-138. -/
noncomputable def setExtend (v : View) (w h : ℝ) : Option View :=
  let doFit := v.fitted = true ∧ ¬ (v.rect.x = w ∧ v.rect.y = h)
  let v := { v with rect := ⟨w, h⟩, r1 := ⟨w / 2, h / 2⟩, org := ⟨-w / 2, -h / 2⟩ }
  if doFit then fitInView v else some v

/-- QExtendedGraphicsView.py:163-168. -/
noncomputable def paint (v : View) : Option View :=
  if v.initialized then some v else fitInView { v with initialized := true }

/-- QExtendedGraphicsView.py:170-185, after the window got the new size. -/
noncomputable def resize (v : View) (size : V2 ℝ) : Option View :=
  let v := { v with size := size }
  if v.fitted then fitInView v else some v

/-- Python's `%` of real numbers. -/
noncomputable def pmod (a b : ℝ) : ℝ := a - b * ⌊a / b⌋

/-- QExtendedGraphicsView.py:187-192. -/
noncomputable def rotate (v : View) (a : ℝ) : Option View :=
  let v := { v with rotation := pmod (v.rotation + a) 360, angle := v.angle + a }
  if v.fitted then fitInView v else some v

/-- QExtendedGraphicsView.py:232-259. -/
noncomputable def centerOn (v : View) (p : V2 ℝ) : Option View := do
  let q : V2 ℝ := if v.rotation = 180 then ⟨v.rect.x - p.x, v.rect.y - p.y⟩ else p
  let a ← pdiv v.size.x v.scale
  let b ← pdiv v.size.y v.scale
  let xoff := a - v.rect.x
  let yoff := b - v.rect.y
  return { v with trans := ⟨(v.rect.x / 2 - q.x) + xoff / 2, (v.rect.y / 2 - q.y) + yoff / 2⟩ }

/-- QExtendedGraphicsView.py:261-264. -/
def translateOrigin (v : View) (p : V2 ℝ) : View := { v with trans := p }

/-- QExtendedGraphicsView.py:266-275. -/
noncomputable def scaleOrigin (v : View) (k : ℝ) (pos : V2 ℝ) : Option View := do
  let a ← pdiv (-pos.x) v.scale
  let b ← pdiv (-pos.y) v.scale
  let s := k * v.scale
  let c ← pdiv pos.x s
  let d ← pdiv pos.y s
  return { v with trans := ⟨v.trans.x + a + c, v.trans.y + b + d⟩, scale := s, fitted := false }

/-- QExtendedGraphicsView.py:326-341 for an event that no item accepts; `turn` is `event.angleDelta().y()`. -/
noncomputable def wheel (v : View) (turn : ℤ) (pos : V2 ℝ) : Option View :=
  if turn > 0 then scaleOrigin v 1.1 pos else scaleOrigin v 0.9 pos

/-- QExtendedGraphicsView.py:301-305; `right` says whether the button is the right one. -/
def press (v : View) (right : Bool) (pos : V2 ℝ) : View := if right then { v with last := pos, panning := true } else v

/-- QExtendedGraphicsView.py:307-316 (numpy divides by zero without an exception; `scale` is not zero where this is used). -/
noncomputable def move (v : View) (pos : V2 ℝ) : View :=
  if v.panning then
    { v with
      trans := ⟨v.trans.x + (pos.x - v.last.x) / v.scale, v.trans.y + (pos.y - v.last.y) / v.scale⟩
      last := pos
      fitted := false }
  else v

/-- QExtendedGraphicsView.py:321-324. -/
def release (v : View) (right : Bool) : View := if right then { v with panning := false } else v

/-- QExtendedGraphicsView.py:318-319. -/
def doTranslateOrigin (v : View) (d : V2 ℝ) : View := { v with off := ⟨v.off.x + d.x, v.off.y + d.y⟩ }

/-- QExtendedGraphicsView.py:140-161 `GetExtend` without the transform; `rnd` is the rounding of Qt's map of integer points. -/
noncomputable def getExtend (rnd : ℝ → ℤ) (v : View) : ℤ × ℤ × ℤ × ℤ :=
  let f (a s r o t : ℝ) : ℤ := rnd (a / s - (o + r + t))
  let x0 := f 0 v.scale v.r1.x v.org.x v.trans.x
  let y0 := f 0 v.scale v.r1.y v.org.y v.trans.y
  let x1 := f v.size.x v.scale v.r1.x v.org.x v.trans.x
  let y1 := f v.size.y v.scale v.r1.y v.org.y v.trans.y
  (min x0 x1, min y0 y1, max x0 x1, max y0 y1)

/-- QExtendedGraphicsView.py:208-230. -/
noncomputable def fitSmall (rnd : ℝ → ℤ) (v : View) : Option View := do
  let e := getExtend rnd v
  let w ← fitWith max v
  let a ← pdiv v.size.x v.rect.x
  let b ← pdiv v.size.y v.rect.y
  if a < b then centerOn w ⟨((e.1 : ℝ) + e.2.2.1) / 2, v.rect.y / 2⟩
  else centerOn w ⟨v.rect.x / 2, ((e.2.1 : ℝ) + e.2.2.2) / 2⟩

/-- QExtendedGraphicsView.py:280-288 `mapToOrigin` and `mapSceneToOrigin`. -/
noncomputable def mapToOrigin (v : View) (pos : V2 ℝ) : Option (V2 ℝ) := do
  let a ← pdiv pos.x v.scale
  let b ← pdiv pos.y v.scale
  return ⟨a - v.trans.x, b - v.trans.y⟩

/-- The arguments of `mapFromOrigin`: a point alone or two numbers. -/
inductive FromArg where
  | point (p : V2 ℝ)
  | coords (x y : ℝ)

/-- QExtendedGraphicsView.py:290-299.  For a point alone `y` is `None`: line 293 fails after line 292 replaced `x`, the failure is
swallowed, and line 298 adds a number to `None`. -/
def mapFromOrigin (v : View) : FromArg → Option (V2 ℝ)
  | .point _ => none
  | .coords x y => some ⟨(x + v.trans.x) * v.scale, (y + v.trans.y) * v.scale⟩

/-- What happens to a view in the calibration window: events of Qt and the calls of the window. -/
inductive Event where
  | setExtend (w h : ℝ)
  | paint
  | resize (size : V2 ℝ)
  | rotate (a : ℝ)
  | fitInView
  | press (right : Bool) (pos : V2 ℝ)
  | move (pos : V2 ℝ)
  | release (right : Bool)
  | wheel (turn : ℤ) (pos : V2 ℝ)

/-- One event. -/
noncomputable def Event.run (v : View) : Event → Option View
  | .setExtend w h => GView.setExtend v w h
  | .paint => GView.paint v
  | .resize s => GView.resize v s
  | .rotate a => GView.rotate v a
  | .fitInView => GView.fitInView v
  | .press r p => some (GView.press v r p)
  | .move p => some (GView.move v p)
  | .release r => some (GView.release v r)
  | .wheel t p => GView.wheel v t p

/-- A history of events. -/
noncomputable def runAll (v : View) (l : List Event) : Option View := l.foldlM Event.run v

end GView
