import Verif.Spec.Construct
import Verif.Props.Fov
import Verif.Proofs.SystemRead

/-! # The constructor of the projections -/

set_option linter.constructorNameAsVariable false

open Classical Construct

namespace Construct

theorem truthy_nz {x : Option ℝ} (h : NZ x) : truthy x ↔ x ≠ none := by
  cases x with
  | none => simp [truthy]
  | some r => simp only [NZ, ne_eq, Option.some.injEq] at h; simp [truthy, h]

theorem truthyF_nz {x : Option FVal} (h : x ≠ some (.num (.fin 0)) ∧ x ≠ some (.num .nzero)) : truthyF x ↔ x ≠ none := by
  match x, h with
  | none, _ => simp [truthyF]
  | some (.num x), h => simpa [truthyF] using h
  | some (.pair _ _), _ => simp [truthyF]

theorem div_ok {a b : ℝ} (h : b ≠ 0) : div a b = .ok (a / b) := if_neg h

theorem dims_spec {a : Args} (hz : Nonzero a) :
    (OneImage a → ∃ d, dims a = .ok d ∧ d.1 ≠ 0 ∧ d.2 ≠ 0) ∧ (¬ OneImage a → dims a = .error .value) := by
  unfold dims OneImage
  rw [truthy_nz hz.iw, truthy_nz hz.ih]
  have hi := hz.image
  have hw := hz.iw
  have hh := hz.ih
  generalize a.image = x at *
  generalize a.iw = y at *
  generalize a.ih = z at *
  rcases x with _ | i <;> rcases y with _ | w <;> rcases z with _ | h <;> simp_all [NZ]

theorem centre_spec {a : Args} (hz : Nonzero a) (w h : ℝ) :
    (OneCentre a → ∃ c, centre a w h = .ok c) ∧ (¬ OneCentre a → centre a w h = .error .value) := by
  unfold centre OneCentre
  rw [truthy_nz hz.cx, truthy_nz hz.cy]
  rcases a.center with _ | c <;> rcases a.cx with _ | x <;> rcases a.cy with _ | y <;> simp

theorem sensors_spec {a : Args} (hz : Nonzero a) {w h : ℝ} (hw : w ≠ 0) (hh : h ≠ 0) :
    (OneSensor a → ∃ s, sensors a w h = .ok s ∧ (s.1 ≠ none ↔ s.2 ≠ none) ∧ (s.1 ≠ none ↔ a.sensor ≠ none ∨ a.sw ≠ none ∨ a.sh ≠ none) ∧
      s.1 ≠ some 0 ∧ s.2 ≠ some 0) ∧
    (¬ OneSensor a → sensors a w h = .error .value) := by
  unfold sensors OneSensor
  rw [truthy_nz hz.sw, truthy_nz hz.sh]
  have hs := hz.sensor
  have h1 := hz.sw
  have h2 := hz.sh
  generalize a.sensor = x at *
  generalize a.sw = y at *
  generalize a.sh = z at *
  rcases x with _ | ⟨x, x'⟩ <;> rcases y with _ | y <;> rcases z with _ | z <;>
    simp_all [NZ, div_ok, bind, Except.bind]

theorem fov_ok (k : Projection.Kind) (w h v : ℝ) : (∃ x, fov k w h (some (.fin v)) none = .ok x) ∧ ∃ x, fov k w h none (some (.fin v)) = .ok x := by
  cases k <;> exact ⟨⟨_, rfl⟩, ⟨_, rfl⟩⟩

/-- The part of the constructor that computes the focal lengths. -/
noncomputable def focals (k : Projection.Kind) (a : Args) (w h : ℝ) (s : Option ℝ × Option ℝ) : Except Err (Option FVal × Option FVal) := do
  let f ← focal a
  let f ← millimetres a w h s f
  let f ← viewX k a w h f
  viewY k a w h f

theorem real_nz {x : ℝ} (h : x ≠ 0) : truthyF (some (real x)) := by simp [truthyF, real, h]

theorem focal_value {a : Args} {e : Err} (h : focal a = .error e) : e = .value := by
  unfold focal at h
  split_ifs at h <;> cases h <;> rfl

theorem focals_spec (k : Projection.Kind) {a : Args} (hz : Nonzero a) (hm : ¬ Mixed a) {w h : ℝ} (hh : h ≠ 0) {s : Option ℝ × Option ℝ}
    (hs : s.1 ≠ none ↔ s.2 ≠ none) (hs' : s.1 ≠ none ↔ a.sensor ≠ none ∨ a.sw ≠ none ∨ a.sh ≠ none) (h1 : s.1 ≠ some 0) (h2 : s.2 ≠ some 0) :
    (OneFocal a → ∃ x y, focals k a w h s = .ok (some x, some y)) ∧
    (¬ OneFocal a → focals k a w h s = .error .value ∨ ∃ f, focals k a w h s = .ok f ∧ (f.1 = none ∨ f.2 = none)) := by
  unfold OneFocal
  rw [← hs']
  unfold Mixed at hm
  unfold focals focal millimetres viewX viewY
  rw [truthyF_nz hz.f, truthy_nz hz.fx, truthy_nz hz.fy, truthy_nz hz.vx, truthy_nz hz.vy]
  have z1 := hz.f
  have z2 := hz.fx
  have z3 := hz.fy
  have z4 := hz.fmm
  generalize a.f = f at *
  generalize a.fx = fx at *
  generalize a.fy = fy at *
  generalize a.fmm = fmm at *
  generalize a.vx = vx at *
  generalize a.vy = vy at *
  clear hz hs'
  obtain ⟨sw, sh⟩ := s
  have fx' := fun v => (fov_ok k w h v).1
  have fy' := fun v => (fov_ok k w h v).2
  have key : ∀ v : ℝ, (∃ x, fov k w h (some (.fin v)) none = .ok x) := fx'
  choose X hX using fx'
  choose Y hY using fy'
  have hF : ∀ u : FVal, (¬ some u = some (FVal.num (Num.fin 0)) ∧ ¬ some u = some (FVal.num Num.nzero)) → truthyF (some u) := fun u hu =>
    (truthyF_nz hu).2 (by simp)
  rcases f with _ | f <;> rcases fx with _ | fx <;> rcases fy with _ | fy <;> rcases fmm with _ | m <;> rcases vx with _ | vx <;> rcases vy with _ | vy <;>
    simp_all [NZ, bind, Except.bind, truthyF, real] <;>
    rcases sw with _ | sw <;> rcases sh with _ | sh <;> simp_all [div_ok]

end Construct

/-- **C76** (partial: no argument is 0, see `C76_violated_zero`; not a focal length along one side with a field of view along the other,
see `C76_violated_mixed`) Consistent arguments are accepted, all others raise a ValueError. -/
theorem C76_constructor_checks_partial (k : Projection.Kind) {a : Args} (hz : Nonzero a) (hm : ¬ Mixed a) :
    (Consistent a → ∃ r, construct k a = .ok r) ∧ (¬ Consistent a → construct k a = .error .value) := by
  obtain ⟨d1, d2⟩ := dims_spec hz
  by_cases hi : OneImage a
  swap
  · refine ⟨fun h => absurd h.image hi, fun _ => ?_⟩
    unfold construct; rw [d2 hi]; rfl
  obtain ⟨d, hd, hw, hh⟩ := d1 hi
  obtain ⟨c1, c2⟩ := centre_spec hz d.1 d.2
  by_cases hc : OneCentre a
  swap
  · refine ⟨fun h => absurd h.centre hc, fun _ => ?_⟩
    unfold construct; rw [hd]; simp only [bind, Except.bind]; rw [c2 hc]
  obtain ⟨c, hc'⟩ := c1 hc
  -- the rest
  have hsp := sensors_spec hz hw hh
  have split : construct k a = (focal a).bind fun f => (sensors a d.1 d.2).bind fun s => (focals k a d.1 d.2 s).bind fun f => finish a d c s f := by
    unfold construct focals
    rw [hd]; simp only [bind, Except.bind]; rw [hc']; simp only
    rcases focal a with e | f
    · rfl
    · simp only
      rcases sensors a d.1 d.2 with e | s
      · rfl
      · simp only
        rcases millimetres a d.1 d.2 s f with e | f
        · rfl
        · simp only
          rcases viewX k a d.1 d.2 f with e | f
          · rfl
          · rfl
  by_cases hs : OneSensor a
  swap
  · refine ⟨fun h => absurd h.sensor hs, fun _ => ?_⟩
    rw [split]
    rcases hf : focal a with e | f
    · rw [focal_value hf]; rfl
    · simp only [Except.bind]; rw [hsp.2 hs]
  obtain ⟨s, hs', s1, s2, s3, s4⟩ := hsp.1 hs
  obtain ⟨f1, f2⟩ := focals_spec k hz hm hh s1 s2 s3 s4
  have split' : construct k a = (focals k a d.1 d.2 s).bind fun f => finish a d c s f := by
    rw [split, hs']
    rcases hf : focal a with e | f
    · unfold focals; rw [hf]; rfl
    · rfl
  rw [split']
  refine ⟨fun h => ?_, fun h => ?_⟩
  · obtain ⟨x, y, e⟩ := f1 h.focal
    rw [e]; exact ⟨_, rfl⟩
  · rcases f2 fun hf => h ⟨hi, hc, hs, hf⟩ with e | ⟨⟨f, f'⟩, e, e' | e'⟩
    · rw [e]; rfl
    · simp only at e'; subst e'; rw [e]; rfl
    · simp only at e'; subst e'; rw [e]; cases f <;> rfl

/-- A field of view and an image. -/
example : ∃ a : Args, Nonzero a ∧ ¬ Mixed a ∧ Consistent a :=
  ⟨{ image := some (.tuple 40 30), vx := some 60 },
    ⟨by simp, by simp [NZ], by simp [NZ], by simp [NZ], by simp [NZ], by simp [NZ], by simp [NZ], by simp [NZ], by simp [NZ], by simp [NZ], by simp [NZ],
      by simp [NZ], by rintro _ ⟨⟩; simp [Image.size], by simp⟩, by simp [Mixed],
    ⟨by simp [OneImage], by simp [OneCentre], by simp [OneSensor], by simp [OneFocal]⟩⟩

/-- Only one focal length. -/
example : ∃ a : Args, Nonzero a ∧ ¬ Mixed a ∧ ¬ Consistent a :=
  ⟨{ image := some (.tuple 40 30), fx := some 60 },
    ⟨by simp, by simp [NZ], by simp [NZ], by simp [NZ], by simp [NZ], by simp [NZ], by simp [NZ], by simp [NZ], by simp [NZ], by simp [NZ], by simp [NZ],
      by simp [NZ], by rintro _ ⟨⟩; simp [Image.size], by simp⟩, by simp [Mixed], fun h => by have := h.focal; simp [OneFocal] at this⟩

theorem Construct.truthy_zero : ¬ truthy (some 0) := by simp [truthy]
theorem Construct.truthy_none : ¬ truthy none := by simp [truthy]

/-- **C76 is violated**: arguments that are 0 are ignored beside others that contradict them. -/
theorem C76_violated_zero (k : Projection.Kind) (a : Args) :
    (a.image ≠ none → construct k { a with iw := some 0, ih := some 0 } = construct k { a with iw := none, ih := none } ∧
      ¬ Consistent { a with iw := some 0, ih := some 0 }) ∧
    (a.center ≠ none → construct k { a with cx := some 0, cy := some 0 } = construct k { a with cx := none, cy := none } ∧
      ¬ Consistent { a with cx := some 0, cy := some 0 }) ∧
    (a.sensor ≠ none → construct k { a with sw := some 0, sh := some 0 } = construct k { a with sw := none, sh := none } ∧
      ¬ Consistent { a with sw := some 0, sh := some 0 }) ∧
    (∀ x, x ≠ 0 → construct k { a with f := some (real x), fx := some 0, fy := some 0 } = construct k { a with f := some (real x), fx := none, fy := none } ∧
      ¬ Consistent { a with f := some (real x), fx := some 0, fy := some 0 }) ∧
    (a.fx ≠ none → construct k { a with vx := some 0, vy := some 0 } = construct k { a with vx := none, vy := none } ∧
      ¬ Consistent { a with vx := some 0, vy := some 0 }) := by
  refine ⟨fun h => ⟨?_, fun hc => ?_⟩, fun h => ⟨?_, fun hc => ?_⟩, fun h => ⟨?_, fun hc => ?_⟩, fun x h => ⟨?_, fun hc => ?_⟩, fun h => ⟨?_, fun hc => ?_⟩⟩
  · obtain ⟨i, hi⟩ := Option.ne_none_iff_exists'.1 h
    have : dims { a with iw := some 0, ih := some 0 } = dims { a with iw := none, ih := none } := by
      simp only [dims, truthy_zero, truthy_none, hi]
    unfold construct; rw [this]; rfl
  · have := hc.image; simp [OneImage, h] at this
  · obtain ⟨i, hi⟩ := Option.ne_none_iff_exists'.1 h
    have : centre { a with cx := some 0, cy := some 0 } = centre { a with cx := none, cy := none } := by
      funext w h
      simp only [centre, truthy_zero, truthy_none, hi]
    unfold construct; rw [this]; rfl
  · have := hc.centre; simp [OneCentre, h] at this
  · obtain ⟨i, hi⟩ := Option.ne_none_iff_exists'.1 h
    have : sensors { a with sw := some 0, sh := some 0 } = sensors { a with sw := none, sh := none } := by
      funext w h
      simp only [sensors, truthy_zero, truthy_none, hi]
    unfold construct; rw [this]; rfl
  · have := hc.sensor; simp [OneSensor, h] at this
  · have : focal { a with f := some (real x), fx := some 0, fy := some 0 } = focal { a with f := some (real x), fx := none, fy := none } := by
      simp only [focal, truthy_zero, truthy_none, real_nz h, if_true, true_or]
    unfold construct; rw [this]; rfl
  · have := hc.focal; simp [OneFocal] at this
  · have e1 : viewX k { a with vx := some 0, vy := some 0 } = viewX k { a with vx := none, vy := none } := by
      funext w h f
      simp only [viewX, truthy_zero, truthy_none, if_false]
    have e2 : viewY k { a with vx := some 0, vy := some 0 } = viewY k { a with vx := none, vy := none } := by
      funext w h f
      simp only [viewY, truthy_zero, truthy_none, if_false]
    have e3 : finish { a with vx := some 0, vy := some 0 } = finish { a with vx := none, vy := none } := by
      funext d c s f
      rcases f with ⟨_ | _, _ | _⟩ <;> simp only [finish, truthy_zero, truthy_none]
    unfold construct; rw [e1, e2, e3]; rfl
  · have := hc.focal; simp [OneFocal, h] at this

/-- **C76 is violated**: a focal length along one side is ignored beside a field of view along the other. -/
theorem C76_violated_mixed (k : Projection.Kind) {a : Args} (hf : a.f = none) (hm : a.fmm = none) (v x : ℝ) (hv : v ≠ 0) :
    construct k { a with fx := some x, fy := none, vx := none, vy := some v } = construct k { a with fx := none, fy := none, vx := none, vy := some v } ∧
    construct k { a with fx := none, fy := some x, vx := some v, vy := none } = construct k { a with fx := none, fy := none, vx := some v, vy := none } := by
  have tv : truthy (some v) := ⟨v, rfl, hv⟩
  obtain ⟨⟨X, hX⟩, -⟩ := fov_ok k 1 1 v
  constructor
  · unfold construct
    congr 1; funext d; congr 1; funext c
    have e1 : focal { a with fx := some x, fy := none, vx := none, vy := some v } = .ok (some (real x), none) := by simp [focal, hf, hm, truthyF]
    have e2 : focal { a with fx := none, fy := none, vx := none, vy := some v } = .ok (none, none) := by simp [focal, hf, hm, truthyF]
    rw [e1, e2]
    simp only [bind, Except.bind]
    congr 1; funext s
    simp only [millimetres, hm, viewX, truthy_none, if_false, viewY, if_pos tv, truthyF]
    rfl
  · unfold construct
    congr 1; funext d; congr 1; funext c
    have e1 : focal { a with fx := none, fy := some x, vx := some v, vy := none } = .ok (none, some (real x)) := by simp [focal, hf, hm, truthyF]
    have e2 : focal { a with fx := none, fy := none, vx := some v, vy := none } = .ok (none, none) := by simp [focal, hf, hm, truthyF]
    rw [e1, e2]
    simp only [bind, Except.bind]
    congr 1; funext s
    simp only [millimetres, hm, viewX, if_pos tv, truthy_none, if_false, viewY]
    rfl

namespace Construct

theorem bind_inv {α β : Type} {x : Except Err α} {f : α → Except Err β} {r : β} (h : x.bind f = .ok r) : ∃ y, x = .ok y ∧ f y = .ok r := by
  rcases x with e | y
  · cases h
  · exact ⟨y, rfl, h⟩

/-- The steps of an accepted call. -/
theorem construct_inv {k : Projection.Kind} {a : Args} {r : Result} (h : construct k a = .ok r) : ∃ c f f2 f3 s,
    dims a = .ok (r.w, r.h) ∧ centre a r.w r.h = .ok c ∧ c = (r.cx, r.cy) ∧ focal a = .ok f ∧ sensors a r.w r.h = .ok s ∧ s = (r.sw, r.sh) ∧
    millimetres a r.w r.h s f = .ok f2 ∧ viewX k a r.w r.h f2 = .ok f3 ∧ viewY k a r.w r.h f3 = .ok (some r.fx, some r.fy) ∧ r.f = r.fx ∧
    (r.attr ↔ truthy a.vx ∨ truthy a.vy) := by
  unfold construct at h
  simp only [bind] at h
  obtain ⟨d, h1, h⟩ := bind_inv h
  obtain ⟨c, h2, h⟩ := bind_inv h
  obtain ⟨f, h3, h⟩ := bind_inv h
  obtain ⟨s, h4, h⟩ := bind_inv h
  obtain ⟨f2, h5, h⟩ := bind_inv h
  obtain ⟨f3, h6, h⟩ := bind_inv h
  obtain ⟨⟨f4, f5⟩, h7, h⟩ := bind_inv h
  rcases f4 with _ | x <;> rcases f5 with _ | y <;> simp only [finish] at h <;> try cases h
  exact ⟨c, f, f2, f3, s, h1, h2, rfl, h3, h4, rfl, h5, h6, h7, rfl, Iff.rfl⟩

end Construct

theorem Construct.viewX_some {k : Projection.Kind} {a : Args} {w h : ℝ} {f f' : Option FVal × Option FVal} {x : FVal} (hf : f.1 = some x)
    (h : viewX k a w h f = .ok f') : ¬ truthy a.vx ∧ f' = f := by
  unfold viewX at h
  by_cases hv : truthy a.vx
  · rw [if_pos hv, hf] at h; cases h
  · rw [if_neg hv] at h; cases h; exact ⟨hv, rfl⟩

theorem Construct.viewY_some {k : Projection.Kind} {a : Args} {w h : ℝ} {f f' : Option FVal × Option FVal} (hf : truthyF f.2)
    (h : viewY k a w h f = .ok f') : ¬ truthy a.vy ∧ f' = f := by
  unfold viewY at h
  by_cases hv : truthy a.vy
  · rw [if_pos hv, if_pos hf] at h; cases h
  · rw [if_neg hv] at h; cases h; exact ⟨hv, rfl⟩

/-- **C77** (partial: a given side of the sensor is not 0 where the other is missing, see `C77_violated`; the image is not empty) Image size, centre, sensor and focal
length in mm of an accepted call. -/
theorem C77_defaults_partial {k : Projection.Kind} {a : Args} {r : Result} (h : construct k a = .ok r) :
    (Width a r.w ∧ Height a r.h) ∧
    (∀ c, a.center = some c → r.cx = c.1 ∧ r.cy = c.2) ∧
    (a.center = none → (∀ x, a.cx = some x → r.cx = x) ∧ (∀ y, a.cy = some y → r.cy = y) ∧
      (a.cx = none → 2 * r.cx = r.w) ∧ (a.cy = none → 2 * r.cy = r.h)) ∧
    (∀ s, a.sensor = some s → r.sw = some s.1 ∧ r.sh = some s.2) ∧
    (a.sensor = none → (∀ x, a.sw = some x → r.sw = some x) ∧ (∀ y, a.sh = some y → r.sh = some y) ∧
      (∀ x, a.sw = some x → x ≠ 0 → a.sh = none → ∃ y, r.sh = some y ∧ y * r.w = x * r.h) ∧
      (∀ y, a.sh = some y → y ≠ 0 → a.sw = none → ∃ x, r.sw = some x ∧ y * r.w = x * r.h) ∧
      (a.sw = none → a.sh = none → r.sw = none ∧ r.sh = none)) ∧
    (∀ m, a.fmm = some m → m ≠ 0 → r.h ≠ 0 → ∃ sw sh fx fy, r.sw = some sw ∧ r.sh = some sh ∧ r.fx = .num (.fin fx) ∧ r.fy = .num (.fin fy) ∧
      sw ≠ 0 ∧ sh ≠ 0 ∧ fx * sw = m * r.w ∧ fy * sh = m * r.h) := by
  obtain ⟨c, f, f2, f3, s, h1, h2, rfl, h3, h4, rfl, h5, h6, h7, -, -⟩ := construct_inv h
  refine ⟨?_, fun c hc => ?_, fun hc => ?_, fun s hs => ?_, fun hs => ?_, fun m hm hm0 hh => ?_⟩
  · unfold dims at h1
    unfold Width Height
    split_ifs at h1
    clear h2 h3 h4 h5 h6 h7 h
    generalize a.image = i at *
    generalize a.iw = x at *
    generalize a.ih = y at *
    rcases i with _ | ⟨w, h⟩ | ⟨r', c'⟩
    · rcases x with _ | w <;> rcases y with _ | h <;> simp_all
    · simp only [Image.size, Except.ok.injEq, Prod.mk.injEq] at h1
      exact ⟨h1.1.symm, h1.2.symm⟩
    · simp only [Image.size, Except.ok.injEq, Prod.mk.injEq] at h1
      exact ⟨h1.1.symm, h1.2.symm⟩
  · unfold centre at h2
    rw [hc] at h2
    split_ifs at h2
    cases h2; exact ⟨rfl, rfl⟩
  · unfold centre at h2
    rw [hc] at h2
    simp only [Option.isSome_none, Bool.false_eq_true, false_and, if_false, Except.ok.injEq, Prod.mk.injEq] at h2
    obtain ⟨e1, e2⟩ := h2
    rw [← e1, ← e2]
    refine ⟨fun x hx => by rw [hx]; rfl, fun x hx => by rw [hx]; rfl, fun hx => ?_, fun hx => ?_⟩
    · rw [hx, Option.getD_none]; ring
    · rw [hx, Option.getD_none]; ring
  · unfold sensors at h4
    rw [hs] at h4
    split_ifs at h4
    simp only [Except.ok.injEq, Prod.mk.injEq] at h4; exact ⟨h4.1.symm, h4.2.symm⟩
  · unfold sensors at h4
    rw [hs] at h4
    simp only [Option.isSome_none, Bool.false_eq_true, false_and, if_false] at h4
    generalize a.sw = x at *
    generalize a.sh = y at *
    rcases x with _ | x <;> rcases y with _ | y <;> simp only at h4
    · simp only [Except.ok.injEq, Prod.mk.injEq] at h4; rw [← h4.1, ← h4.2]; clear h4 h5; simp_all
    · split_ifs at h4 with hy
      · simp only [bind] at h4
        obtain ⟨z, e1, e2⟩ := bind_inv h4
        unfold div at e1
        split_ifs at e1 with hh
        simp only [Except.ok.injEq, Prod.mk.injEq] at e1 e2
        rw [← e2.1, ← e2.2, ← e1]
        refine ⟨by simp, by simp, by simp, fun y' hy' _ _ => ⟨_, rfl, ?_⟩, by simp⟩
        cases hy'; field_simp
      · simp only [Except.ok.injEq, Prod.mk.injEq] at h4; rw [← h4.1, ← h4.2]; clear h4 h5; simp_all
    · split_ifs at h4 with hy
      · simp only [bind] at h4
        obtain ⟨z, e1, e2⟩ := bind_inv h4
        unfold div at e1
        split_ifs at e1 with hh
        simp only [Except.ok.injEq, Prod.mk.injEq] at e1 e2
        rw [← e2.1, ← e2.2, ← e1]
        refine ⟨by simp, by simp, fun y' hy' _ _ => ⟨_, rfl, ?_⟩, by simp, by simp⟩
        cases hy'; field_simp
      · simp only [Except.ok.injEq, Prod.mk.injEq] at h4; rw [← h4.1, ← h4.2]; clear h4 h5; simp_all
    · simp only [Except.ok.injEq, Prod.mk.injEq] at h4; rw [← h4.1, ← h4.2]; clear h4 h5; simp_all
  · unfold millimetres at h5
    rw [hm] at h5
    simp only [if_pos hm0] at h5
    split at h5
    case h_2 => cases h5
    rename_i sw sh hs
    simp only [Prod.mk.injEq] at hs
    simp only [bind] at h5
    obtain ⟨x, e1, h5⟩ := bind_inv h5
    obtain ⟨y, e2, h5⟩ := bind_inv h5
    unfold div at e1 e2
    split_ifs at e1 e2 with hw0 hh0
    simp only [Except.ok.injEq] at e1 e2
    cases h5
    have e3 : f3 = (some (real (x * r.w)), some (real (y * r.h))) := by
      exact (viewX_some rfl h6).2
    subst e3
    have hy0 : y * r.h ≠ 0 := by rw [← e2]; positivity
    unfold viewY at h7
    rw [if_pos (real_nz hy0)] at h7
    split_ifs at h7
    simp only [Except.ok.injEq, Prod.mk.injEq, Option.some.injEq] at h7
    refine ⟨sw, sh, x * r.w, y * r.h, hs.1, hs.2, h7.1.symm, h7.2.symm, hw0, hh0, ?_, ?_⟩
    · rw [← e1]; field_simp
    · rw [← e2]; field_simp

/-- **C77 is violated**: beside a sensor width of 0 the height is not computed; it is the default, 13 mm. -/
theorem C77_violated {k : Projection.Kind} {a : Args} {r : Result} (hs : a.sensor = none) (hw : a.sw = some 0) (hh : a.sh = none)
    (h : construct k a = .ok r) : r.sw = some 0 ∧ r.sh = none := by
  obtain ⟨c, f, f2, f3, s, h1, h2, rfl, h3, h4, rfl, h5, h6, h7, -, -⟩ := construct_inv h
  unfold sensors at h4
  simp only [hs, hw, hh, Option.isSome_none, Bool.false_eq_true, false_and, if_false, ne_eq, not_true_eq_false, Except.ok.injEq, Prod.mk.injEq] at h4
  exact ⟨h4.1.symm, h4.2.symm⟩

/-- A focal length, a sensor width and an image. -/
example : ∃ (a : Args) (r : Result), construct .rectilinear a = .ok r ∧ a.fmm = some 14 ∧ a.sw = some 17 ∧ a.sh = none ∧ a.sensor = none ∧ a.cx = none ∧
    r.h ≠ 0 := by
  obtain ⟨r, h⟩ := (C76_constructor_checks_partial .rectilinear (a := { image := some (.tuple 40 30), fmm := some 14, sw := some 17 })
    ⟨by simp, by simp [NZ], by simp [NZ], by simp [NZ], by simp [NZ], by simp [NZ], by simp [NZ], by simp [NZ], by simp [NZ], by simp [NZ], by simp [NZ],
      by simp [NZ], by rintro _ ⟨⟩; simp [Image.size], by simp⟩ (by simp [Mixed])).1
    ⟨by simp [OneImage], by simp [OneCentre], by simp [OneSensor], by simp [OneFocal]⟩
  refine ⟨_, r, h, rfl, rfl, rfl, rfl, rfl, ?_⟩
  have := (C77_defaults_partial h).1.2
  simp only [Height] at this
  rw [this]; norm_num

/-- A sensor of width 0. -/
example : ∃ (a : Args) (r : Result), a.sensor = none ∧ a.sw = some 0 ∧ a.sh = none ∧ construct .rectilinear a = .ok r := by
  refine ⟨{ image := some (.tuple 40 30), fx := some 14, fy := some 14, sw := some 0 }, ⟨real 14, real 14, real 14, 20, 15, 40, 30, some 0, none, False⟩, rfl, rfl, rfl, ?_⟩
  have t14 : truthy (some 14) := ⟨14, rfl, by norm_num⟩
  simp [construct, dims, centre, focal, sensors, millimetres, viewX, viewY, finish, bind, Except.bind, truthyF, Image.size, truthy_none, truthy_zero, t14]
  norm_num

/-! ### `focallength_px` -/

theorem Construct.focal_f {k : Projection.Kind} {a : Args} {r : Result} {x : FVal} (hf : a.f = some x) (ht : truthyF (some x)) (h : construct k a = .ok r) :
    r.fx = x ∧ r.fy = x ∧ r.f = x := by
  obtain ⟨c, f, f2, f3, s, h1, h2, rfl, h3, h4, rfl, h5, h6, h7, h8, -⟩ := construct_inv h
  unfold focal at h3
  rw [hf, if_pos (Or.inl ht)] at h3
  split_ifs at h3 with g1 g2
  cases h3
  unfold millimetres at h5
  have : a.fmm = none := by simpa using g2
  rw [this] at h5; cases h5
  obtain ⟨-, rfl⟩ := viewX_some rfl h6
  obtain ⟨-, e⟩ := viewY_some ht h7
  simp only [Prod.mk.injEq, Option.some.injEq] at e
  exact ⟨e.1, e.2, h8.trans e.1⟩

/-- **C97** (partial: a number; see `C97_violated`) `focallength_px` is the focal length along both sides. -/
theorem C97_focallength_px_partial {k : Projection.Kind} {a : Args} {r : Result} {x : ℝ} (hf : a.f = some (real x)) (hx : x ≠ 0)
    (h : construct k a = .ok r) : r.fx = real x ∧ r.fy = real x ∧ r.f = real x := focal_f hf (real_nz hx) h

/-- **C97 is violated**: of a tuple, both focal lengths become the whole tuple, which is no number. -/
theorem C97_violated {k : Projection.Kind} {a : Args} (hz : Nonzero a) (hm : ¬ Mixed a) (hc : Consistent a) {x y : ℝ} (hf : a.f = some (.pair x y)) :
    ∃ r, construct k a = .ok r ∧ r.fx = .pair x y ∧ r.fy = .pair x y ∧ (∀ v, r.fx ≠ .num v) ∧ r.args = none := by
  obtain ⟨r, h⟩ := (C76_constructor_checks_partial k hz hm).1 hc
  obtain ⟨h1, h2, -⟩ := focal_f hf trivial h
  refine ⟨r, h, h1, h2, ?_, ?_⟩
  · intro v e; rw [h1] at e; cases e
  · unfold Result.args; rw [h1]

example : ∃ a : Args, Nonzero a ∧ ¬ Mixed a ∧ Consistent a ∧ a.f = some (.pair 3772 3774) :=
  ⟨{ image := some (.tuple 40 30), f := some (.pair 3772 3774) },
    ⟨by simp, by simp [NZ], by simp [NZ], by simp [NZ], by simp [NZ], by simp [NZ], by simp [NZ], by simp [NZ], by simp [NZ], by simp [NZ], by simp [NZ],
      by simp [NZ], by rintro _ ⟨⟩; simp [Image.size], by simp⟩, by simp [Mixed],
    ⟨by simp [OneImage], by simp [OneCentre], by simp [OneSensor], by simp [OneFocal]⟩, rfl⟩

/-! ### fields of view -/

theorem Construct.fov_some {k : Projection.Kind} {w h : ℝ} {vx vy : Option Num} {x : Num} (e : Projection.focallengthFromFOV k w h vx vy = some x) :
    fov k w h vx vy = .ok (.num x) := by unfold fov; rw [e]

/-- **C16** A projection constructed from a horizontal field of view, a vertical one or both reports them. -/
theorem C16_constructed_projection {k : Projection.Kind} {a : Args} {r : Result} (h : construct k a = .ok r) (hw : 0 < r.w) (hh : 0 < r.h)
    {vx vy : Option ℝ} (hvx : a.vx = vx) (hvy : a.vy = vy) (hx : ∀ v, vx = some v → Projection.Admissible k true v)
    (hy : ∀ v, vy = some v → Projection.Admissible k false v) (hne : vx ≠ none ∨ vy ≠ none) :
    ∃ (X Y : Num) (fx fy : ℝ), r.fx = .num X ∧ r.fy = .num Y ∧ Num.Is X fx ∧ Num.Is Y fy ∧ 0 < fx ∧ 0 < fy ∧
      (∀ v, vx = some v → Num.Is (Projection.getFieldOfView k ⟨fx, fy, r.cx, r.cy, r.w, r.h⟩).1 v) ∧
      (∀ v, vy = some v → Num.Is (Projection.getFieldOfView k ⟨fx, fy, r.cx, r.cy, r.w, r.h⟩).2 v) ∧
      (vx = none ∨ vy = none → fx = fy) := by
  obtain ⟨c, f, f2, f3, s, h1, h2, rfl, h3, h4, rfl, h5, h6, h7, h8, -⟩ := construct_inv h
  have a90 : ∀ b, Projection.Admissible k b 90 := fun b => ⟨by norm_num, fun _ => by norm_num⟩
  have tv : ∀ {v : Option ℝ} {b}, (∀ x, v = some x → Projection.Admissible k b x) → (truthy v ↔ v ≠ none) := fun {v} {b} hv =>
    truthy_nz fun e => absurd (hv 0 e).1 (lt_irrefl _)
  have G := fun vx vy hx hy => C16_fov_from_focal_length k ⟨1, 1, r.cx, r.cy, r.w, r.h⟩ hw hh vx vy hx hy
  simp only at G
  have fst : ∀ (I J : Projection.Intr), I.fx = J.fx → I.w = J.w → (Projection.getFieldOfView k I).1 = (Projection.getFieldOfView k J).1 := by
    intro I J e1 e2; cases k <;> simp only [Projection.getFieldOfView, e1, e2]
  have snd : ∀ (I J : Projection.Intr), I.fy = J.fy → I.h = J.h → (Projection.getFieldOfView k I).2 = (Projection.getFieldOfView k J).2 := by
    intro I J e1 e2; cases k <;> simp only [Projection.getFieldOfView, e1, e2]
  unfold viewX at h6
  unfold viewY at h7
  rw [hvx, hvy, tv hx, tv hy] at h6
  rw [hvx, hvy, tv hx, tv hy] at h7
  rcases vx with _ | vx <;> rcases vy with _ | vy
  · simp at hne
  · obtain ⟨A, B, fx, fy, -, -, -, g1, g2, g3, -, g4⟩ := G 90 vy (a90 _) (hy vy rfl)
    simp only [ne_eq, not_true_eq_false, if_false, Except.ok.injEq, reduceCtorEq, not_false_eq_true, if_true, Option.map_some, fov_some g1, bind, Except.bind] at h6 h7
    split_ifs at h7
    simp only [Except.ok.injEq, Prod.mk.injEq, Option.some.injEq] at h7
    refine ⟨B, B, fy, fy, h7.1.symm, h7.2.symm, g2, g2, g3, g3, by simp, fun v e => ?_, fun _ => rfl⟩
    cases e
    rw [snd ⟨fy, fy, r.cx, r.cy, r.w, r.h⟩ ⟨fx, fy, r.cx, r.cy, r.w, r.h⟩ rfl rfl]; exact g4
  · obtain ⟨A, B, fx, fy, g1, g2, g3, -, -, -, g4, -⟩ := G vx 90 (hx vx rfl) (a90 _)
    simp only [ne_eq, not_true_eq_false, if_false, Except.ok.injEq, reduceCtorEq, not_false_eq_true, if_true, Option.map_some, fov_some g1, bind, Except.bind] at h6 h7
    split_ifs at h6
    simp only [Except.ok.injEq] at h6
    rw [h7] at h6
    simp only [Prod.mk.injEq, Option.some.injEq] at h6
    refine ⟨A, A, fx, fx, h6.1.symm, h6.2.symm, g2, g2, g3, g3, fun v e => ?_, by simp, fun _ => rfl⟩
    cases e
    rw [fst ⟨fx, fx, r.cx, r.cy, r.w, r.h⟩ ⟨fx, fy, r.cx, r.cy, r.w, r.h⟩ rfl rfl]; exact g4
  · obtain ⟨A, B, fx, fy, g1, g2, g3, k1, k2, k3, g4, k4⟩ := G vx vy (hx vx rfl) (hy vy rfl)
    simp only [ne_eq, not_true_eq_false, if_false, Except.ok.injEq, reduceCtorEq, not_false_eq_true, if_true, Option.map_some, fov_some g1, fov_some k1, bind, Except.bind] at h6 h7
    split_ifs at h6
    simp only [Except.ok.injEq] at h6
    subst h6
    split_ifs at h7
    simp only [Except.ok.injEq, Prod.mk.injEq, Option.some.injEq] at h7
    refine ⟨A, B, fx, fy, h7.1.symm, h7.2.symm, g2, k2, g3, k3, fun v e => ?_, fun v e => ?_, by simp⟩
    · cases e; exact g4
    · cases e; exact k4

/-- A field of view of 60 degrees. -/
example : ∃ (a : Args) (r : Result), construct .rectilinear a = .ok r ∧ 0 < r.w ∧ 0 < r.h ∧ a.vx = some 60 ∧ a.vy = none ∧
    Projection.Admissible .rectilinear true 60 := by
  obtain ⟨r, h⟩ := (C76_constructor_checks_partial .rectilinear (a := { image := some (.tuple 40 30), vx := some 60 })
    ⟨by simp, by simp [NZ], by simp [NZ], by simp [NZ], by simp [NZ], by simp [NZ], by simp [NZ], by simp [NZ], by simp [NZ], by simp [NZ], by simp [NZ],
      by simp [NZ], by rintro _ ⟨⟩; simp [Image.size], by simp⟩ (by simp [Mixed])).1
    ⟨by simp [OneImage], by simp [OneCentre], by simp [OneSensor], by simp [OneFocal]⟩
  obtain ⟨h1, h2⟩ := (C77_defaults_partial h).1
  simp only [Width, Height] at h1 h2
  exact ⟨_, r, h, by rw [h1]; norm_num, by rw [h2]; norm_num, rfl, rfl, by norm_num, fun _ => by norm_num⟩

/-! ### the parameters of the new projection -/

open Sys in
/-- **C77** The attributes of the new projection are the values computed; those not given have their defaults. -/
theorem C77_parameters {k : Projection.Kind} {a : Args} {r : Result} (_h : construct k a = .ok r) {args : PField → Option ℝ} (ha : r.args = some args)
    (s : St) (p : ℕ) (attr : Bool) :
    let s' := s.step (.newProj p k args attr)
    (∃ fx fy, r.fx = real fx ∧ r.fy = real fy ∧ s'.getattr (.proj p) "focallength_x_px" = some (some fx) ∧
      s'.getattr (.proj p) "focallength_y_px" = some (some fy) ∧ s'.getattr (.proj p) "focallength_px" = some (some fx)) ∧
    s'.getattr (.proj p) "center_x_px" = some (some r.cx) ∧ s'.getattr (.proj p) "center_y_px" = some (some r.cy) ∧
    s'.getattr (.proj p) "image_width_px" = some (some r.w) ∧ s'.getattr (.proj p) "image_height_px" = some (some r.h) ∧
    s'.getattr (.proj p) "sensor_width_mm" = some (some (r.sw.getD 17.3)) ∧ s'.getattr (.proj p) "sensor_height_mm" = some (some (r.sh.getD 13)) := by
  intro s'
  have hp : s'.projs p = some ⟨k, if attr then some ((args .iw).getD 0, (args .ih).getD 0) else none⟩ := by
    simp [s', St.step, St.newProj]
  have hd : ∀ f : PField, (s'.dict (.proj p)).lookup f.name = some (.p p f) := fun f => by
    simp only [St.dict, hp]; exact projDict_lookup p f
  have ho : ∀ f : PField, f.name ≠ PField.name .iw → f.name ≠ PField.name .ih → s'.getattr (.proj p) f.name = some (s'.par (.p p f)).read := by
    intro f h1 h2
    rw [getattr_other h1 h2, hd]; rfl
  have hpar : ∀ f : PField, f ≠ .f → (s'.par (.p p f)).read = (args f).orElse fun _ => f.default := by
    intro f hf
    have : s'.par (.p p f) = newParam (args f) f.default 2 none := by
      cases f <;> first | exact absurd rfl hf | simp [s', St.step, St.newProj]
    rw [this]; cases e : args f <;> simp [newParam, Param.read]
  have hf : (s'.par (.p p .f)).read = args .fx := by
    have : s'.par (.p p .f) = newParam (args .fx) none 2 (some (.focal p)) := by simp [s', St.step, St.newProj]
    rw [this]; cases e : args .fx <;> simp [newParam, Param.read]
  unfold Result.args at ha
  split at ha
  case h_2 => cases ha
  rename_i x y hx hy
  simp only [Option.some.injEq] at ha
  have hw : s'.getattr (.proj p) "image_width_px" = some (some r.w) := by
    cases attr with
    | true =>
      have : s'.getattr (.proj p) "image_width_px" = some (some ((args .iw).getD 0)) := by
        simp only [St.getattr, hp, if_true]; rfl
      rw [this, ← ha]; rfl
    | false =>
      rw [getattr_eq (fun p' P e hP => by cases e; rw [hp] at hP; cases hP; rfl), show "image_width_px" = PField.name .iw from rfl, hd, Option.map_some,
        hpar _ (by simp), ← ha]; rfl
  have hh : s'.getattr (.proj p) "image_height_px" = some (some r.h) := by
    cases attr with
    | true =>
      have : s'.getattr (.proj p) "image_height_px" = some (some ((args .ih).getD 0)) := by
        simp only [St.getattr, hp, if_true]; rfl
      rw [this, ← ha]; rfl
    | false =>
      rw [getattr_eq (fun p' P e hP => by cases e; rw [hp] at hP; cases hP; rfl), show "image_height_px" = PField.name .ih from rfl, hd, Option.map_some,
        hpar _ (by simp), ← ha]; rfl
  refine ⟨⟨x, y, hx, hy, ?_, ?_, ?_⟩, ?_, ?_, hw, hh, ?_, ?_⟩
  · rw [show "focallength_x_px" = PField.name .fx from rfl, ho _ (by decide) (by decide), hpar _ (by simp), ← ha]; rfl
  · rw [show "focallength_y_px" = PField.name .fy from rfl, ho _ (by decide) (by decide), hpar _ (by simp), ← ha]; rfl
  · rw [show "focallength_px" = PField.name .f from rfl, ho _ (by decide) (by decide), hf, ← ha]
  · rw [show "center_x_px" = PField.name .cx from rfl, ho _ (by decide) (by decide), hpar _ (by simp), ← ha]; rfl
  · rw [show "center_y_px" = PField.name .cy from rfl, ho _ (by decide) (by decide), hpar _ (by simp), ← ha]; rfl
  · rw [show "sensor_width_mm" = PField.name .sw from rfl, ho _ (by decide) (by decide), hpar _ (by simp), ← ha]; cases r.sw <;> rfl
  · rw [show "sensor_height_mm" = PField.name .sh from rfl, ho _ (by decide) (by decide), hpar _ (by simp), ← ha]; cases r.sh <;> rfl

example : ∃ (a : Args) (r : Result) (args : Sys.PField → Option ℝ), construct .rectilinear a = .ok r ∧ r.args = some args := by
  obtain ⟨r, h⟩ := (C76_constructor_checks_partial .rectilinear (a := { image := some (.tuple 40 30), f := some (real 60) })
    ⟨by simp [real], by simp [NZ], by simp [NZ], by simp [NZ], by simp [NZ], by simp [NZ], by simp [NZ], by simp [NZ], by simp [NZ], by simp [NZ], by simp [NZ],
      by simp [NZ], by rintro _ ⟨⟩; simp [Image.size], by simp⟩ (by simp [Mixed])).1
    ⟨by simp [OneImage], by simp [OneCentre], by simp [OneSensor], by simp [OneFocal]⟩
  obtain ⟨h1, h2, -⟩ := C97_focallength_px_partial rfl (by norm_num) h
  exact ⟨_, r, _, h, by unfold Result.args; rw [h1, h2]; rfl⟩
