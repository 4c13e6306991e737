import Verif.Props.Known
import Mathlib.Analysis.Calculus.Deriv.Basic

/-! # What the horizon says about a camera: C178 -/

open Classical Num Camera Terms Measure View

namespace Steps

/-- The height of the point of a pixel at a given distance. -/
theorem height_at {c : Cam} (hc : c.Proper) {q : V2 Num} {p : V2 ℝ} (hp : (c.lens.imageFromDistorted q).Is p) {d : Num} {D : ℝ} (hd : Num.Is d D) (hD : 0 ≤ D)
    {P : V3 Num} {Q : V3 ℝ} (h : spaceFromImage c q { D := some d } = .ok P) (hQ : P.Is Q) : Q.z = (dirR c p).z / (dirR c p).norm * D + c.orient.pos.z := by
  obtain ⟨-, h2, d', e, h3, h4, h5, u, hu, ux, uy, uz⟩ := C10_ray_origin_and_length c hc q p hp
  have : d' = dirR c p := h3.unique (getRay_real c hc hp)
  subst this
  simp only [spaceFromImage, Except.ok.injEq] at h
  subst h
  have i := pointAt_is h4 h2 hd hD
  rw [hQ.unique i]
  have hn : u * (dirR c p).norm = 1 := by
    rw [← h5]
    unfold V3.norm
    have : e.normSq = u ^ 2 * (dirR c p).normSq := by simp only [V3.normSq, ux, uy, uz]; ring
    rw [this, Real.sqrt_mul (sq_nonneg u), Real.sqrt_sq hu.le]
  have hn0 : (dirR c p).norm ≠ 0 := fun h0 => by rw [h0, mul_zero] at hn; exact zero_ne_one hn
  have eu : u = 1 / (dirR c p).norm := by rw [eq_div_iff hn0, hn]
  simp only [V3.add_z, V3.mulS_z, uz, eu]
  ring

theorem argmin_le (l : List Num) : argmin l ≤ l.length := by
  induction l with
  | nil => simp [argmin]
  | cons x xs ih =>
    unfold argmin
    split_ifs
    · simp
    · simpa using ih

theorem row_le {c : Cam} {x : ℝ} {y : ℕ} (h : horizonRow c x = .ok (some y)) : y ≤ ⌈c.intr.h⌉₊ := by
  unfold horizonRow at h
  have ok : ∀ p : V2 ℝ, ∃ q, spaceFromImage c p.num { D := some (distanceToHorizon c.orient.pos.z) } = .ok q := fun p => ⟨_, rfl⟩
  choose Q hQ using ok
  simp only [bind, Except.bind, pure, Except.pure] at h
  rw [View.mapM_ok (fun p : V2 ℝ => spaceFromImage c p.num { D := some (distanceToHorizon c.orient.pos.z) }) Q _ fun p _ => hQ p] at h
  simp only [Except.ok.injEq] at h
  unfold nanargmin at h
  split_ifs at h
  simp only [Option.some.injEq] at h
  rw [← h]
  exact (argmin_le _).trans (by simp)

/-- Lists with finitely many possibilities for each entry. -/
theorem finite_lists {α β : Type} (g : α → β → Num) (S : Set β) (hS : S.Finite) (k : α → ℝ) (ps : List α) :
    {l : List Num | ∃ row : ℝ → β, (∀ x, row x ∈ S) ∧ l = ps.map fun p => g p (row (k p))}.Finite := by
  induction ps with
  | nil => exact (Set.finite_singleton []).subset (by rintro l ⟨_, _, rfl⟩; rfl)
  | cons p ps ih =>
    refine (Set.Finite.image2 List.cons (hS.image (g p)) ih).subset ?_
    rintro l ⟨row, h, rfl⟩
    exact ⟨_, ⟨_, h (k p), rfl⟩, _, ⟨row, h, rfl⟩, rfl⟩

end Steps

open Steps

/-- **C178** The horizon says nothing about position and heading: all cameras with the same elevation, tilt and roll have the same rows. -/
theorem C178_place (c : Cam) (hc : c.Proper) (o o' : Spatial.Params) (ho : c.orient = .thr o) (ht : o'.tilt_deg = o.tilt_deg) (hr : o'.roll_deg = o.roll_deg)
    (he : o'.elevation_m = o.elevation_m) (h0 : 0 ≤ o.elevation_m) (h1 : 0 < c.intr.h) (x : ℝ)
    (hp : ∀ y : ℕ, y < ⌈c.intr.h⌉₊ → ∃ p, (c.lens.imageFromDistorted (V2.num ⟨x, y⟩)).Is p) :
    ∃ y : ℕ, horizonRow c x = .ok (some y) ∧ horizonRow { c with orient := .thr o' } x = .ok (some y) := by
  set c' : Cam := { c with orient := .thr o' } with hc'
  have z0 : c.orient.pos.z = o.elevation_m := by rw [ho]; rfl
  have z1 : c'.orient.pos.z = o.elevation_m := he
  obtain ⟨Q, y, a1, a2, a3, a4, a5⟩ := C81_horizon_real c hc x (by rw [z0]; exact h0) h1 hp
  obtain ⟨Q', y', b1, b2, b3, b4, b5⟩ := C81_horizon_real c' hc x (by rw [z1]; exact h0) h1 hp
  have hd := horizon_value h0
  have hd0 := Real.sqrt_nonneg (2 * rEarth ^ 2 * (1 - rEarth / (rEarth + o.elevation_m)))
  have same : ∀ k < ⌈c.intr.h⌉₊, (Q' k).z = (Q k).z := by
    intro k hk
    obtain ⟨p, hp⟩ := hp k hk
    obtain ⟨P, e1, i1⟩ := a3 k hk
    obtain ⟨P', e2, i2⟩ := b3 k hk
    rw [z0] at e1
    rw [z1] at e2
    rw [height_at hc hp hd hd0 e1 i1, height_at (c := c') hc hp hd hd0 e2 i2, z0, z1, dir_turned c o o' ho ht hr p]
    have : (Geo.clockwise (Spatial.rad (o'.heading_deg - o.heading_deg)) (dirR c p)).norm = (dirR c p).norm := by
      unfold V3.norm
      congr 1
      simp only [V3.normSq, Geo.clockwise]
      set w := dirR c p
      linear_combination (w.x ^ 2 + w.y ^ 2) * Real.sin_sq_add_cos_sq (Spatial.rad (o'.heading_deg - o.heading_deg))
    rw [this]
    rfl
  have hy : y' = y := by
    rcases lt_trichotomy y' y with h | h | h
    · have u1 := a5 y' h
      have u2 := b4 y a2
      rw [same _ b2, same _ a2] at u2
      exact absurd u2 (not_le.2 u1)
    · exact h
    · have u1 := b5 y h
      have u2 := a4 y' b2
      rw [same _ b2, same _ a2] at u1
      exact absurd u2 (not_le.2 u1)
  subst hy
  exact ⟨y', a1, b1⟩

/-- **C178** The term of `addHorizonInformation` takes only finitely many values, however many cameras with images of this height there are. -/
theorem C178_finite (ps : List (V2 ℝ)) (u : ℝ) (H : ℕ) : {t : Num | ∃ c : Cam, ⌈c.intr.h⌉₊ = H ∧ horizonTerm c ps u = .ok t}.Finite := by
  have hS : ({r : Option ℕ | ∀ y, r = some y → y ≤ H}).Finite := by
    refine ((Set.finite_Iic H).image some |>.insert none).subset ?_
    intro r hr
    cases r with
    | none => exact .inl rfl
    | some y => exact .inr ⟨y, hr y rfl, rfl⟩
  refine ((finite_lists (fun (p : V2 ℝ) (r : Option ℕ) => logpdf (.fin 0) u (match r with
        | some y => Num.fin p.y - .fin (y : ℝ)
        | none => .nan)) _ hS V2.x ps).image Stat.npsum).subset ?_
  rintro t ⟨c, hH, ht⟩
  obtain ⟨row, h1, h2⟩ := horizonTerm_eq c ps u
  rw [h2] at ht
  refine ⟨_, ⟨row, fun x y hy => ?_, rfl⟩, Except.ok.inj ht⟩
  rw [← hH]
  exact row_le ((h1 x).trans (by rw [hy]))

/-- **C178** Therefore the slope of the term along any change of the camera is 0 wherever it exists: the fit cannot see from the horizon in which
direction a better camera is. -/
theorem C178_slope (ps : List (V2 ℝ)) (u : ℝ) (H : ℕ) (γ : ℝ → Cam) (hH : ∀ s, ⌈(γ s).intr.h⌉₊ = H) (F : ℝ → ℝ)
    (hF : ∀ s, ∃ t, horizonTerm (γ s) ps u = .ok t ∧ Num.Is t (F s)) (s d : ℝ) (hd : HasDerivAt F d s) : d = 0 := by
  have fin : (Set.range F).Finite := by
    have val : ∀ t : Num, ∃ v : ℝ, ∀ w, Num.Is t w → v = w := by
      intro t
      by_cases h : ∃ v, Num.Is t v
      · obtain ⟨v, hv⟩ := h
        exact ⟨v, fun w hw => hv.unique hw⟩
      · exact ⟨0, fun w hw => absurd ⟨w, hw⟩ h⟩
    choose val hval using val
    refine ((C178_finite ps u H).image val).subset ?_
    rintro _ ⟨s, rfl⟩
    obtain ⟨t, h1, h2⟩ := hF s
    exact ⟨t, ⟨γ s, hH s, h1⟩, hval t _ h2⟩
  have near : ∀ᶠ s' in nhds s, F s' = F s := by
    have hcl : IsClosed (Set.range F \ {F s}) := (fin.subset Set.sdiff_subset).isClosed
    have := hd.continuousAt.eventually (hcl.isOpen_compl.mem_nhds (by simp : F s ∈ (Set.range F \ {F s})ᶜ))
    filter_upwards [this] with s' h
    by_contra hne
    exact h ⟨⟨s', rfl⟩, hne⟩
  exact hd.unique ((hasDerivAt_const s (F s)).congr_of_eventuallyEq near)

/-- **C178 (partial)** A horizon observed between two rows of pixels fits no camera: none reaches the largest value of C110. What the text asks for, that the
largest value is reached by the cameras which see the horizon there, holds only for whole rows. -/
theorem C178_between_violated (ps : List (V2 ℝ)) (u : ℝ) (hu : 0 < u) {p : V2 ℝ} (m : p ∈ ps) (h : ∀ y : ℕ, p.y ≠ y) :
    ∃ best : ℝ, ∀ c : Cam, ∃ t, horizonTerm c ps u = .ok t ∧ (t = .nan ∨ t ≤ .fin best) ∧ ¬ Num.Is t best := by
  obtain ⟨best, hb⟩ := C110_horizon_best ps u hu
  refine ⟨best, fun c => ?_⟩
  obtain ⟨t, h1, h2, h3⟩ := hb c
  refine ⟨t, h1, h2, fun h4 => ?_⟩
  obtain ⟨y, -, hy⟩ := h3.1 h4 p m
  exact h y hy

example (heading x y : ℝ) : ∃ k : ℕ, horizonRow exampleCam 3 = .ok (some k) ∧
    horizonRow { exampleCam with orient := .thr ⟨10, 0, 0, heading, x, y⟩ } 3 = .ok (some k) :=
  C178_place exampleCam exampleCam_proper ⟨10, 0, 0, 0, 0, 0⟩ ⟨10, 0, 0, heading, x, y⟩ rfl rfl rfl rfl (by norm_num) (by simp [exampleCam]) 3
    fun y _ => ⟨⟨3, y⟩, V2.is_num _⟩

example : ∃ best : ℝ, ∀ c : Cam, ∃ t, horizonTerm c [⟨50, 7 / 2⟩] 10 = .ok t ∧ (t = .nan ∨ t ≤ .fin best) ∧ ¬ Num.Is t best :=
  C178_between_violated _ 10 (by norm_num) (List.mem_singleton.2 rfl) fun y h => by
    have : (7 : ℝ) / 2 = y := h
    have : (7 : ℝ) = 2 * y := by linarith
    norm_cast at this
    omega

/-- Tilting the camera. -/
example : ∃ F : ℝ → ℝ, (∀ s, ∃ t, horizonTerm { exampleCam with orient := .thr ⟨10, s, 0, 0, 0, 0⟩ } [⟨3, 2⟩] 10 = .ok t ∧ Num.Is t (F s)) ∧
    ∀ s d, HasDerivAt F d s → d = 0 := by
  have key : ∀ s : ℝ, ∃ v t, horizonTerm { exampleCam with orient := .thr ⟨10, s, 0, 0, 0, 0⟩ } [⟨3, 2⟩] 10 = .ok t ∧ Num.Is t v := by
    intro s
    obtain ⟨-, y, h, -⟩ := C81_horizon_real { exampleCam with orient := .thr ⟨10, s, 0, 0, 0, 0⟩ } exampleCam_proper 3 (by simp [Orient.pos]) (by simp [exampleCam])
      fun y _ => ⟨⟨3, y⟩, V2.is_num _⟩
    obtain ⟨t, h1, h2⟩ := C110_horizon_density { exampleCam with orient := .thr ⟨10, s, 0, 0, 0, 0⟩ } [⟨3, 2⟩] 10 (by norm_num) (fun _ => y)
      (by simpa using h)
    exact ⟨_, t, h1, h2⟩
  choose F hF using key
  exact ⟨F, hF, fun s d hd => C178_slope [⟨3, 2⟩] 10 ⌈exampleCam.intr.h⌉₊ (fun s => { exampleCam with orient := .thr ⟨10, s, 0, 0, 0, 0⟩ }) (fun _ => rfl) F hF s d hd⟩
