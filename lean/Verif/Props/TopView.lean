import Verif.Spec.TopView
import Verif.Spec.Lut
import Verif.Proofs.View
import Verif.Props.Camera
import Verif.Props.Lut

/-! # Properties of the cached maps (C70-C72, C98, C100, C101) -/

open Classical Num Camera View TopView

/-! ### what one call does -/

/-- One call of `_getMap` with the extent and scaling it uses. -/
theorem TopView.getMap_cases {s t : TopView.State} {a : TopView.Args} {m : List (List (V2 Num))} {b : Bool}
    (h : getMap s a = .ok (t, m, b)) :
    ∃ e kept, WantedExtent s a.extent (defaultExtent s.cam) e ∧
      (a.extent = none ∧ kept = .own e ∨ ∃ r, a.extent = some r ∧ kept = .ref r) ∧
      ((b = false ∧ t = s ∧ ∃ k, s.top = some k ∧ k.extent.now s.heap = e ∧ a.scaling = some k.scaling ∧ m = k.map) ∨
       (b = true ∧ ∃ v, v ≠ 0 ∧ WantedScaling a.scaling (defaultScaling s.cam e) v ∧
        m = topMap s.cam e v a.Z a.hide ∧ t = { s with top := some ⟨m, kept, v⟩ })) := by
  obtain ⟨ext, scaling, Z, hide⟩ := a
  have main : ∀ e kept, (match hit s s.top e scaling with
      | some k => (.ok (s, k.map, false) : Except Err (TopView.State × List (List (V2 Num)) × Bool))
      | none =>
        match (match scaling with
          | none => defaultScaling s.cam e
          | some v => some v) with
        | none => .error .value
        | some v =>
          if v = 0 then .error .zeroDivision
          else
            let m := topMap s.cam e v Z hide
            .ok ({ s with top := some ⟨m, kept, v⟩ }, m, true)) = .ok (t, m, b) →
      ((b = false ∧ t = s ∧ ∃ k, s.top = some k ∧ k.extent.now s.heap = e ∧ scaling = some k.scaling ∧ m = k.map) ∨
       (b = true ∧ ∃ v, v ≠ 0 ∧ WantedScaling scaling (defaultScaling s.cam e) v ∧
        m = topMap s.cam e v Z hide ∧ t = { s with top := some ⟨m, kept, v⟩ })) := by
    intro e kept h
    cases hk : hit s s.top e scaling with
    | some k =>
      rw [hk] at h
      simp only [Except.ok.injEq, Prod.mk.injEq] at h
      obtain ⟨rfl, rfl, rfl⟩ := h
      left
      refine ⟨rfl, rfl, k, ?_⟩
      unfold hit at hk
      cases htop : s.top with
      | none => rw [htop] at hk; simp at hk
      | some k' =>
        rw [htop] at hk
        simp only at hk
        split_ifs at hk with hcond
        cases hk
        exact ⟨rfl, hcond.1, hcond.2.symm, rfl⟩
    | none =>
      rw [hk] at h
      right
      cases scaling with
      | none =>
        simp only at h
        cases hd : defaultScaling s.cam e with
        | none => rw [hd] at h; simp at h
        | some v =>
          rw [hd] at h
          simp only at h
          split_ifs at h with h0
          simp only [Except.ok.injEq, Prod.mk.injEq] at h
          obtain ⟨rfl, rfl, rfl⟩ := h
          exact ⟨rfl, v, h0, rfl, rfl, rfl⟩
      | some v =>
        simp only at h
        split_ifs at h with h0
        simp only [Except.ok.injEq, Prod.mk.injEq] at h
        obtain ⟨rfl, rfl, rfl⟩ := h
        exact ⟨rfl, v, h0, rfl, rfl, rfl⟩
  cases ext with
  | none =>
    unfold getMap at h
    simp only at h
    cases hd : defaultExtent s.cam with
    | none => rw [hd] at h; simp at h
    | some e =>
      rw [hd] at h
      simp only [Option.map_some] at h
      exact ⟨e, .own e, rfl, Or.inl ⟨rfl, rfl⟩, main e (.own e) h⟩
  | some r =>
    exact ⟨s.heap r, .ref r, rfl, Or.inr ⟨r, rfl, rfl⟩, main (s.heap r) (.ref r) h⟩

theorem TopView.getUndistort_cases {s t : TopView.State} {x : Option Ref} {sc : Option ℝ} {m : List (List (V2 Num))}
    {b : Bool} (h : getUndistortMap s x sc = .ok (t, m, b)) :
    ∃ e kept v, WantedExtent s x (some ⟨0, s.cam.intr.w, 0, s.cam.intr.h⟩) e ∧ WantedScaling sc (some 1) v ∧
      (x = none ∧ kept = .own e ∨ ∃ r, x = some r ∧ kept = .ref r) ∧
      ((b = false ∧ t = s ∧ ∃ k, s.undist = some k ∧ k.extent.now s.heap = e ∧ k.scaling = v ∧ m = k.map) ∨
       (b = true ∧ v ≠ 0 ∧ m = undistortMap s.cam e v ∧ t = { s with undist := some ⟨m, kept, v⟩ })) := by
  have main : ∀ e kept, (match hit s s.undist e (some (sc.getD 1)) with
      | some k => (.ok (s, k.map, false) : Except Err (TopView.State × List (List (V2 Num)) × Bool))
      | none =>
        if sc.getD 1 = 0 then .error .zeroDivision
        else
          let m := undistortMap s.cam e (sc.getD 1)
          .ok ({ s with undist := some ⟨m, kept, sc.getD 1⟩ }, m, true)) = .ok (t, m, b) →
      ((b = false ∧ t = s ∧ ∃ k, s.undist = some k ∧ k.extent.now s.heap = e ∧ k.scaling = sc.getD 1 ∧ m = k.map) ∨
       (b = true ∧ sc.getD 1 ≠ 0 ∧ m = undistortMap s.cam e (sc.getD 1) ∧
        t = { s with undist := some ⟨m, kept, sc.getD 1⟩ })) := by
    intro e kept h
    cases hk : hit s s.undist e (some (sc.getD 1)) with
    | some k =>
      rw [hk] at h
      simp only [Except.ok.injEq, Prod.mk.injEq] at h
      obtain ⟨rfl, rfl, rfl⟩ := h
      left
      refine ⟨rfl, rfl, k, ?_⟩
      unfold hit at hk
      cases htop : s.undist with
      | none => rw [htop] at hk; simp at hk
      | some k' =>
        rw [htop] at hk
        simp only at hk
        split_ifs at hk with hcond
        cases hk
        exact ⟨rfl, hcond.1, Option.some.inj hcond.2, rfl⟩
    | none =>
      rw [hk] at h
      right
      simp only at h
      split_ifs at h with h0
      simp only [Except.ok.injEq, Prod.mk.injEq] at h
      obtain ⟨rfl, rfl, rfl⟩ := h
      exact ⟨rfl, h0, rfl, rfl⟩
  have hsc : WantedScaling sc (some 1) (sc.getD 1) := by cases sc <;> rfl
  cases x with
  | none => exact ⟨_, _, sc.getD 1, rfl, hsc, Or.inl ⟨rfl, rfl⟩, main _ _ h⟩
  | some r => exact ⟨_, _, sc.getD 1, rfl, hsc, Or.inr ⟨r, rfl, rfl⟩, main _ _ h⟩

/-! ### C70 -/

/-- **C70** A map that is computed is the right one, whatever happened before. -/
theorem C70_computed_map (s t : TopView.State) (a : TopView.Args) (m : List (List (V2 Num)))
    (h : getMap s a = .ok (t, m, true)) : RightMap s a m := by
  obtain ⟨e, kept, h1, -, h2⟩ := getMap_cases h
  rcases h2 with ⟨h2, -⟩ | ⟨-, v, h0, h2, h3, h4⟩
  · simp at h2
  · exact ⟨e, v, h1, h2, h3⟩

/-- The cached map, if there is one, belongs to the camera `c`, `Z` and `hide`, and its extent is not one of the
caller's lists outside `U`. -/
def TopView.Good (c : Cam) (Z : ℝ) (hide : Bool) (U : Set Ref) (s : TopView.State) : Prop :=
  s.cam = c ∧ ∀ k, s.top = some k → k.map = topMap c (k.extent.now s.heap) k.scaling Z hide ∧
    ∀ r, k.extent = .ref r → r ∈ U

theorem TopView.good_step {c : Cam} {Z : ℝ} {hide : Bool} {U : Set Ref} {s : TopView.State} (h : Good c Z hide U s)
    {o : Op} (ho : Quiet c Z hide U o) : Good c Z hide U (step s o) := by
  obtain ⟨h1, h2⟩ := h
  cases o with
  | setCam c' => exact ⟨ho, h2⟩
  | write r e =>
    refine ⟨h1, fun k hk => ?_⟩
    obtain ⟨h3, h4⟩ := h2 k hk
    refine ⟨?_, h4⟩
    rw [h3]
    congr 1
    cases hx : k.extent with
    | own e => rfl
    | ref q =>
      have : q ≠ r := fun e => ho (e ▸ h4 q hx)
      show s.heap q = (if q = r then e else s.heap q)
      rw [if_neg this]
  | undistort x sc =>
    unfold step
    simp only
    cases hg : getUndistortMap s x sc with
    | error e => exact ⟨h1, h2⟩
    | ok r =>
      obtain ⟨t, m, b⟩ := r
      obtain ⟨e, kept, v, -, -, -, ⟨-, rfl, -⟩ | ⟨-, -, -, rfl⟩⟩ := getUndistort_cases hg
      · exact ⟨h1, h2⟩
      · exact ⟨h1, h2⟩
  | top a =>
    unfold step
    simp only
    cases hg : getMap s a with
    | error e => exact ⟨h1, h2⟩
    | ok r =>
      obtain ⟨t, m, b⟩ := r
      obtain ⟨e, kept, w1, hkept, ⟨-, rfl, -⟩ | ⟨-, v, -, -, hm, rfl⟩⟩ := getMap_cases hg
      · exact ⟨h1, h2⟩
      · refine ⟨h1, fun k hk => ?_⟩
        simp only [Option.some.injEq] at hk
        subst hk
        obtain ⟨q1, q2, q3⟩ := ho
        rcases hkept with ⟨hn, rfl⟩ | ⟨r, hr, rfl⟩
        · refine ⟨?_, fun r hr => by simp at hr⟩
          simp only [Kept.now]
          rw [hm, h1, q1, q2]
        · refine ⟨?_, fun r' hr' => by
            simp only [Kept.ref.injEq] at hr'
            exact hr' ▸ q3 r hr⟩
          simp only [Kept.now]
          rw [hr] at w1
          have w1 : s.heap r = e := w1
          rw [hm, h1, q1, q2, w1]

theorem TopView.good_run {c : Cam} {Z : ℝ} {hide : Bool} {U : Set Ref} (ops : List Op) {s : TopView.State}
    (h : Good c Z hide U s) (ho : ∀ o ∈ ops, Quiet c Z hide U o) : Good c Z hide U (run s ops) := by
  induction ops generalizing s with
  | nil => exact h
  | cons o ops ih =>
    exact ih (good_step h (ho o List.mem_cons_self)) fun p hp => ho p (List.mem_cons_of_mem _ hp)

theorem TopView.good_right {c : Cam} {Z : ℝ} {hide : Bool} {U : Set Ref} {s t : TopView.State} (h : Good c Z hide U s)
    {a : TopView.Args} (hZ : a.Z = Z) (hh : a.hide = hide) {m : List (List (V2 Num))} {b : Bool}
    (hg : getMap s a = .ok (t, m, b)) : RightMap s a m := by
  obtain ⟨h1, h2⟩ := h
  obtain ⟨e, kept, w1, -, ⟨-, -, k, hk, he, hs, hm⟩ | ⟨-, v, -, w2, hm, -⟩⟩ := getMap_cases hg
  · refine ⟨e, k.scaling, w1, ?_, ?_⟩
    · rw [hs]; rfl
    · rw [hm, (h2 k hk).1, he, h1, hZ, hh]
  · exact ⟨e, v, w1, w2, hm⟩

/-- **C70 (partial)** Every top view, in every history that starts with a camera without cached map or with a
call that computed its map, uses the right map, as long as the parameters of the camera, `Z` and
`hide_backpoints` stay the same and the caller does not change a list that was given as extent.  The property
asks for this without these restrictions (see `C70_violated`, `C70_violated_list`). -/
theorem C70_top_view_map_partial (s : TopView.State) (Z : ℝ) (hide : Bool) (U : Set Ref) (first : Option TopView.Args)
    (hfirst : match first with
      | none => s.top = none
      | some a => a.Z = Z ∧ a.hide = hide ∧ (∀ r, a.extent = some r → r ∈ U) ∧ ∃ t m, getMap s a = .ok (t, m, true))
    (ops : List Op) (hops : ∀ o ∈ ops, Quiet s.cam Z hide U o) (a : TopView.Args) (hZ : a.Z = Z) (hh : a.hide = hide)
    (t : TopView.State) (m : List (List (V2 Num))) (b : Bool)
    (h : getMap (run (match first with
      | none => s
      | some a => step s (.top a)) ops) a = .ok (t, m, b)) :
    RightMap (run (match first with
      | none => s
      | some a => step s (.top a)) ops) a m := by
  cases first with
  | none =>
    exact good_right (good_run ops (s := s) ⟨rfl, fun k hk => by
      have : s.top = none := hfirst
      rw [this] at hk; simp at hk⟩ hops) hZ hh h
  | some a0 =>
    obtain ⟨f1, f2, f3, t0, m0, f4⟩ := hfirst
    have g : Good s.cam Z hide U (step s (.top a0)) := by
      unfold step
      simp only [f4]
      obtain ⟨e, kept, w1, hkept, ⟨hb, -⟩ | ⟨-, v, -, -, hm, rfl⟩⟩ := getMap_cases f4
      · simp at hb
      · refine ⟨rfl, fun k hk => ?_⟩
        simp only [Option.some.injEq] at hk
        subst hk
        rcases hkept with ⟨hn, rfl⟩ | ⟨r, hr, rfl⟩
        · refine ⟨?_, fun r hr => by simp at hr⟩
          simp only [Kept.now]
          rw [hm, f1, f2]
        · refine ⟨?_, fun r' hr' => by
            simp only [Kept.ref.injEq] at hr'
            exact hr' ▸ f3 r hr⟩
          simp only [Kept.now]
          rw [hr] at w1
          have w1 : s.heap r = e := w1
          rw [hm, f1, f2, w1]
    exact good_right (good_run ops g hops) hZ hh h

/-- After a call with a given extent and scaling the cache matches these. -/
theorem TopView.cached {s t : TopView.State} {r : Ref} {v Z : ℝ} {hide : Bool} {m : List (List (V2 Num))} {b : Bool}
    (h : getMap s ⟨some r, some v, Z, hide⟩ = .ok (t, m, b)) :
    ∃ k, t.top = some k ∧ k.extent.now t.heap = s.heap r ∧ k.scaling = v ∧ k.map = m ∧ t.heap = s.heap ∧
      t.cam = s.cam := by
  obtain ⟨e, kept, w1, hkept, ⟨-, rfl, k, hk, he, hs, hm⟩ | ⟨-, v', -, w2, hm, rfl⟩⟩ := getMap_cases h
  · have w1 : t.heap r = e := w1
    exact ⟨k, hk, by rw [he, w1], (Option.some.inj hs).symm, hm.symm, rfl, rfl⟩
  · have w2 : v = v' := w2
    rcases hkept with ⟨hn, -⟩ | ⟨r', hr, rfl⟩
    · simp at hn
    · simp only [Option.some.injEq] at hr
      subst hr
      exact ⟨_, rfl, rfl, w2.symm, rfl, rfl, rfl⟩

theorem TopView.hit_map {s : TopView.State} {r : Ref} {v Z : ℝ} {hide : Bool} {k : Cache} (hk : s.top = some k)
    (he : k.extent.now s.heap = s.heap r) (hv : k.scaling = v) :
    getMap s ⟨some r, some v, Z, hide⟩ = .ok (s, k.map, false) := by
  have : hit s s.top (s.heap r) (some v) = some k := by
    unfold hit
    rw [hk]
    simp only
    rw [if_pos ⟨he, by rw [hv]⟩]
  unfold getMap
  simp only [this]

/-- **C70 violated** After a top view with a given extent and scaling, a second one with the same extent and
scaling uses the same map, whatever the camera is then, and whatever `Z` and `hide_backpoints` are. -/
theorem C70_violated (s t : TopView.State) (r : Ref) (v Z Z' : ℝ) (hide hide' : Bool) (m : List (List (V2 Num)))
    (b : Bool) (h : getMap s ⟨some r, some v, Z, hide⟩ = .ok (t, m, b)) (c : Cam) :
    getMap (step t (.setCam c)) ⟨some r, some v, Z', hide'⟩ = .ok (step t (.setCam c), m, false) := by
  obtain ⟨k, hk, he, hv, rfl, hh, -⟩ := cached h
  exact hit_map (s := step t (.setCam c)) hk (by show k.extent.now t.heap = t.heap r; rw [he, hh]) hv

/-- **C70 violated** The cache keeps a reference to the list given as extent: after a call that computed the
map the caller may write anything into the list, the next call with this list uses the old map. -/
theorem C70_violated_list (s t : TopView.State) (r : Ref) (v Z : ℝ) (hide : Bool) (m : List (List (V2 Num)))
    (h : getMap s ⟨some r, some v, Z, hide⟩ = .ok (t, m, true)) (e : Extent) :
    getMap (step t (.write r e)) ⟨some r, some v, Z, hide⟩ = .ok (step t (.write r e), m, false) := by
  obtain ⟨e0, kept, w1, hkept, ⟨hb, -⟩ | ⟨-, v', -, w2, hm, rfl⟩⟩ := getMap_cases h
  · simp at hb
  · rcases hkept with ⟨hn, -⟩ | ⟨r', hr, rfl⟩
    · simp at hn
    · simp only [Option.some.injEq] at hr
      subst hr
      have w2 : v = v' := w2
      exact hit_map (k := ⟨m, .ref r, v'⟩) rfl rfl w2.symm

/-! ### C72 -/

/-- **C72 (partial)** A second call with the same extent, a given scaling, `Z` and `hide_backpoints` uses the
cached map.  Missing: the default scaling (see `C72_violated`). -/
theorem C72_cache_hit_partial (s t : TopView.State) (a : TopView.Args) (v : ℝ) (ha : a.scaling = some v)
    (m : List (List (V2 Num))) (b : Bool) (h : getMap s a = .ok (t, m, b)) :
    getMap t a = .ok (t, m, false) := by
  obtain ⟨ext, sc, Z, hide⟩ := a
  simp only at ha
  subst ha
  cases ext with
  | some r =>
    obtain ⟨k, hk, he, hv, rfl, hh, -⟩ := cached h
    exact hit_map hk (by rw [he, hh]) hv
  | none =>
    obtain ⟨e, kept, w1, hkept, ⟨hb, rfl, -⟩ | ⟨-, v', -, w2, hm, rfl⟩⟩ := getMap_cases h
    · subst hb; exact h
    · rcases hkept with ⟨-, rfl⟩ | ⟨r, hr, -⟩
      · have w1 : defaultExtent s.cam = some e := w1
        have w2 : v = v' := w2
        subst w2
        unfold getMap
        simp only [w1, Option.map_some]
        have : hit { s with top := some ⟨m, .own e, v⟩ } (some ⟨m, .own e, v⟩) e (some v) = some ⟨m, .own e, v⟩ := by
          simp [hit, Kept.now]
        simp only [this]
      · simp at hr

/-- **C72 violated** With the default scaling the map is computed in every call. -/
theorem C72_violated (s t : TopView.State) (a : TopView.Args) (ha : a.scaling = none) (m : List (List (V2 Num)))
    (b : Bool) (h : getMap s a = .ok (t, m, b)) : b = true := by
  obtain ⟨e, kept, -, -, ⟨-, -, k, -, -, hs, -⟩ | ⟨hb, -⟩⟩ := getMap_cases h
  · rw [ha] at hs; simp at hs
  · exact hb

/-! ### C71 -/

/-- **C71** A map that is computed is the right one. -/
theorem C71_computed_map (s t : TopView.State) (x : Option Ref) (sc : Option ℝ) (m : List (List (V2 Num)))
    (h : getUndistortMap s x sc = .ok (t, m, true)) : RightUndistort s x sc m := by
  obtain ⟨e, kept, v, h1, h2, -, ⟨hb, -⟩ | ⟨-, -, h3, -⟩⟩ := getUndistort_cases h
  · simp at hb
  · exact ⟨e, v, h1, h2, h3⟩

/-- The cached map, if there is one, belongs to the lens `L`. -/
def TopView.GoodLens (L : Lens) (U : Set Ref) (s : TopView.State) : Prop :=
  s.cam.lens = L ∧ ∀ k, s.undist = some k →
    (∀ c : Cam, c.lens = L → k.map = undistortMap c (k.extent.now s.heap) k.scaling) ∧ ∀ r, k.extent = .ref r → r ∈ U

theorem TopView.undistort_lens {c c' : Cam} (h : c.lens = c'.lens) (e : Extent) (v : ℝ) :
    undistortMap c e v = undistortMap c' e v := by
  unfold undistortMap
  rw [h]

theorem TopView.goodLens_step {L : Lens} {U : Set Ref} {s : TopView.State} (h : GoodLens L U s)
    {o : Op} (ho : QuietLens L U o) : GoodLens L U (step s o) := by
  obtain ⟨h1, h2⟩ := h
  cases o with
  | setCam c' => exact ⟨ho, h2⟩
  | write r e =>
    refine ⟨h1, fun k hk => ?_⟩
    obtain ⟨h3, h4⟩ := h2 k hk
    refine ⟨fun c hc => ?_, h4⟩
    rw [h3 c hc]
    congr 1
    cases hx : k.extent with
    | own e => rfl
    | ref q =>
      have : q ≠ r := fun e => ho (e ▸ h4 q hx)
      show s.heap q = (if q = r then e else s.heap q)
      rw [if_neg this]
  | top a =>
    unfold step
    simp only
    cases hg : getMap s a with
    | error e => exact ⟨h1, h2⟩
    | ok r =>
      obtain ⟨t, m, b⟩ := r
      obtain ⟨e, kept, -, -, ⟨-, rfl, -⟩ | ⟨-, v, -, -, -, rfl⟩⟩ := getMap_cases hg
      · exact ⟨h1, h2⟩
      · exact ⟨h1, h2⟩
  | undistort x sc =>
    unfold step
    simp only
    cases hg : getUndistortMap s x sc with
    | error e => exact ⟨h1, h2⟩
    | ok r =>
      obtain ⟨t, m, b⟩ := r
      obtain ⟨e, kept, v, w1, -, hkept, ⟨-, rfl, -⟩ | ⟨-, -, hm, rfl⟩⟩ := getUndistort_cases hg
      · exact ⟨h1, h2⟩
      · refine ⟨h1, fun k hk => ?_⟩
        simp only [Option.some.injEq] at hk
        subst hk
        rcases hkept with ⟨hn, rfl⟩ | ⟨r, hr, rfl⟩
        · refine ⟨fun c hc => ?_, fun r hr => by simp at hr⟩
          simp only [Kept.now]
          rw [hm, undistort_lens (h1.trans hc.symm)]
        · refine ⟨fun c hc => ?_, fun r' hr' => by
            simp only [Kept.ref.injEq] at hr'
            exact hr' ▸ ho r hr⟩
          simp only [Kept.now]
          rw [hr] at w1
          have w1 : s.heap r = e := w1
          rw [hm, undistort_lens (h1.trans hc.symm), w1]

theorem TopView.goodLens_run {L : Lens} {U : Set Ref} (ops : List Op) {s : TopView.State}
    (h : GoodLens L U s) (ho : ∀ o ∈ ops, QuietLens L U o) : GoodLens L U (run s ops) := by
  induction ops generalizing s with
  | nil => exact h
  | cons o ops ih =>
    exact ih (goodLens_step h (ho o List.mem_cons_self)) fun p hp => ho p (List.mem_cons_of_mem _ hp)

/-- **C71 (partial)** Every call of `undistortImage` uses the right map, in every history in which the lens
stays the same (other parameters, also the size of the image, may change) and the caller does not change a
list that was given as extent. -/
theorem C71_undistort_map_partial (s : TopView.State) (hs : s.undist = none) (U : Set Ref) (ops : List Op)
    (hops : ∀ o ∈ ops, QuietLens s.cam.lens U o) (x : Option Ref) (sc : Option ℝ) (t : TopView.State)
    (m : List (List (V2 Num))) (b : Bool) (h : getUndistortMap (run s ops) x sc = .ok (t, m, b)) :
    RightUndistort (run s ops) x sc m := by
  obtain ⟨h1, h2⟩ := goodLens_run ops (s := s) ⟨rfl, fun k hk => by rw [hs] at hk; simp at hk⟩ hops
  obtain ⟨e, kept, v, w1, w2, -, ⟨-, -, k, hk, he, hv, hm⟩ | ⟨-, -, hm, -⟩⟩ := getUndistort_cases h
  · exact ⟨e, v, w1, w2, by rw [hm, (h2 k hk).1 _ h1, he, hv]⟩
  · exact ⟨e, v, w1, w2, hm⟩

/-- **C71 violated** After a call with a list given as extent, a second call with the same list and scaling
uses the same map, whatever the lens is then. -/
theorem C71_violated (s t : TopView.State) (r : Ref) (sc : Option ℝ) (m : List (List (V2 Num)))
    (b : Bool) (h : getUndistortMap s (some r) sc = .ok (t, m, b)) (c : Cam) :
    getUndistortMap (step t (.setCam c)) (some r) sc = .ok (step t (.setCam c), m, false) := by
  have key : ∃ k, t.undist = some k ∧ k.extent.now t.heap = t.heap r ∧ k.scaling = sc.getD 1 ∧ k.map = m := by
    obtain ⟨e, kept, v, w1, w2, hkept, ⟨-, rfl, k, hk, he, hv, hm⟩ | ⟨-, -, hm, rfl⟩⟩ := getUndistort_cases h
    · have w1 : t.heap r = e := w1
      exact ⟨k, hk, by rw [he, w1], by rw [hv]; cases sc <;> simp [WantedScaling] at w2 <;> simp [w2], hm.symm⟩
    · rcases hkept with ⟨hn, -⟩ | ⟨r', hr, rfl⟩
      · simp at hn
      · simp only [Option.some.injEq] at hr
        subst hr
        exact ⟨_, rfl, rfl, by cases sc <;> simp [WantedScaling] at w2 <;> simp [w2], rfl⟩
  obtain ⟨k, hk, he, hv, rfl⟩ := key
  have : hit (step t (.setCam c)) (step t (.setCam c)).undist (t.heap r) (some (sc.getD 1)) = some k := by
    unfold hit
    have e1 : (step t (.setCam c)).undist = some k := hk
    rw [e1]
    simp only
    rw [if_pos ⟨he, by rw [hv]⟩]
  unfold getUndistortMap
  have e2 : (step t (.setCam c)).heap r = t.heap r := rfl
  simp only [e2, this]

/-! ### C100, C101: what the images show -/

theorem TopView.mesh_entry (e : Extent) (s : ℝ) (i j : ℕ) (hi : i < ⌈(e.y1 - e.y0) / s⌉₊) (hj : j < ⌈(e.x1 - e.x0) / s⌉₊) :
    ∃ r, (mesh e s)[i]? = some r ∧ r[j]? = some ⟨e.x0 + j * s, e.y0 + i * s⟩ := by
  refine ⟨(arange e.x0 e.x1 s).map fun x => ⟨x, e.y0 + i * s⟩, ?_, ?_⟩
  · unfold mesh arange
    rw [List.getElem?_map, List.getElem?_map, List.getElem?_range hi]
    rfl
  · unfold arange
    rw [List.getElem?_map, List.getElem?_map, List.getElem?_range hj]
    rfl

theorem TopView.mesh_length (e : Extent) (s : ℝ) : (mesh e s).length = ⌈(e.y1 - e.y0) / s⌉₊ := by simp [mesh, arange]

/-- **C100** The pixel in row `i` from the top and column `j` of a top view shows what the camera sees at the
point `x = x_min + j * scaling`, `y = y_min + (rows - 1 - i) * scaling` of the plane at height `Z`: x grows to
the right and y grows upwards. -/
theorem C100_top_view_content (s t : TopView.State) (a : TopView.Args) (m : List (List (V2 Num))) {α : Type}
    (sample : V2 Num → α) (h : getMap s a = .ok (t, m, true)) :
    ∃ e v img, WantedExtent s a.extent (defaultExtent s.cam) e ∧
      WantedScaling a.scaling (defaultScaling s.cam e) v ∧ topView s sample a = .ok (t, img) ∧
      img.length = ⌈(e.y1 - e.y0) / v⌉₊ ∧ (∀ r ∈ img, r.length = ⌈(e.x1 - e.x0) / v⌉₊) ∧
      ∀ i j : ℕ, i < ⌈(e.y1 - e.y0) / v⌉₊ → j < ⌈(e.x1 - e.x0) / v⌉₊ → ∃ r, img[i]? = some r ∧
        r[j]? = some (sample (imageFromSpace s.cam
          (V3.num ⟨e.x0 + j * v, e.y0 + (⌈(e.y1 - e.y0) / v⌉₊ - 1 - i : ℕ) * v, a.Z⟩) a.hide)) := by
  obtain ⟨e, v, h1, h2, rfl⟩ := C70_computed_map s t a m h
  refine ⟨e, v, remap sample (topMap s.cam e v a.Z a.hide), h1, h2, ?_, ?_, ?_, ?_⟩
  · simp [topView, h, bind, Except.bind, pure, Except.pure]
  · simp [remap, topMap, mesh, arange]
  · intro r hr
    simp only [remap, topMap, mesh, arange, List.mem_map, List.mem_reverse] at hr
    obtain ⟨_, ⟨_, ⟨_, ⟨_, _, rfl⟩, rfl⟩, rfl⟩, rfl⟩ := hr
    simp
  · intro i j hi hj
    obtain ⟨r, hr1, hr2⟩ := mesh_entry e v (⌈(e.y1 - e.y0) / v⌉₊ - 1 - i) j (by omega) hj
    refine ⟨(r.map fun p => imageFromSpace s.cam (V3.num ⟨p.x, p.y, a.Z⟩) a.hide).map sample, ?_, ?_⟩
    · unfold remap topMap
      rw [List.getElem?_map, List.getElem?_reverse (by simpa [mesh, arange] using hi), List.length_map, mesh_length,
        List.getElem?_map, hr1]
      rfl
    · rw [List.getElem?_map, List.getElem?_map, hr2]
      rfl

/-- **C101** The pixel in row `i` and column `j` of an undistorted image shows the given image at the distorted
position of the point `x_min + j * scaling`, `y_min + i * scaling`. -/
theorem C101_undistorted_content (s t : TopView.State) (x : Option Ref) (sc : Option ℝ) (m : List (List (V2 Num)))
    {α : Type} (sample : V2 Num → α) (h : getUndistortMap s x sc = .ok (t, m, true)) :
    ∃ e v img, WantedExtent s x (some ⟨0, s.cam.intr.w, 0, s.cam.intr.h⟩) e ∧ WantedScaling sc (some 1) v ∧
      undistort s sample x sc = .ok (t, img) ∧
      img.length = ⌈(e.y1 - e.y0) / v⌉₊ ∧ (∀ r ∈ img, r.length = ⌈(e.x1 - e.x0) / v⌉₊) ∧
      ∀ i j : ℕ, i < ⌈(e.y1 - e.y0) / v⌉₊ → j < ⌈(e.x1 - e.x0) / v⌉₊ → ∃ r, img[i]? = some r ∧
        r[j]? = some (sample (s.cam.lens.distortedFromImage (V2.num ⟨e.x0 + j * v, e.y0 + i * v⟩))) := by
  obtain ⟨e, v, h1, h2, rfl⟩ := C71_computed_map s t x sc m h
  refine ⟨e, v, (remap sample (undistortMap s.cam e v)).reverse, h1, h2, ?_, ?_, ?_, ?_⟩
  · simp [undistort, h, bind, Except.bind, pure, Except.pure]
  · simp [remap, undistortMap, mesh, arange]
  · intro r hr
    simp only [remap, undistortMap, mesh, arange, List.mem_map, List.mem_reverse] at hr
    obtain ⟨_, ⟨_, ⟨_, ⟨_, _, rfl⟩, rfl⟩, rfl⟩, rfl⟩ := hr
    simp
  · intro i j hi hj
    obtain ⟨r, hr1, hr2⟩ := mesh_entry e v i j hi hj
    refine ⟨(r.map fun p => s.cam.lens.distortedFromImage (V2.num p)).map sample, ?_, ?_⟩
    · unfold remap undistortMap
      rw [← List.map_reverse, List.reverse_reverse, List.getElem?_map, List.getElem?_map, hr1]
      rfl
    · rw [List.getElem?_map, List.getElem?_map, hr2]
      rfl

/-! ### the map of a camera that was moved -/

theorem Camera.moved_pos (c : Cam) (dx : ℝ) :
    (c.moved dx).orient.pos = ⟨c.orient.pos.x + dx, c.orient.pos.y, c.orient.pos.z⟩ := by
  obtain ⟨k, i, o, l⟩ := c
  cases o <;> rfl

theorem Camera.moved_dirR (c : Cam) (dx : ℝ) (p : V2 ℝ) : dirR (c.moved dx) p = dirR c p := by
  obtain ⟨k, i, o, l⟩ := c
  cases o <;> rfl

theorem Camera.moved_getRay (c : Cam) (dx : ℝ) (p : V2 Num) (b : Bool) : (getRay (c.moved dx) p b).2 = (getRay c p b).2 := by
  obtain ⟨k, i, o, l⟩ := c
  cases o <;> rfl

/-- Two cameras that differ by a move in the x direction do not see a point at the same pixel, unless it is
at their height. -/
theorem Camera.moved_image (c : Cam) (hc : c.Proper) (hl : c.lens = noDistortion) {dx : ℝ} (hdx : dx ≠ 0) {P : V3 ℝ}
    (hz : P.z ≠ c.orient.pos.z) (hv : Visible c P) (hv' : Visible (c.moved dx) P) (hide hide' : Bool) :
    imageFromSpace c P.num hide ≠ imageFromSpace (c.moved dx) P.num hide' := by
  intro heq
  obtain ⟨p, h1, h2⟩ := space_of_image c hc (V3.is_num P) hv hide
  obtain ⟨p', h1', h2'⟩ := space_of_image (c.moved dx) hc (V3.is_num P) hv' hide'
  obtain ⟨u, hu, e, -⟩ := h2 (by rw [hl]; exact fun _ h => h)
  obtain ⟨u', hu', e', -⟩ := h2' (by show c.lens.ExactAt p'; rw [hl]; exact fun _ h => h)
  have q1 : (imageFromSpace c P.num hide).Is p := by unfold imageFromSpace; rw [hl]; exact h1
  have q2 : (imageFromSpace (c.moved dx) P.num hide').Is p' := by
    have : (c.moved dx).lens = noDistortion := hl
    unfold imageFromSpace; rw [this]; exact h1'
  rw [heq] at q1
  have hp := q1.unique q2
  subst hp
  rw [moved_dirR, moved_pos] at e'
  have ez := congrArg V3.z e
  have ez' := congrArg V3.z e'
  have ex := congrArg V3.x e
  have ex' := congrArg V3.x e'
  simp at ez ez' ex ex'
  have hd : (dirR c p).z ≠ 0 := fun h => hz (by rw [ez, h]; ring)
  have huu : u = u' := by
    have : (dirR c p).z * (u - u') = 0 := by linarith
    rcases mul_eq_zero.1 this with h | h
    · exact absurd h hd
    · linarith
  subst huu
  exact hdx (by linarith)

/-- **C70 violated** The map that is used after the camera was moved is wrong: if the corner of the extent is
visible before and after the move (and not at the height of the camera), the map of the second call is not the
one of the moved camera. -/
theorem C70_violated_moved (s t : TopView.State) (r : Ref) (v Z : ℝ) (hide : Bool) (m : List (List (V2 Num)))
    (hv0 : 0 < v) (hx : (s.heap r).x0 < (s.heap r).x1) (hy : (s.heap r).y0 < (s.heap r).y1)
    (h : getMap s ⟨some r, some v, Z, hide⟩ = .ok (t, m, true)) (hc : s.cam.Proper) (hl : s.cam.lens = noDistortion)
    (dx : ℝ) (hdx : dx ≠ 0) (hz : Z ≠ s.cam.orient.pos.z) (hv : Visible s.cam ⟨(s.heap r).x0, (s.heap r).y0, Z⟩)
    (hv' : Visible (s.cam.moved dx) ⟨(s.heap r).x0, (s.heap r).y0, Z⟩) :
    ∃ m', getMap (step t (.setCam (s.cam.moved dx))) ⟨some r, some v, Z, hide⟩ =
        .ok (step t (.setCam (s.cam.moved dx)), m', false) ∧
      ¬ RightMap (step t (.setCam (s.cam.moved dx))) ⟨some r, some v, Z, hide⟩ m' := by
  refine ⟨m, C70_violated s t r v Z Z hide hide m true h _, ?_⟩
  rintro ⟨e, v', w1, w2, hm⟩
  have w2 : v = v' := w2
  subst w2
  obtain ⟨e0, v0, y1, y2, hm0⟩ := C70_computed_map s t _ m h
  have y2 : v = v0 := y2
  subst y2
  have y1 : s.heap r = e0 := y1
  subst y1
  have hh : t.heap = s.heap := by
    obtain ⟨k, -, -, -, -, hh, -⟩ := cached h
    exact hh
  have w1 : t.heap r = e := w1
  rw [hh] at w1
  subst w1
  have hmm : topMap s.cam (s.heap r) v Z hide = topMap (s.cam.moved dx) (s.heap r) v Z hide := hm0.symm.trans hm
  unfold topMap at hmm
  have hmm := List.reverse_injective hmm
  obtain ⟨row, r1, r2⟩ := mesh_entry (s.heap r) v 0 0
    (Nat.ceil_pos.2 (div_pos (by linarith) hv0)) (Nat.ceil_pos.2 (div_pos (by linarith) hv0))
  have a1 := congrArg (fun l => l[0]?) hmm
  simp only [List.getElem?_map, r1, Option.map_some, Option.some.injEq] at a1
  have a2 := congrArg (fun l => l[0]?) a1
  simp only [List.getElem?_map, r2, Option.map_some, Option.some.injEq] at a2
  simp only [Nat.cast_zero, zero_mul, add_zero] at a2
  exact moved_image s.cam hc hl hdx hz hv hv' hide hide a2

/-- **C71 violated** The map that is used after the lens was changed is wrong, if the corner of the extent has
another distorted position with the new lens. -/
theorem C71_violated_lens (s t : TopView.State) (r : Ref) (m : List (List (V2 Num)))
    (hx : (s.heap r).x0 < (s.heap r).x1) (hy : (s.heap r).y0 < (s.heap r).y1)
    (h : getUndistortMap s (some r) none = .ok (t, m, true)) (L : Lens)
    (hL : L.distortedFromImage (V2.num ⟨(s.heap r).x0, (s.heap r).y0⟩) ≠
      s.cam.lens.distortedFromImage (V2.num ⟨(s.heap r).x0, (s.heap r).y0⟩)) :
    ∃ m', getUndistortMap (step t (.setCam { s.cam with lens := L })) (some r) none =
        .ok (step t (.setCam { s.cam with lens := L }), m', false) ∧
      ¬ RightUndistort (step t (.setCam { s.cam with lens := L })) (some r) none m' := by
  refine ⟨m, C71_violated s t r none m true h _, ?_⟩
  rintro ⟨e, v, w1, w2, hm⟩
  have w2 : some 1 = some v := w2
  simp only [Option.some.injEq] at w2
  subst w2
  obtain ⟨e0, v0, y1, y2, hm0⟩ := C71_computed_map s t _ _ m h
  have y2 : some 1 = some v0 := y2
  simp only [Option.some.injEq] at y2
  subst y2
  have y1 : s.heap r = e0 := y1
  subst y1
  have hh : t.heap = s.heap := by
    obtain ⟨_, _, _, -, -, -, ⟨-, rfl, -⟩ | ⟨-, -, -, rfl⟩⟩ := getUndistort_cases h <;> rfl
  have w1 : t.heap r = e := w1
  rw [hh] at w1
  subst w1
  have hmm := List.reverse_injective (hm0.symm.trans hm)
  obtain ⟨row, r1, r2⟩ := mesh_entry (s.heap r) 1 0 0
    (Nat.ceil_pos.2 (div_pos (by linarith) one_pos)) (Nat.ceil_pos.2 (div_pos (by linarith) one_pos))
  have a1 := congrArg (fun l => l[0]?) hmm
  simp only [List.getElem?_map, r1, Option.map_some, Option.some.injEq] at a1
  have a2 := congrArg (fun l => l[0]?) a1
  simp only [List.getElem?_map, r2, Option.map_some, Option.some.injEq] at a2
  simp only [Nat.cast_zero, zero_mul, add_zero] at a2
  exact hL a2.symm

/-! ### C98: the default extent -/

theorem TopView.foldl_min_spec (x : ℝ) (l : List ℝ) (m : ℝ) (hm : m ∈ x :: l) (h : ∀ y ∈ x :: l, m ≤ y) :
    l.foldl min x = m := by
  have h1 : ∀ (l : List ℝ) (x : ℝ), l.foldl min x ∈ x :: l := by
    intro l
    induction l with
    | nil => simp
    | cons a l ih =>
      intro x
      have := ih (min x a)
      simp only [List.foldl_cons, List.mem_cons] at this ⊢
      rcases this with h | h
      · rw [h]; rcases min_choice x a with h | h <;> simp [h]
      · exact Or.inr (Or.inr h)
  have h2 : ∀ (l : List ℝ) (x : ℝ), ∀ y ∈ x :: l, l.foldl min x ≤ y := by
    intro l
    induction l with
    | nil => simp
    | cons a l ih =>
      intro x y hy
      simp only [List.foldl_cons]
      simp only [List.mem_cons] at hy
      rcases hy with rfl | rfl | hy
      · exact (ih (min y a) _ List.mem_cons_self).trans (min_le_left _ _)
      · exact (ih (min x y) _ List.mem_cons_self).trans (min_le_right _ _)
      · exact ih _ y (List.mem_cons_of_mem _ hy)
  exact le_antisymm (h2 l x m hm) (h _ (h1 l x))

theorem TopView.foldl_max_spec (x : ℝ) (l : List ℝ) (m : ℝ) (hm : m ∈ x :: l) (h : ∀ y ∈ x :: l, y ≤ m) :
    l.foldl max x = m := by
  have h1 : ∀ (l : List ℝ) (x : ℝ), l.foldl max x ∈ x :: l := by
    intro l
    induction l with
    | nil => simp
    | cons a l ih =>
      intro x
      have := ih (max x a)
      simp only [List.foldl_cons, List.mem_cons] at this ⊢
      rcases this with h | h
      · rw [h]; rcases max_choice x a with h | h <;> simp [h]
      · exact Or.inr (Or.inr h)
  have h2 : ∀ (l : List ℝ) (x : ℝ), ∀ y ∈ x :: l, y ≤ l.foldl max x := by
    intro l
    induction l with
    | nil => simp
    | cons a l ih =>
      intro x y hy
      simp only [List.foldl_cons]
      simp only [List.mem_cons] at hy
      rcases hy with rfl | rfl | hy
      · exact (le_max_left _ _).trans (ih (max y a) _ List.mem_cons_self)
      · exact (le_max_right _ _).trans (ih (max x y) _ List.mem_cons_self)
      · exact ih _ y (List.mem_cons_of_mem _ hy)
  exact le_antisymm (h _ (h1 l x)) (h2 l x m hm)

theorem TopView.nanmin_eq {l : List ℝ} {m : ℝ} (hm : m ∈ l) (h : ∀ y ∈ l, m ≤ y) : nanmin l = some m := by
  cases l with
  | nil => simp at hm
  | cons x l => exact congrArg some (foldl_min_spec x l m hm h)

theorem TopView.nanmax_eq {l : List ℝ} {m : ℝ} (hm : m ∈ l) (h : ∀ y ∈ l, y ≤ m) : nanmax l = some m := by
  cases l with
  | nil => simp at hm
  | cons x l => exact congrArg some (foldl_max_spec x l m hm h)

/-- **C98** A camera without pixels has no default extent (an empty border raises an IndexError). -/
theorem C98_no_pixels (c : Cam) (hw : c.intr.w ≤ 0) (hh : c.intr.h ≤ 0) : defaultExtent c = none := by
  have e : imageBorder c.intr.w c.intr.h 1 = [] := by
    rw [imageBorder_eq]
    simp only [div_one, Nat.ceil_eq_zero.2 hw, Nat.ceil_eq_zero.2 hh, List.range_zero, List.map_nil, List.append_nil]
  unfold defaultExtent
  rw [e]
  rfl

/-- **C98 violated** The default extent of the top view is the rectangle of the pixel positions, taken as
metres, for every camera. -/
theorem C98_violated (c : Cam) (hw : 0 < c.intr.w) (hh : 0 < c.intr.h) :
    defaultExtent c = some ⟨0, c.intr.w, 0, c.intr.h⟩ := by
  have nw : 0 < ⌈c.intr.w⌉₊ := Nat.ceil_pos.2 hw
  have nh : 0 < ⌈c.intr.h⌉₊ := Nat.ceil_pos.2 hh
  have lt : ∀ (a : ℝ) (i : ℕ), i < ⌈a⌉₊ → (i : ℝ) ≤ a := fun a i hi => (Nat.lt_ceil.1 hi).le
  have mem : ∀ p ∈ imageBorder c.intr.w c.intr.h 1, 0 ≤ p.x ∧ p.x ≤ c.intr.w ∧ 0 ≤ p.y ∧ p.y ≤ c.intr.h := by
    intro p hp
    rw [imageBorder_eq] at hp
    simp only [List.mem_append, List.mem_map, List.mem_range, div_one, mul_one] at hp
    rcases hp with ⟨i, hi, rfl⟩ | ⟨i, hi, rfl⟩ | ⟨i, hi, rfl⟩ | ⟨i, hi, rfl⟩ <;>
      have := lt _ i hi <;> have : (0 : ℝ) ≤ i := Nat.cast_nonneg i <;> refine ⟨?_, ?_, ?_, ?_⟩ <;> simp <;> linarith
  have m1 : (⟨0, 0⟩ : V2 ℝ) ∈ imageBorder c.intr.w c.intr.h 1 := by
    rw [imageBorder_eq]
    simp only [List.mem_append, List.mem_map, List.mem_range, div_one, mul_one]
    exact Or.inl ⟨0, nh, by simp⟩
  have m2 : (⟨c.intr.w, c.intr.h⟩ : V2 ℝ) ∈ imageBorder c.intr.w c.intr.h 1 := by
    rw [imageBorder_eq]
    simp only [List.mem_append, List.mem_map, List.mem_range, div_one, mul_one]
    exact Or.inr (Or.inr (Or.inl ⟨0, nh, by simp⟩))
  unfold defaultExtent
  simp only
  rw [nanmin_eq (m := 0) (List.mem_map.2 ⟨_, m1, rfl⟩) (by
      intro y hy; obtain ⟨p, hp, rfl⟩ := List.mem_map.1 hy; exact (mem p hp).1),
    nanmax_eq (m := c.intr.w) (List.mem_map.2 ⟨_, m2, rfl⟩) (by
      intro y hy; obtain ⟨p, hp, rfl⟩ := List.mem_map.1 hy; exact (mem p hp).2.1),
    nanmin_eq (m := 0) (List.mem_map.2 ⟨_, m1, rfl⟩) (by
      intro y hy; obtain ⟨p, hp, rfl⟩ := List.mem_map.1 hy; exact (mem p hp).2.2.1),
    nanmax_eq (m := c.intr.h) (List.mem_map.2 ⟨_, m2, rfl⟩) (by
      intro y hy; obtain ⟨p, hp, rfl⟩ := List.mem_map.1 hy; exact (mem p hp).2.2.2)]
  rfl

/-- **C98 violated** For every camera and every pixel that shows a point of the ground there is a camera that
differs in its position only, for which this point of the ground is outside of the default extent. -/
theorem C98_violated_moved (c : Cam) (hw : 0 < c.intr.w) (hh : 0 < c.intr.h) (q : V2 ℝ) (Q : V3 ℝ)
    (h : Shows c q Q) : ∃ dx Q' e, Shows (c.moved dx) q Q' ∧ defaultExtent (c.moved dx) = some e ∧ e.x1 < Q'.x := by
  obtain ⟨d, h1, h2, u, hu, e1, e2, e3⟩ := h
  refine ⟨c.intr.w + 1 - Q.x, ⟨c.intr.w + 1, Q.y, Q.z⟩, _, ⟨d, ?_, h2, u, hu, ?_, ?_, ?_⟩,
    C98_violated (c.moved _) hw hh, ?_⟩
  · rw [moved_getRay]; exact h1
  · rw [moved_pos]; simp only [] at *; linarith
  · rw [moved_pos]; simpa using e2
  · rw [moved_pos]; simpa using e3
  · show c.intr.w < c.intr.w + 1
    linarith

/-- **C98 (partial)** The half of the property that holds: with the default extent and scaling a top view has as
many pixels as the image. -/
theorem C98_default_size_partial (w h : ℕ) (hw : 0 < w) (hh : 0 < h) (c : Cam) (e1 : c.intr.w = w) (e2 : c.intr.h = h)
    (s : TopView.State) (hs : s.cam = c) (Z : ℝ) (hide : Bool) :
    ∃ t m, getMap s ⟨none, none, Z, hide⟩ = .ok (t, m, true) ∧ m.length = h ∧ ∀ r ∈ m, r.length = w := by
  subst hs
  have hw' : (0 : ℝ) < w := by exact_mod_cast hw
  have hh' : (0 : ℝ) < h := by exact_mod_cast hh
  have hd := C98_violated s.cam (by rw [e1]; exact hw') (by rw [e2]; exact hh')
  rw [e1, e2] at hd
  have hs : defaultScaling s.cam ⟨0, w, 0, h⟩ = some 1 := by
    unfold defaultScaling
    rw [e1, e2]
    simp only [sub_zero]
    have : 0 < (w : ℝ) * h := by positivity
    rw [if_pos ⟨this.le, this⟩, div_self (Real.sqrt_pos.2 this).ne']
  have hn : hit s s.top ⟨0, w, 0, h⟩ none = none := by
    unfold hit
    split
    · rfl
    · simp
  refine ⟨{ s with top := some ⟨topMap s.cam ⟨0, w, 0, h⟩ 1 Z hide, .own ⟨0, w, 0, h⟩, 1⟩ },
    topMap s.cam ⟨0, w, 0, h⟩ 1 Z hide, ?_, ?_, ?_⟩
  · simp [getMap, hd, hn, hs]
  · simp [topMap, mesh, arange]
  · intro r hr
    simp only [topMap, mesh, arange, List.mem_map, List.mem_reverse] at hr
    obtain ⟨_, ⟨_, _, rfl⟩, rfl⟩ := hr
    simp

/-- **C98 (partial)** Also for an extent given by the caller the default scaling makes cells as large as is needed to share
its area among as many pixels as the image has; the top view has at least that many. -/
theorem C98_default_scaling_partial (s : TopView.State) (r : Ref) (e : Extent) (he : s.heap r = e) (h1 : e.x0 < e.x1)
    (h2 : e.y0 < e.y1) (hw : 0 < s.cam.intr.w) (hh : 0 < s.cam.intr.h) (Z : ℝ) (hide : Bool) :
    ∃ v t m, 0 < v ∧ v ^ 2 * (s.cam.intr.w * s.cam.intr.h) = (e.x1 - e.x0) * (e.y1 - e.y0) ∧
      getMap s ⟨some r, none, Z, hide⟩ = .ok (t, m, true) ∧ m = topMap s.cam e v Z hide ∧
      ∃ n : ℕ, (∀ l ∈ m, l.length = n) ∧ s.cam.intr.w * s.cam.intr.h ≤ m.length * n := by
  subst he
  set e := s.heap r
  have hA : 0 < (e.x1 - e.x0) * (e.y1 - e.y0) := mul_pos (by linarith) (by linarith)
  have hB : 0 < s.cam.intr.w * s.cam.intr.h := mul_pos hw hh
  set v := Real.sqrt ((e.x1 - e.x0) * (e.y1 - e.y0)) / Real.sqrt (s.cam.intr.w * s.cam.intr.h) with hv
  have hv0 : 0 < v := div_pos (Real.sqrt_pos.2 hA) (Real.sqrt_pos.2 hB)
  have hd : defaultScaling s.cam e = some v := by
    unfold defaultScaling
    rw [if_pos ⟨hA.le, hB⟩]
  have hn : hit s s.top e none = none := by
    unfold hit
    split
    · rfl
    · simp
  have hv2 : v ^ 2 * (s.cam.intr.w * s.cam.intr.h) = (e.x1 - e.x0) * (e.y1 - e.y0) := by
    rw [hv, div_pow, Real.sq_sqrt hA.le, Real.sq_sqrt hB.le, div_mul_cancel₀ _ hB.ne']
  refine ⟨v, { s with top := some ⟨topMap s.cam e v Z hide, .ref r, v⟩ }, _, hv0, hv2, ?_, rfl, ⌈(e.x1 - e.x0) / v⌉₊, ?_, ?_⟩
  · have : getMap s ⟨some r, none, Z, hide⟩ =
        .ok ({ s with top := some ⟨topMap s.cam e v Z hide, .ref r, v⟩ }, topMap s.cam e v Z hide, true) := by
      simp [getMap, e, hd, hn, hv0.ne']
    exact this
  · intro l hl
    simp only [topMap, mesh, arange, List.mem_map, List.mem_reverse] at hl
    obtain ⟨_, ⟨_, _, rfl⟩, rfl⟩ := hl
    simp
  · have hl : (topMap s.cam e v Z hide).length = ⌈(e.y1 - e.y0) / v⌉₊ := by simp [topMap, mesh, arange]
    rw [hl]
    have k1 := Nat.le_ceil ((e.x1 - e.x0) / v)
    have k2 := Nat.le_ceil ((e.y1 - e.y0) / v)
    have k3 : 0 ≤ (e.x1 - e.x0) / v := (div_pos (by linarith) hv0).le
    have k4 : 0 ≤ (e.y1 - e.y0) / v := (div_pos (by linarith) hv0).le
    calc s.cam.intr.w * s.cam.intr.h = (e.y1 - e.y0) / v * ((e.x1 - e.x0) / v) := by
          have : (e.y1 - e.y0) / v * ((e.x1 - e.x0) / v) = (e.x1 - e.x0) * (e.y1 - e.y0) / v ^ 2 := by field_simp
          rw [this, ← hv2]; field_simp
      _ ≤ _ := mul_le_mul k2 k1 k3 (by positivity)

example (s : TopView.State) (h : s.heap 0 = ⟨-10, 10, 0, 20⟩) (hc : s.cam = exampleCam) :
    ∃ v : ℝ, v ^ 2 * 5000 = 400 := by
  obtain ⟨v, -, -, -, h2, -⟩ := C98_default_scaling_partial s 0 _ h (by norm_num) (by norm_num)
    (by rw [hc]; norm_num [exampleCam]) (by rw [hc]; norm_num [exampleCam]) 0 true
  exact ⟨v, by rw [hc] at h2; norm_num [exampleCam] at h2; linarith⟩

/-- **C98 (partial)** An extent with one reversed axis has no default scaling: ValueError. -/
theorem C98_reversed_partial (s : TopView.State) (r : Ref) (e : Extent) (he : s.heap r = e) (h : (e.x1 - e.x0) * (e.y1 - e.y0) < 0) (Z : ℝ) (hide : Bool) :
    getMap s ⟨some r, none, Z, hide⟩ = .error .value := by
  subst he
  have hd : defaultScaling s.cam (s.heap r) = none := by
    unfold defaultScaling
    rw [if_neg (by rintro ⟨h', -⟩; linarith)]
  have hn : hit s s.top (s.heap r) none = none := by
    unfold hit
    split
    · rfl
    · simp
  simp [getMap, hd, hn]

example (c : Cam) (r : Ref) : ∃ (s : TopView.State) (e : Extent), s.heap r = e ∧ (e.x1 - e.x0) * (e.y1 - e.y0) < 0 :=
  ⟨⟨c, fun _ => ⟨5, 3, 1, 2⟩, none, none⟩, _, rfl, by norm_num⟩


/-! ### the hypotheses can be met -/

theorem TopView.example_call (c : Cam) (r : Ref) (e : Extent) (v Z : ℝ) (hv : v ≠ 0) (hide : Bool) :
    getMap ⟨c, fun _ => e, none, none⟩ ⟨some r, some v, Z, hide⟩ =
      .ok (⟨c, fun _ => e, some ⟨topMap c e v Z hide, .ref r, v⟩, none⟩, topMap c e v Z hide, true) := by
  simp [getMap, hit, hv]

theorem TopView.example_undistort (c : Cam) (r : Ref) (e : Extent) :
    getUndistortMap ⟨c, fun _ => e, none, none⟩ (some r) none =
      .ok (⟨c, fun _ => e, none, some ⟨undistortMap c e 1, .ref r, 1⟩⟩, undistortMap c e 1, true) := by
  simp [getUndistortMap, hit]

example : RightMap ⟨exampleCam, fun _ => ⟨0, 1, 0, 1⟩, none, none⟩ ⟨some 0, some 1, 0, true⟩
    (topMap exampleCam ⟨0, 1, 0, 1⟩ 1 0 true) :=
  C70_computed_map _ _ _ _ (example_call exampleCam 0 ⟨0, 1, 0, 1⟩ 1 0 one_ne_zero true)

example : RightMap ⟨exampleCam, fun _ => ⟨0, 1, 0, 1⟩, none, none⟩ ⟨some 0, some 1, 0, true⟩
    (topMap exampleCam ⟨0, 1, 0, 1⟩ 1 0 true) :=
  C70_top_view_map_partial ⟨exampleCam, fun _ => ⟨0, 1, 0, 1⟩, none, none⟩ 0 true ∅ none rfl [] (by simp)
    ⟨some 0, some 1, 0, true⟩ rfl rfl _ _ _ (example_call exampleCam 0 ⟨0, 1, 0, 1⟩ 1 0 one_ne_zero true)

example := C70_violated _ _ _ _ _ 7 _ false _ _ (example_call exampleCam 0 ⟨0, 1, 0, 1⟩ 1 0 one_ne_zero true)
  (exampleCam.moved 3)

example := C70_violated_list _ _ _ _ _ _ _ (example_call exampleCam 0 ⟨0, 1, 0, 1⟩ 1 0 one_ne_zero true) ⟨5, 6, 7, 8⟩

theorem Camera.exampleCam_moved_visible (dx : ℝ) (P : V3 ℝ) (h : P.z ≤ 9) : Visible (exampleCam.moved dx) P := by
  have hw : Spatial.wrap360 0 = 0 := by simp [Spatial.wrap360]
  have hr : Spatial.rad 0 = 0 := by simp [Spatial.rad]
  have h0 := cameraFromSpace_is (exampleCam.moved dx) (V3.is_num P)
  have : camR (exampleCam.moved dx) P = ⟨P.x - dx, P.y, P.z - 10⟩ := by
    ext <;> simp [camR, exampleCam, Cam.moved, Orient.moved, Orient.mat, Orient.pos, Spatial.initCameraMatrix,
      Spatial.matrices, hw, hr, M3.applyR, V3.dot, Spatial.rotation, M3.mul, M3.rowMul, M3.T, Spatial.R_roll,
      Spatial.R_tilt, Spatial.R_head]
  rw [this] at h0
  refine ⟨_, h0, ?_, fun _ => ?_⟩
  · rw [abs_of_neg (by show P.z - 10 < 0; linarith)]
    simp only [Projection.minDepth]; norm_num; linarith
  · show P.z - 10 < 0; linarith

example := C70_violated_moved _ _ _ _ _ _ _ one_pos (by simp) (by simp)
  (example_call exampleCam 0 ⟨0, 1, 0, 1⟩ 1 0 one_ne_zero true) exampleCam_proper rfl 3 (by norm_num)
  (by simp [exampleCam, Orient.pos]) (exampleCam_visible _ (by simp)) (exampleCam_moved_visible _ _ (by simp))

example := C72_cache_hit_partial _ _ _ _ rfl _ _ (example_call exampleCam 0 ⟨0, 1, 0, 1⟩ 1 0 one_ne_zero true)

example : ∃ t m, getMap ⟨exampleCam, fun _ => ⟨0, 1, 0, 1⟩, none, none⟩ ⟨none, none, 0, true⟩ = .ok (t, m, true) := by
  obtain ⟨t, m, h, -⟩ := C98_default_size_partial 100 50 (by norm_num) (by norm_num) exampleCam (by simp [exampleCam])
    (by simp [exampleCam]) ⟨exampleCam, fun _ => ⟨0, 1, 0, 1⟩, none, none⟩ rfl 0 true
  exact ⟨t, m, C72_violated _ _ _ rfl _ _ h ▸ h⟩

example := C71_computed_map _ _ _ _ _ (example_undistort exampleCam 0 ⟨0, 1, 0, 1⟩)

example := C71_undistort_map_partial _ rfl ∅ [] (by simp) _ _ _ _ _ (example_undistort exampleCam 0 ⟨0, 1, 0, 1⟩)

example := C71_violated _ _ _ _ _ _ (example_undistort exampleCam 0 ⟨0, 1, 0, 1⟩)
  { exampleCam with lens := ⟨fun _ => V2.nan, fun _ => V2.nan⟩ }

example := C100_top_view_content _ _ _ _ (fun _ => ()) (example_call exampleCam 0 ⟨0, 1, 0, 1⟩ 1 0 one_ne_zero true)

example := C101_undistorted_content _ _ _ _ _ (fun _ => ()) (example_undistort exampleCam 0 ⟨0, 1, 0, 1⟩)

example := C98_violated_moved exampleCam (by simp [exampleCam]) (by simp [exampleCam]) ⟨3, 4⟩ _ (exampleCam_shows _)

example := C71_violated_lens _ _ _ _ (by simp) (by simp) (example_undistort exampleCam 0 ⟨0, 1, 0, 1⟩)
  ⟨fun _ => V2.nan, fun _ => V2.nan⟩ (by simp [exampleCam, noDistortion, V2.nan, V2.num])
