import Verif.Model.View
import Verif.Spec.View
import Verif.Proofs.View
import Verif.Props.Camera
import Verif.Props.Ray
import Mathlib.Tactic.FieldSimp

/-! # Properties of the border, cone, horizon and area table (C78-C81, C85, C99) -/

open Classical Num Camera View

/-! ### C78 -/

/-- **C78** Every point of `getImageBorder` lies on the edge of the image; the list starts at (0, 0), and
neighbours (also the last and the first point) are at most the resolution apart, along one side. -/
theorem C78_border (w h r : ℝ) (hw : 0 ≤ w) (hh : 0 ≤ h) (hr : 0 < r) :
    (∀ p ∈ imageBorder w h r, Geo.OnEdge w h p) ∧
    (imageBorder w h r ++ [(⟨0, 0⟩ : V2 ℝ)]).head? = some ⟨0, 0⟩ ∧
    (imageBorder w h r ++ [(⟨0, 0⟩ : V2 ℝ)]).IsChain (Geo.Near r) := by
  refine ⟨?_, ?_⟩
  · intro p hp
    simp only [imageBorder, List.nil_append, List.mem_append, List.mem_map] at hp
    rcases hp with ((⟨y, hy, rfl⟩ | ⟨x, hx, rfl⟩) | ⟨y, hy, rfl⟩) | ⟨x, hx, rfl⟩
    · have := mem_arange_up hr hy
      exact ⟨le_rfl, hw, this.1, this.2.le, Or.inl rfl⟩
    · have := mem_arange_up hr hx
      exact ⟨this.1, this.2.le, hh, le_rfl, Or.inr (Or.inr (Or.inr rfl))⟩
    · have := mem_arange_down hr hy
      exact ⟨hw, le_rfl, this.1.le, this.2, Or.inr (Or.inl rfl)⟩
    · have := mem_arange_down hr hx
      exact ⟨this.1.le, this.2, le_rfl, hh, Or.inr (Or.inr (Or.inl rfl))⟩
  · apply border_chain hw hh hr
    · exact fun i _ => Or.inl ⟨rfl, by rw [abs_le]; constructor <;> simp only <;> linarith⟩
    · exact fun i h1 h2 => Or.inl ⟨rfl, by rw [abs_le]; constructor <;> simp only <;> linarith⟩
    · exact fun i _ => Or.inr ⟨rfl, by rw [abs_le]; constructor <;> simp only <;> linarith⟩
    · exact fun i h1 h2 => Or.inr ⟨rfl, by rw [abs_le]; constructor <;> simp only <;> linarith⟩
    · exact fun i _ => Or.inl ⟨rfl, by rw [abs_le]; constructor <;> simp only <;> linarith⟩
    · exact fun i h1 h2 => Or.inl ⟨rfl, by rw [abs_le]; constructor <;> simp only <;> linarith⟩
    · exact fun i _ => Or.inr ⟨rfl, by rw [abs_le]; constructor <;> simp only <;> linarith⟩
    · exact fun i h1 h2 => Or.inr ⟨rfl, by rw [abs_le]; constructor <;> simp only <;> linarith⟩

/-- **C78** With resolution 1 there are 2(w+h) points, and every step (also from the last point back to the
first) moves by one pixel. -/
theorem C78_unit_steps (w h : ℕ) :
    (imageBorder w h 1).length = 2 * (w + h) ∧
    (imageBorder w h 1 ++ [(⟨0, 0⟩ : V2 ℝ)]).IsChain Geo.OnePixel := by
  refine ⟨?_, ?_⟩
  · rw [border_nat]; simp; ring
  · refine (border_chain (Nat.cast_nonneg w) (Nat.cast_nonneg h) one_pos ?_ ?_ ?_ ?_ ?_ ?_ ?_ ?_).2
    · exact fun i _ => Or.inl ⟨rfl, by rw [abs_eq one_pos.le]; right; ring⟩
    · intro i h1 h2
      have : (h : ℝ) = i + 1 := by
        have a : i < h := by exact_mod_cast (by linarith : (i : ℝ) < h)
        have b : h ≤ i + 1 := by exact_mod_cast (by linarith : (h : ℝ) ≤ i + 1)
        exact_mod_cast (by omega : h = i + 1)
      exact Or.inl ⟨rfl, by rw [abs_eq one_pos.le]; right; simp only; linarith⟩
    · exact fun i _ => Or.inr ⟨rfl, by rw [abs_eq one_pos.le]; right; ring⟩
    · intro i h1 h2
      have : (w : ℝ) = i + 1 := by
        have a : i < w := by exact_mod_cast (by linarith : (i : ℝ) < w)
        have b : w ≤ i + 1 := by exact_mod_cast (by linarith : (w : ℝ) ≤ i + 1)
        exact_mod_cast (by omega : w = i + 1)
      exact Or.inr ⟨rfl, by rw [abs_eq one_pos.le]; right; simp only; linarith⟩
    · exact fun i _ => Or.inl ⟨rfl, by rw [abs_eq one_pos.le]; left; ring⟩
    · intro i h1 h2
      have : (h : ℝ) = i + 1 := by
        have a : i < h := by exact_mod_cast (by linarith : (i : ℝ) < h)
        have b : h ≤ i + 1 := by exact_mod_cast (by linarith : (h : ℝ) ≤ i + 1)
        exact_mod_cast (by omega : h = i + 1)
      exact Or.inl ⟨rfl, by rw [abs_eq one_pos.le]; left; simp only; linarith⟩
    · exact fun i _ => Or.inr ⟨rfl, by rw [abs_eq one_pos.le]; left; ring⟩
    · intro i h1 h2
      have : (w : ℝ) = i + 1 := by
        have a : i < w := by exact_mod_cast (by linarith : (i : ℝ) < w)
        have b : w ≤ i + 1 := by exact_mod_cast (by linarith : (w : ℝ) ≤ i + 1)
        exact_mod_cast (by omega : w = i + 1)
      exact Or.inr ⟨rfl, by rw [abs_eq one_pos.le]; left; simp only; linarith⟩

theorem View.mem_border_nat (w h : ℕ) (p : V2 ℝ) : p ∈ imageBorder w h 1 ↔
    (∃ i < h, p = ⟨0, (i : ℕ)⟩) ∨ (∃ i < w, p = ⟨(i : ℕ), h⟩) ∨ (∃ i < h, p = ⟨w, h - (i : ℕ)⟩) ∨
      (∃ i < w, p = ⟨w - (i : ℕ), 0⟩) := by
  rw [border_nat]
  simp only [List.mem_append, List.mem_map, List.mem_range, eq_comm]

/-- **C78** With resolution 1 the walk visits every pixel position on the edge exactly once. -/
theorem C78_each_once (w h : ℕ) (hw : 1 ≤ w) (hh : 1 ≤ h) :
    (imageBorder w h 1).Nodup ∧
    ∀ p, p ∈ imageBorder w h 1 ↔ Geo.OnEdge w h p ∧ Geo.IntPoint p := by
  have hw' : (1 : ℝ) ≤ w := by exact_mod_cast hw
  have hh' : (1 : ℝ) ≤ h := by exact_mod_cast hh
  constructor
  · rw [border_nat]
    have nat : ∀ {n i : ℕ}, i < n → (i : ℝ) < n := fun h => by exact_mod_cast h
    refine List.Nodup.append ?_ (List.Nodup.append ?_ (List.Nodup.append ?_ ?_ ?_) ?_) ?_
    · exact List.nodup_range.map fun a b h => by simpa using h
    · exact List.nodup_range.map fun a b h => by simpa using h
    · exact List.nodup_range.map fun a b h => by simpa using h
    · exact List.nodup_range.map fun a b h => by simpa using h
    · intro p h1 h2
      simp only [List.mem_map, List.mem_range] at h1 h2
      obtain ⟨i, hi, rfl⟩ := h1
      obtain ⟨j, hj, h2⟩ := h2
      simp only [V2.mk.injEq] at h2
      linarith [nat hi]
    · intro p h1 h2
      simp only [List.mem_map, List.mem_range, List.mem_append] at h1 h2
      obtain ⟨i, hi, rfl⟩ := h1
      have := nat hi
      rcases h2 with ⟨j, hj, h2⟩ | ⟨j, hj, h2⟩
      · simp only [V2.mk.injEq] at h2; linarith
      · simp only [V2.mk.injEq] at h2; linarith
    · intro p h1 h2
      simp only [List.mem_map, List.mem_range, List.mem_append] at h1 h2
      obtain ⟨i, hi, rfl⟩ := h1
      have := nat hi
      rcases h2 with ⟨j, hj, h2⟩ | ⟨j, hj, h2⟩ | ⟨j, hj, h2⟩
      · simp only [V2.mk.injEq] at h2; linarith
      · simp only [V2.mk.injEq] at h2; linarith
      · simp only [V2.mk.injEq] at h2; linarith [nat hj]
  · intro p
    constructor
    · intro hp
      refine ⟨(C78_border w h 1 (by linarith) (by linarith) one_pos).1 p hp, ?_⟩
      rw [mem_border_nat] at hp
      rcases hp with ⟨i, hi, rfl⟩ | ⟨i, hi, rfl⟩ | ⟨i, hi, rfl⟩ | ⟨i, hi, rfl⟩
      · exact ⟨0, i, by simp⟩
      · exact ⟨i, h, by simp⟩
      · exact ⟨w, h - i, by simp⟩
      · exact ⟨w - i, 0, by simp⟩
    · rintro ⟨⟨h1, h2, h3, h4, h5⟩, a, b, rfl⟩
      simp only at h1 h2 h3 h4 h5
      have ha : 0 ≤ a := by exact_mod_cast h1
      have ha' : a ≤ w := by exact_mod_cast h2
      have hb : 0 ≤ b := by exact_mod_cast h3
      have hb' : b ≤ h := by exact_mod_cast h4
      have h5' : a = 0 ∨ a = w ∨ b = 0 ∨ b = h := by
        rcases h5 with e | e | e | e
        · exact Or.inl (by exact_mod_cast e)
        · exact Or.inr (Or.inl (by exact_mod_cast e))
        · exact Or.inr (Or.inr (Or.inl (by exact_mod_cast e)))
        · exact Or.inr (Or.inr (Or.inr (by exact_mod_cast e)))
      obtain ⟨m, rfl⟩ := Int.eq_ofNat_of_zero_le ha
      obtain ⟨n, rfl⟩ := Int.eq_ofNat_of_zero_le hb
      rw [mem_border_nat]
      simp only [Int.cast_natCast, V2.mk.injEq]
      by_cases c1 : m = 0 ∧ n < h
      · exact Or.inl ⟨n, c1.2, by exact_mod_cast c1.1, rfl⟩
      by_cases c2 : n = h ∧ m < w
      · exact Or.inr (Or.inl ⟨m, c2.2, rfl, by exact_mod_cast c2.1⟩)
      by_cases c3 : m = w ∧ 0 < n
      · refine Or.inr (Or.inr (Or.inl ⟨h - n, by omega, by exact_mod_cast c3.1, ?_⟩))
        rw [Nat.cast_sub (by omega)]; ring
      · refine Or.inr (Or.inr (Or.inr ⟨w - m, by omega, ?_, by exact_mod_cast (by omega : n = 0)⟩))
        rw [Nat.cast_sub (by omega)]; ring

example : (imageBorder (640 : ℕ) (480 : ℕ) 1).length = 2240 := (C78_unit_steps 640 480).1

example : (imageBorder (640 : ℕ) (480 : ℕ) 1).Nodup := (C78_each_once 640 480 (by norm_num) (by norm_num)).1

example : ∀ p ∈ imageBorder 640 480 (3 / 2), Geo.OnEdge 640 480 p :=
  (C78_border 640 480 (3 / 2) (by norm_num) (by norm_num) (by norm_num)).1

/-! ### C79 -/

/-- What a plane constraint or a distance gives for a point: `spaceFromImage` does not raise. -/
theorem View.spaceFromImages_ok (c : Cam) (ps : List (V2 ℝ)) (hps : ps ≠ []) (k : Constraint) (hm : k.mesh = none)
    (hk : k.Z ≠ none) : ∃ P : V2 ℝ → V3 Num, (∀ p, spaceFromImage c p.num k = .ok (P p)) ∧
      spaceFromImages c ps k = .ok (ps.map P) := by
  have h : ∀ p : V2 ℝ, ∃ q, spaceFromImage c p.num k = .ok q := by
    intro p
    obtain ⟨X, Y, Z, D, mesh⟩ := k
    simp only at hm hk
    subst hm
    cases D with
    | some d => exact ⟨_, rfl⟩
    | none =>
      cases X <;> cases Y <;> cases Z <;> first | exact absurd rfl hk | exact ⟨_, rfl⟩
  choose P hP using h
  exact ⟨P, hP, by rw [spaceFromImages, if_neg hps]; exact mapM_ok _ _ _ fun p _ => hP p⟩

/-- The three rows drawn for one corner. -/
def Geo.ray3 (o b : V3 Num) : List (V3 Num) := [V3.nan, o, b]

theorem View.groundBorder_nat (w h : ℕ) : groundBorder (.int w) (.int h) =
    .ok (imageBorder w h 1, [0, h, h + w, h + w + h, h + w + h + w]) := by
  have e : groundBorder (.int w) (.int h) = .ok (
      (List.range h).map (fun (y : ℕ) => (⟨0, y⟩ : V2 ℝ)) ++ (List.range w).map (fun (x : ℕ) => (⟨x, h⟩ : V2 ℝ)) ++
      (arange h 0 (-1)).map (fun y => (⟨w, y⟩ : V2 ℝ)) ++ (arange w 0 (-1)).map (fun x => (⟨x, 0⟩ : V2 ℝ)),
      [0, h, h + w, h + w + h, h + w + h + w]) := by
    simp only [groundBorder, Size.range, Size.val, Int.toNat_natCast, Int.cast_natCast, bind, Except.bind, pure,
      Except.pure, List.nil_append, List.cons_append, List.length_append, List.length_map, List.length_range,
      arange_nat_down]
  rw [e, border_nat, arange_nat_down, arange_nat_down]
  simp [List.map_map, Function.comp_def]

/-- **C79 (partial)** The cone on the ground of an image of `w` times `h` pixels: the projected border in the
order of `getImageBorder`, then for each of the four corners (0,0), (0,h), (w,h), (w,0) the rows nan, camera
position, projected corner.  What differs from the property: there is a fifth triple that leads to no
corner, its last row is nan. -/
theorem C79_cone_ground_partial (c : Cam) (w h : ℕ) (hw : 1 ≤ w) (hh : 1 ≤ h) (D : Num) :
    ∃ (P : V2 ℝ → V3 Num) (O : V3 Num), O.Is c.orient.pos ∧
      (∀ p, spaceFromImage c p.num { Z := some (.fin 0) } = .ok (P p)) ∧
      cameraCone c (.int w) (.int h) true D = .ok ((imageBorder w h 1).map P ++
        (Geo.ray3 O (P ⟨0, 0⟩) ++ Geo.ray3 O (P ⟨0, h⟩) ++ Geo.ray3 O (P ⟨w, h⟩) ++ Geo.ray3 O (P ⟨w, 0⟩)) ++
        [V3.nan, O, V3.nan]) := by
  have hlen := (C78_unit_steps w h).1
  have hne : imageBorder w h 1 ≠ [] := by
    intro h0; rw [h0] at hlen; simp at hlen; omega
  obtain ⟨P, hP, hB⟩ := spaceFromImages_ok c (imageBorder w h 1) hne { Z := some (.fin 0) } rfl (by simp)
  refine ⟨P, Spatial.spaceFromCamera c.orient.mat ⟨.fin 0, .fin 0, .fin 0⟩, getRay_offset c ⟨.fin 0, .fin 0⟩ false,
    hP, ?_⟩
  have e : cameraCone c (.int w) (.int h) true D =
      coneLines (Spatial.spaceFromCamera c.orient.mat ⟨.fin 0, .fin 0, .fin 0⟩)
        [0, h, h + w, h + w + h, h + w + h + w] ((imageBorder w h 1).map P) := by
    simp only [cameraCone, if_true, groundBorder_nat, bind, Except.bind, hB]
  rw [e]
  set O := Spatial.spaceFromCamera c.orient.mat ⟨.fin 0, .fin 0, .fin 0⟩
  have hl2 : ((imageBorder w h 1).map P).length = h + w + h + w := by rw [List.length_map, hlen]; ring
  have key := coneLines_all O ((imageBorder w h 1).map P) [0, h, h + w, h + w + h] (by
    rw [hl2]; intro i hi; simp at hi; omega)
  rw [hl2] at key
  simp only [List.cons_append, List.nil_append] at key
  rw [key]
  have g : ∀ (i : ℕ) (q : V2 ℝ), (imageBorder w h 1)[i]? = some q →
      ((imageBorder w h 1).map P).getD i V3.nan = P q := by
    intro i q hq
    rw [List.getD_eq_getElem?_getD, List.getElem?_map, hq]; rfl
  have b := border_nat w h
  have g0 := g 0 ⟨0, 0⟩ (by
    rw [b, List.getElem?_append_left (by simp; omega)]; simp [List.getElem?_range (by omega : 0 < h)])
  have g1 := g h ⟨0, h⟩ (by
    rw [b, List.getElem?_append_right (by simp), List.getElem?_append_left (by simp; omega)]
    simp [List.getElem?_range (by omega : 0 < w)])
  have g2 := g (h + w) ⟨w, h⟩ (by
    rw [b, List.getElem?_append_right (by simp), List.getElem?_append_right (by simp),
      List.getElem?_append_left (by simp; omega)]
    simp [List.getElem?_range (by omega : 0 < h)])
  have g3 := g (h + w + h) ⟨w, 0⟩ (by
    rw [b, List.getElem?_append_right (by simp), List.getElem?_append_right (by simp),
      List.getElem?_append_right (by simp)]
    simp [List.getElem?_range (by omega : 0 < w)])
  simp only [List.flatMap_cons, List.flatMap_nil, g0, g1, g2, g3, Geo.ray3, List.append_assoc, List.cons_append,
    List.nil_append]

/-- **C79 (partial)** The cone at distance `D`: the five points (0,h), (w,h), (w,0), (0,0), (0,h), and for each
of them the rows nan, camera position, point.  What differs from the property: the corner (0,h) has two
triples, and there is a last triple that leads to no corner. -/
theorem C79_cone_distance_partial (c : Cam) (w h : Size) (D : Num) :
    ∃ (P : V2 ℝ → V3 Num) (O : V3 Num), O.Is c.orient.pos ∧
      (∀ p, spaceFromImage c p.num { D := some D } = .ok (P p)) ∧
      cameraCone c w h false D = .ok (
        [P ⟨0, h.val⟩, P ⟨w.val, h.val⟩, P ⟨w.val, 0⟩, P ⟨0, 0⟩, P ⟨0, h.val⟩] ++
        (Geo.ray3 O (P ⟨0, h.val⟩) ++ Geo.ray3 O (P ⟨w.val, h.val⟩) ++ Geo.ray3 O (P ⟨w.val, 0⟩) ++
          Geo.ray3 O (P ⟨0, 0⟩) ++ Geo.ray3 O (P ⟨0, h.val⟩)) ++ [V3.nan, O, V3.nan]) := by
  obtain ⟨P, hP, hB⟩ := spaceFromImages_ok c (distanceBorder w h).1 (by simp [distanceBorder]) { D := some D } rfl
    (by simp)
  refine ⟨P, _, getRay_offset c ⟨.fin 0, .fin 0⟩ false, hP, ?_⟩
  have e : cameraCone c w h false D = coneLines (getRay c ⟨.fin 0, .fin 0⟩ false).1 (distanceBorder w h).2
      ((distanceBorder w h).1.map P) := by
    simp only [cameraCone, bind, Except.bind, hB, Bool.false_eq_true, if_false]
    rfl
  rw [e]
  generalize (getRay c ⟨.fin 0, .fin 0⟩ false).1 = O
  exact coneLines_all O [P ⟨0, h.val⟩, P ⟨w.val, h.val⟩, P ⟨w.val, 0⟩, P ⟨0, 0⟩, P ⟨0, h.val⟩] [0, 1, 2, 3, 4]
    (by simp)

/-- **C79** Without an argument the cone is one metre long: its corners are one metre away from the camera. -/
theorem C79_default_distance_partial (c : Cam) (hc : c.Proper) (hl : c.lens = noDistortion) (w h : Size) :
    ∃ L, cameraCone c w h false = .ok L ∧ ∀ i < 5, ∃ (n : V3 Num) (P : V3 ℝ), L[i]? = some n ∧ n.Is P ∧ V3.dist P c.orient.pos = 1 := by
  obtain ⟨P, O, -, hP, e⟩ := C79_cone_distance_partial c w h (.fin 1)
  have key : ∀ p : V2 ℝ, ∃ Q : V3 ℝ, (P p).Is Q ∧ V3.dist Q c.orient.pos = 1 := by
    intro p
    obtain ⟨n, d, h1, -, h2, -⟩ := C09_distance c hc p.num p (by rw [hl]; exact V2.is_num p) 1
    rw [hP] at h1
    cases h1
    obtain ⟨Q, h3, h4, -⟩ := h2 zero_le_one
    exact ⟨Q, h3, h4⟩
  refine ⟨_, e, fun i hi => ?_⟩
  have hi : i = 0 ∨ i = 1 ∨ i = 2 ∨ i = 3 ∨ i = 4 := by omega
  rcases hi with rfl | rfl | rfl | rfl | rfl
  · obtain ⟨Q, q⟩ := key ⟨0, h.val⟩; exact ⟨_, Q, rfl, q⟩
  · obtain ⟨Q, q⟩ := key ⟨w.val, h.val⟩; exact ⟨_, Q, rfl, q⟩
  · obtain ⟨Q, q⟩ := key ⟨w.val, 0⟩; exact ⟨_, Q, rfl, q⟩
  · obtain ⟨Q, q⟩ := key ⟨0, 0⟩; exact ⟨_, Q, rfl, q⟩
  · obtain ⟨Q, q⟩ := key ⟨0, h.val⟩; exact ⟨_, Q, rfl, q⟩

example : exampleCam.Proper ∧ exampleCam.lens = noDistortion := ⟨exampleCam_proper, rfl⟩


/-- **C79 violated** For every image the cone contains one triple too many: its last row is nan. -/
theorem C79_violated (c : Cam) (w h : ℕ) (hw : 1 ≤ w) (hh : 1 ≤ h) (ground : Bool) (D : Num) :
    ∃ L, cameraCone c (.int w) (.int h) ground D = .ok L ∧ L.getLast? = some V3.nan := by
  cases ground with
  | false =>
    obtain ⟨P, O, -, -, e⟩ := C79_cone_distance_partial c (.int w) (.int h) D
    exact ⟨_, e, by rw [List.getLast?_append]; rfl⟩
  | true =>
    obtain ⟨P, O, -, -, e⟩ := C79_cone_ground_partial c w h hw hh D
    exact ⟨_, e, by rw [List.getLast?_append]; rfl⟩

/-- **C79** The lookup of the corners never fails, whatever the sizes. -/
theorem C79_no_index_error (c : Cam) (w h : Size) (ground : Bool) (D : Num) :
    cameraCone c w h ground D ≠ .error .indexError := by
  cases ground with
  | false =>
    obtain ⟨P, O, -, -, e⟩ := C79_cone_distance_partial c w h D
    rw [e]; simp
  | true =>
    cases h with
    | float r => simp [cameraCone, groundBorder, Size.range, bind, Except.bind]
    | int h =>
      cases w with
      | float r => simp [cameraCone, groundBorder, Size.range, bind, Except.bind]
      | int w =>
        obtain ⟨B, C, hg, hC⟩ : ∃ B C, groundBorder (.int w) (.int h) = .ok (B, C) ∧ ∀ i ∈ C, i ≤ B.length := by
          refine ⟨_, _, rfl, ?_⟩
          intro i hi
          simp only [List.nil_append, List.cons_append, List.length_append, List.length_map, List.mem_cons,
            List.not_mem_nil, or_false] at hi ⊢
          omega
        by_cases hB : B = []
        · simp only [cameraCone, if_true, hg, bind, Except.bind, spaceFromImages, hB]
          simp
        · obtain ⟨P, hP, hs⟩ := spaceFromImages_ok c B hB { Z := some (.fin 0) } rfl (by simp)
          obtain ⟨L, hL⟩ := coneLines_ne (Spatial.spaceFromCamera c.orient.mat ⟨.fin 0, .fin 0, .fin 0⟩) C
            (B.map P) (by simpa using hC)
          simp only [cameraCone, if_true, hg, bind, Except.bind, hs, hL]
          simp

/-- **C79 violated** With an image size given as a float the cone on the ground raises TypeError. -/
theorem C79_violated_float (c : Cam) (w : Size) (h : ℝ) (D : Num) :
    cameraCone c w (.float h) true D = .error .typeError := by
  simp [cameraCone, groundBorder, Size.range, bind, Except.bind]

example : ∃ L, cameraCone exampleCam (.int (100 : ℕ)) (.int (50 : ℕ)) true = .ok L ∧ L.getLast? = some V3.nan :=
  C79_violated exampleCam 100 50 (by norm_num) (by norm_num) true _

/-! ### C80 -/

theorem View.horizon_value {e : ℝ} (he : 0 ≤ e) :
    Num.Is (distanceToHorizon e) (Real.sqrt (2 * rEarth ^ 2 * (1 - rEarth / (rEarth + e)))) := by
  have hR : (0 : ℝ) < rEarth := by norm_num [rEarth]
  have h1 : rEarth + e ≠ 0 := by positivity
  have h2 : rEarth / (rEarth + e) ≤ 1 := by rw [div_le_one (by positivity)]; linarith
  unfold distanceToHorizon
  exact (((is_fin 2).mul ((is_fin rEarth).npow 2)).mul ((is_fin 1).sub ((is_fin rEarth).div
    ((is_fin rEarth).add (is_fin e)) h1))).sqrt (mul_nonneg (by positivity) (by linarith))

theorem Geo.touch_z {R e : ℝ} {T : V3 ℝ} (h : Geo.Touches R ⟨0, 0, R + e⟩ T) :
    T.x ^ 2 + T.y ^ 2 + T.z ^ 2 = R ^ 2 ∧ T.z * (R + e) = R ^ 2 := by
  have h1 : T.normSq = R ^ 2 := by
    have := h.1
    unfold V3.norm at this
    rw [← this, Real.sq_sqrt (V3.normSq_nonneg _)]
  have h2 := h.2
  simp only [V3.normSq] at h1
  simp only [V3.dot, V3.sub_x, V3.sub_y, V3.sub_z] at h2
  exact ⟨h1, by linarith⟩

/-- **C80 (partial)** `distanceToHorizon` is the distance between the point below the camera and the point where
the line of sight touches the earth (the coordinates have their origin in the centre of the earth, the
camera is at (0, 0, R + elevation)).  The property asks for the distance from the camera. -/
theorem C80_distance_to_horizon_partial (e : ℝ) (he : 0 ≤ e) (T : V3 ℝ)
    (hT : Geo.Touches rEarth ⟨0, 0, rEarth + e⟩ T) :
    Num.Is (distanceToHorizon e) (V3.dist ⟨0, 0, rEarth⟩ T) := by
  have hR : (0 : ℝ) < rEarth := by norm_num [rEarth]
  obtain ⟨h1, h2⟩ := Geo.touch_z hT
  refine (horizon_value he).congr ?_
  unfold V3.dist V3.norm
  congr 1
  simp only [V3.normSq, V3.sub_x, V3.sub_y, V3.sub_z]
  have hz : rEarth / (rEarth + e) = T.z / rEarth := by
    rw [div_eq_div_iff (by positivity) hR.ne']; linarith
  rw [hz]
  field_simp
  linarith

/-- **C80 violated** For every positive elevation the result is smaller than the distance from the camera to
the horizon. -/
theorem C80_violated (e : ℝ) (he : 0 < e) (T : V3 ℝ) (hT : Geo.Touches rEarth ⟨0, 0, rEarth + e⟩ T) :
    ∃ v, Num.Is (distanceToHorizon e) v ∧ v < V3.dist ⟨0, 0, rEarth + e⟩ T := by
  have hR : (0 : ℝ) < rEarth := by norm_num [rEarth]
  obtain ⟨h1, h2⟩ := Geo.touch_z hT
  refine ⟨_, C80_distance_to_horizon_partial e he.le T hT, ?_⟩
  unfold V3.dist V3.norm
  apply Real.sqrt_lt_sqrt (V3.normSq_nonneg _)
  simp only [V3.normSq, V3.sub_x, V3.sub_y, V3.sub_z]
  have hz : T.z < rEarth := by nlinarith
  nlinarith

theorem View.touch_example (e : ℝ) (he : 0 ≤ e) : ∃ T, Geo.Touches rEarth ⟨0, 0, rEarth + e⟩ T := by
  have hR : (0 : ℝ) < rEarth := by norm_num [rEarth]
  have hp : rEarth + e ≠ 0 := by positivity
  have hle : rEarth ^ 2 / (rEarth + e) ≤ rEarth := by
    rw [div_le_iff₀ (by positivity)]; nlinarith
  have h0 : 0 ≤ rEarth ^ 2 / (rEarth + e) := by positivity
  have hs : 0 ≤ rEarth ^ 2 - (rEarth ^ 2 / (rEarth + e)) ^ 2 := by nlinarith
  refine ⟨⟨Real.sqrt (rEarth ^ 2 - (rEarth ^ 2 / (rEarth + e)) ^ 2), 0, rEarth ^ 2 / (rEarth + e)⟩, ?_, ?_⟩
  · unfold V3.norm
    simp only [V3.normSq]
    rw [Real.sq_sqrt hs]
    rw [show rEarth ^ 2 - (rEarth ^ 2 / (rEarth + e)) ^ 2 + 0 ^ 2 + (rEarth ^ 2 / (rEarth + e)) ^ 2 = rEarth ^ 2 by ring]
    exact Real.sqrt_sq hR.le
  · simp only [V3.dot, V3.sub_x, V3.sub_y, V3.sub_z]
    have := Real.sq_sqrt hs
    have e1 : rEarth ^ 2 / (rEarth + e) * (rEarth + e) = rEarth ^ 2 := by field_simp
    nlinarith

example : ∃ v T, Num.Is (distanceToHorizon 10) v ∧ v < V3.dist ⟨0, 0, rEarth + 10⟩ T := by
  obtain ⟨T, hT⟩ := touch_example 10 (by norm_num)
  obtain ⟨v, h⟩ := C80_violated 10 (by norm_num) T hT
  exact ⟨v, T, h⟩

/-- Below the ground there is no horizon: the result is nan. -/
theorem C80_below_ground (e : ℝ) (h1 : -rEarth < e) (h2 : e < 0) : distanceToHorizon e = .nan := by
  have hR : (0 : ℝ) < rEarth := by norm_num [rEarth]
  have h3 : 1 < rEarth / (rEarth + e) := by rw [one_lt_div (by linarith)]; linarith
  exact (((is_fin 2).mul ((is_fin rEarth).npow 2)).mul ((is_fin 1).sub ((is_fin rEarth).div
    ((is_fin rEarth).add (is_fin e)) (by linarith)))).sqrt_neg (mul_neg_of_pos_of_neg (by positivity) (by linarith))

/-! ### C81 -/

/-- **C81** `getImageHorizon` for one x: the result is nan exactly if the z coordinate of the points at the
horizon distance is nan for all rows; else it is the first row of the image with the smallest `|z|`. -/
theorem C81_horizon_row (c : Cam) (x : ℝ) :
    ∃ (P : ℕ → V3 Num) (r : Option ℕ),
      (∀ y : ℕ, spaceFromImage c (V2.num ⟨x, y⟩) { D := some (distanceToHorizon c.orient.pos.z) } = .ok (P y)) ∧
      horizonRow c x = .ok r ∧
      ((∀ y < ⌈c.intr.h⌉₊, ¬ IsInf (P y).z) →
        (r = none ↔ ∀ y < ⌈c.intr.h⌉₊, (P y).z = .nan) ∧
        ∀ y, r = some y → y < ⌈c.intr.h⌉₊ ∧ (P y).z ≠ .nan ∧
          (∀ y' < ⌈c.intr.h⌉₊, (P y').z ≠ .nan → Num.abs (P y).z ≤ Num.abs (P y').z) ∧
          ∀ y' < y, (P y').z ≠ .nan → Num.abs (P y).z < Num.abs (P y').z) := by
  set d := distanceToHorizon c.orient.pos.z
  have ok : ∀ p : V2 ℝ, ∃ q, spaceFromImage c p.num { D := some d } = .ok q := fun p => ⟨_, rfl⟩
  choose Q hQ using ok
  refine ⟨fun y => Q ⟨x, y⟩, nanargmin ((List.range ⌈c.intr.h⌉₊).map fun (y : ℕ) => Num.abs (Q ⟨x, y⟩).z),
    fun y => hQ _, ?_, ?_⟩
  · unfold horizonRow
    simp only [bind, Except.bind, pure, Except.pure]
    rw [mapM_ok (fun p : V2 ℝ => spaceFromImage c p.num { D := some d }) Q _ fun p _ => hQ p]
    simp [List.map_map, Function.comp_def]
  · intro hinf
    have an : ∀ z : Num, Num.abs z = .nan ↔ z = .nan := by intro z; cases z <;> simp [Num.abs]
    have ai : ∀ z : Num, IsInf (Num.abs z) ↔ IsInf z := by intro z; cases z <;> simp [Num.abs, IsInf]
    obtain ⟨h1, h2⟩ := nanargmin_spec ((List.range ⌈c.intr.h⌉₊).map fun (y : ℕ) => Num.abs (Q ⟨x, y⟩).z) (by
      intro z hz
      simp only [List.mem_map, List.mem_range] at hz
      obtain ⟨y, hy, rfl⟩ := hz
      rw [ai]; exact hinf y hy)
    refine ⟨?_, ?_⟩
    · rw [h1]
      simp only [List.mem_map, List.mem_range, forall_exists_index, and_imp, forall_apply_eq_imp_iff₂, an]
    · intro y hy
      obtain ⟨v, h3, h4, h5, h6⟩ := h2 y hy
      rw [List.getElem?_map] at h3
      obtain ⟨y', h7, h8⟩ := Option.map_eq_some_iff.mp h3
      have hlt : y < ⌈c.intr.h⌉₊ := by
        by_contra hc
        rw [List.getElem?_eq_none (by simpa using hc)] at h7
        simp at h7
      rw [List.getElem?_range hlt] at h7
      simp only [Option.some.injEq] at h7
      subst h7
      subst h8
      refine ⟨hlt, fun h => h4 ((an _).mpr h), ?_, ?_⟩
      · intro y' hy' hn
        exact h5 _ (List.mem_map.mpr ⟨y', List.mem_range.mpr hy', rfl⟩) fun h => hn ((an _).mp h)
      · intro y' hy' hn
        exact h6 y' hy' _ (by rw [List.getElem?_map, List.getElem?_range (hy'.trans hlt)]; rfl)
          fun h => hn ((an _).mp h)

/-- **C81** For a camera above the ground whose lens has an undistorted position for every row at `x`, the
result is a row of the image (not nan), and the point seen in this row at the horizon distance is at least
as close to height zero as the one of any other row. -/
theorem C81_horizon_real (c : Cam) (hc : c.Proper) (x : ℝ) (he : 0 ≤ c.orient.pos.z) (h1 : 0 < c.intr.h)
    (hp : ∀ y : ℕ, y < ⌈c.intr.h⌉₊ → ∃ p, (c.lens.imageFromDistorted (V2.num ⟨x, y⟩)).Is p) :
    ∃ (Q : ℕ → V3 ℝ) (y : ℕ), horizonRow c x = .ok (some y) ∧ y < ⌈c.intr.h⌉₊ ∧
      (∀ y' < ⌈c.intr.h⌉₊, ∃ P, spaceFromImage c (V2.num ⟨x, y'⟩)
        { D := some (distanceToHorizon c.orient.pos.z) } = .ok P ∧ P.Is (Q y')) ∧
      (∀ y' < ⌈c.intr.h⌉₊, |(Q y).z| ≤ |(Q y').z|) ∧ ∀ y' < y, |(Q y).z| < |(Q y').z| := by
  obtain ⟨P, r, hP, hr, hs⟩ := C81_horizon_row c x
  have hd := horizon_value he
  have hd0 := Real.sqrt_nonneg (2 * rEarth ^ 2 * (1 - rEarth / (rEarth + c.orient.pos.z)))
  set d := Real.sqrt (2 * rEarth ^ 2 * (1 - rEarth / (rEarth + c.orient.pos.z)))
  have real : ∀ y : ℕ, ∃ q : V3 ℝ, y < ⌈c.intr.h⌉₊ → (P y).Is q := by
    intro y
    by_cases hy : y < ⌈c.intr.h⌉₊
    · obtain ⟨p, hp⟩ := hp y hy
      obtain ⟨-, h2, dir, e, h3, h4, -⟩ := C10_ray_origin_and_length c hc _ p hp
      have := hP y
      simp only [spaceFromImage, Except.ok.injEq] at this
      rw [← this]
      exact ⟨_, fun _ => pointAt_is h4 h2 hd hd0⟩
    · exact ⟨⟨0, 0, 0⟩, fun h => absurd h hy⟩
  choose Q hQ using real
  obtain ⟨h2, h3⟩ := hs fun y hy => (hQ y hy).2.2.not_inf
  have hpos : 0 < ⌈c.intr.h⌉₊ := Nat.ceil_pos.mpr h1
  cases r with
  | none => exact absurd (h2.mp rfl 0 hpos) (hQ 0 hpos).2.2.ne_nan
  | some y =>
    obtain ⟨a1, a2, a3, a4⟩ := h3 y rfl
    refine ⟨Q, y, hr, a1, fun y' hy' => ⟨P y', hP y', hQ y' hy'⟩, ?_, ?_⟩
    · intro y' hy'
      exact ((hQ y a1).2.2.abs.le_iff (hQ y' hy').2.2.abs).mp (a3 y' hy' (hQ y' hy').2.2.ne_nan)
    · intro y' hy'
      have hy2 := hy'.trans a1
      exact ((hQ y a1).2.2.abs.lt_iff (hQ y' hy2).2.2.abs).mp (a4 y' hy' (hQ y' hy2).2.2.ne_nan)

/-- **C81** The array version returns one pair per requested x; by default for the left edge, the middle and
the right edge of the image. -/
theorem C81_all_x (c : Cam) (xs : Option (List ℝ)) :
    ∃ row : ℝ → Option ℕ, (∀ x, horizonRow c x = .ok (row x)) ∧
      imageHorizon c xs = .ok ((match xs with
        | some l => l
        | none => [0, c.intr.w / 2, c.intr.w]).map fun x => (x, row x)) := by
  have h : ∀ x, ∃ r, horizonRow c x = .ok r := fun x => by
    obtain ⟨P, r, -, h, -⟩ := C81_horizon_row c x
    exact ⟨r, h⟩
  choose row hrow using h
  refine ⟨row, hrow, ?_⟩
  unfold imageHorizon
  rw [mapM_ok _ (fun x => (x, row x)) _ fun x _ => by simp [hrow, bind, Except.bind, pure, Except.pure]]
  cases xs <;> rfl

example : ∃ (Q : ℕ → V3 ℝ) (y : ℕ), horizonRow exampleCam 3 = .ok (some y) ∧ y < ⌈exampleCam.intr.h⌉₊ ∧
      (∀ y' < ⌈exampleCam.intr.h⌉₊, ∃ P, spaceFromImage exampleCam (V2.num ⟨3, y'⟩)
        { D := some (distanceToHorizon exampleCam.orient.pos.z) } = .ok P ∧ P.Is (Q y')) ∧
      (∀ y' < ⌈exampleCam.intr.h⌉₊, |(Q y).z| ≤ |(Q y').z|) ∧ ∀ y' < y, |(Q y).z| < |(Q y').z| :=
  C81_horizon_real exampleCam exampleCam_proper 3 (by simp [exampleCam, Orient.pos]) (by simp [exampleCam])
    fun y _ => ⟨⟨3, y⟩, V2.is_num _⟩

/-! ### C99 -/

/-- **C99 violated** The line of sight `getImageHorizon` looks for (the point at height zero and at the horizon
distance) does not dip to the true horizon: for every elevation up to half the radius of the earth it dips
less than the line that touches the earth. -/
theorem C99_violated (e : ℝ) (h0 : 0 < e) (h1 : e ≤ rEarth / 2) (C Q T : V3 ℝ) (hC : C.z = e) (hQ : Q.z = 0)
    (hd : Num.Is (distanceToHorizon e) (V3.dist C Q)) (hT : Geo.Touches rEarth ⟨0, 0, rEarth + e⟩ T) :
    Geo.sinDip C Q < Geo.sinDip ⟨0, 0, rEarth + e⟩ T := by
  have hR : (0 : ℝ) < rEarth := by norm_num [rEarth]
  obtain ⟨t1, t2⟩ := Geo.touch_z hT
  have hv := (horizon_value h0.le).unique hd
  generalize rEarth = R at *
  have e1 : V3.dist ⟨0, 0, R + e⟩ T = Real.sqrt (2 * R * e + e ^ 2) := by
    unfold V3.dist V3.norm
    congr 1
    simp only [V3.normSq, V3.sub_x, V3.sub_y, V3.sub_z]
    linear_combination t1 - 2 * t2
  have hp : 0 < R + e := by linarith
  have e2 : T.z = R ^ 2 / (R + e) := by rw [eq_div_iff hp.ne']; exact t2
  unfold Geo.sinDip
  rw [e1, ← hv, hC, hQ, sub_zero]
  simp only [e2]
  have pos1 : 0 < 2 * R ^ 2 * (1 - R / (R + e)) := by
    have : R / (R + e) < 1 := by rw [div_lt_one hp]; linarith
    have : 0 < 1 - R / (R + e) := by linarith
    positivity
  have pos2 : 0 < 2 * R * e + e ^ 2 := by positivity
  have e3 : R + e - R ^ 2 / (R + e) = (2 * R * e + e ^ 2) / (R + e) := by field_simp; ring
  rw [e3, div_right_comm, Real.div_sqrt]
  rw [div_lt_div_iff₀ (Real.sqrt_pos.mpr pos1) hp]
  rw [← Real.sqrt_mul pos2.le]
  apply Real.lt_sqrt_of_sq_lt
  have e4 : 2 * R ^ 2 * (1 - R / (R + e)) = 2 * R ^ 2 * e / (R + e) := by field_simp; ring
  rw [e4, mul_div_assoc', lt_div_iff₀ hp]
  have k : (R + e) ^ 3 < 2 * R ^ 2 * (2 * R + e) := by
    nlinarith [mul_pos hR h0, mul_nonneg h0.le (by linarith : (0:ℝ) ≤ R / 2 - e), mul_pos (mul_pos hR h0) h0,
      mul_nonneg (mul_nonneg h0.le h0.le) (by linarith : (0:ℝ) ≤ R / 2 - e), pow_pos hR 3,
      mul_nonneg (mul_nonneg hR.le h0.le) (by linarith : (0:ℝ) ≤ R / 2 - e),
      mul_nonneg (mul_nonneg hR.le hR.le) (by linarith : (0:ℝ) ≤ R / 2 - e)]
  calc (e * (R + e)) ^ 2 * (R + e) = e ^ 2 * (R + e) ^ 3 := by ring
    _ < e ^ 2 * (2 * R ^ 2 * (2 * R + e)) := by
      exact mul_lt_mul_of_pos_left k (by positivity)
    _ = (2 * R * e + e ^ 2) * (2 * R ^ 2 * e) := by ring

example : ∃ C Q T : V3 ℝ, Geo.sinDip C Q < Geo.sinDip ⟨0, 0, rEarth + 10⟩ T := by
  obtain ⟨T, hT⟩ := touch_example 10 (by norm_num)
  have hv := horizon_value (e := 10) (by norm_num)
  have hpos : 0 ≤ 2 * rEarth ^ 2 * (1 - rEarth / (rEarth + 10)) - 10 ^ 2 := by norm_num [rEarth]
  have hpos' : 0 ≤ 2 * rEarth ^ 2 * (1 - rEarth / (rEarth + 10)) := by linarith
  have hd : V3.dist ⟨0, 0, 10⟩ ⟨Real.sqrt (2 * rEarth ^ 2 * (1 - rEarth / (rEarth + 10)) - 10 ^ 2), 0, 0⟩ =
      Real.sqrt (2 * rEarth ^ 2 * (1 - rEarth / (rEarth + 10))) := by
    unfold V3.dist V3.norm
    congr 1
    simp only [V3.normSq, V3.sub_x, V3.sub_y, V3.sub_z]
    rw [zero_sub, neg_sq, Real.sq_sqrt hpos]; ring
  exact ⟨_, _, T, C99_violated 10 (by norm_num) (by norm_num [rEarth]) ⟨0, 0, 10⟩
    ⟨Real.sqrt (2 * rEarth ^ 2 * (1 - rEarth / (rEarth + 10)) - 10 ^ 2), 0, 0⟩ T rfl rfl (by rw [hd]; exact hv) hT⟩
