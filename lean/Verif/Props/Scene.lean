import Verif.Model.Scene
import Verif.Spec.Scene
import Mathlib.Tactic.Linarith
import Mathlib.Tactic.Ring
import Mathlib.Algebra.Order.Group.Abs

/-! # Properties of `scene.py` (C82) -/

open Scene

/-- **C82** `addCube` appends one object, the returned one, and leaves the camera. -/
theorem C82_cube_added (s : Scene.State) (pos : V3 ℝ) (w : ℝ) :
    (addCube s pos w).1.objects = s.objects ++ [(addCube s pos w).2] ∧ (addCube s pos w).1.camera = s.camera :=
  ⟨rfl, rfl⟩

theorem Scene.drawn_cube (pos : V3 ℝ) (w : ℝ) : Geo.drawn (cube pos w) =
    (let r := w / 2
     [(⟨pos.x + r, pos.y + r, pos.z - r⟩, ⟨pos.x + r, pos.y - r, pos.z - r⟩),
      (⟨pos.x + r, pos.y - r, pos.z - r⟩, ⟨pos.x - r, pos.y - r, pos.z - r⟩),
      (⟨pos.x - r, pos.y - r, pos.z - r⟩, ⟨pos.x - r, pos.y + r, pos.z - r⟩),
      (⟨pos.x - r, pos.y + r, pos.z - r⟩, ⟨pos.x + r, pos.y + r, pos.z - r⟩),
      (⟨pos.x + r, pos.y + r, pos.z - r⟩, ⟨pos.x + r, pos.y + r, pos.z + r⟩),
      (⟨pos.x + r, pos.y - r, pos.z - r⟩, ⟨pos.x + r, pos.y - r, pos.z + r⟩),
      (⟨pos.x - r, pos.y - r, pos.z - r⟩, ⟨pos.x - r, pos.y - r, pos.z + r⟩),
      (⟨pos.x - r, pos.y + r, pos.z - r⟩, ⟨pos.x - r, pos.y + r, pos.z + r⟩),
      (⟨pos.x + r, pos.y + r, pos.z + r⟩, ⟨pos.x + r, pos.y - r, pos.z + r⟩),
      (⟨pos.x + r, pos.y - r, pos.z + r⟩, ⟨pos.x - r, pos.y - r, pos.z + r⟩),
      (⟨pos.x - r, pos.y - r, pos.z + r⟩, ⟨pos.x - r, pos.y + r, pos.z + r⟩),
      (⟨pos.x - r, pos.y + r, pos.z + r⟩, ⟨pos.x + r, pos.y + r, pos.z + r⟩)] : List (V3 ℝ × V3 ℝ)) := rfl

theorem Scene.abs_half {a b r : ℝ} (h : |a - b| = r) : a = b + r ∨ a = b - r := by
  rcases abs_cases (a - b) with ⟨h1, _⟩ | ⟨h1, _⟩
  · left; linarith
  · right; linarith

/-- **C82** `addCube` draws exactly the twelve edges of the cube: there are twelve segments, every segment
joins two corners of the cube that differ in one coordinate, and every such pair of corners is joined. -/
theorem C82_cube_edges (s : Scene.State) (pos : V3 ℝ) (w : ℝ) (hw : 0 < w) :
    (Geo.drawn (addCube s pos w).2).length = 12 ∧
    (∀ p q, (p, q) ∈ Geo.drawn (addCube s pos w).2 →
      Geo.CubeCorner pos w p ∧ Geo.CubeCorner pos w q ∧ Geo.AlongAxis p q) ∧
    (∀ p q, Geo.CubeCorner pos w p → Geo.CubeCorner pos w q → Geo.AlongAxis p q →
      (p, q) ∈ Geo.drawn (addCube s pos w).2 ∨ (q, p) ∈ Geo.drawn (addCube s pos w).2) := by
  have hr : 0 < w / 2 := by linarith
  simp only [addCube]
  rw [drawn_cube]
  refine ⟨rfl, ?_, ?_⟩
  · intro p q h
    have e1 : |w / 2| = w / 2 := abs_of_pos hr
    have e2 : |-(w / 2)| = w / 2 := by rw [abs_neg, e1]
    have n1 : ∀ a : ℝ, a + w / 2 ≠ a - w / 2 := fun a h => by linarith
    have n2 : ∀ a : ℝ, a - w / 2 ≠ a + w / 2 := fun a h => by linarith
    have a1 : ∀ a : ℝ, a + w / 2 - a = w / 2 := fun a => by ring
    have a2 : ∀ a : ℝ, a - w / 2 - a = -(w / 2) := fun a => by ring
    simp only [List.mem_cons, Prod.mk.injEq, List.not_mem_nil, or_false] at h
    rcases h with ⟨rfl, rfl⟩ | ⟨rfl, rfl⟩ | ⟨rfl, rfl⟩ | ⟨rfl, rfl⟩ | ⟨rfl, rfl⟩ | ⟨rfl, rfl⟩ | ⟨rfl, rfl⟩ |
      ⟨rfl, rfl⟩ | ⟨rfl, rfl⟩ | ⟨rfl, rfl⟩ | ⟨rfl, rfl⟩ | ⟨rfl, rfl⟩ <;>
    · refine ⟨?_, ?_, ?_⟩
      · simp only [Geo.CubeCorner, a1, a2, e1, e2, and_self]
      · simp only [Geo.CubeCorner, a1, a2, e1, e2, and_self]
      · simp [Geo.AlongAxis, n1, n2]
  · rintro ⟨px, py, pz⟩ ⟨qx, qy, qz⟩ ⟨h1, h2, h3⟩ ⟨h4, h5, h6⟩ h
    simp only at h1 h2 h3 h4 h5 h6
    have n1 : ∀ a : ℝ, a + w / 2 ≠ a - w / 2 := fun a h => by linarith
    have n2 : ∀ a : ℝ, a - w / 2 ≠ a + w / 2 := fun a h => by linarith
    rcases abs_half h1 with rfl | rfl <;> rcases abs_half h2 with rfl | rfl <;>
      rcases abs_half h3 with rfl | rfl <;> rcases abs_half h4 with rfl | rfl <;>
      rcases abs_half h5 with rfl | rfl <;> rcases abs_half h6 with rfl | rfl <;>
    first
    | (exfalso; simp [Geo.AlongAxis, n1, n2] at h; done)
    | simp [n1, n2]

/-- **C82** `addRect` appends one object, and draws the four sides of the upright square with centre `pos` and
side `w` parallel to the x axis. -/
theorem C82_rect (s : Scene.State) (pos : V3 ℝ) (w : ℝ) :
    (addRect s pos w).1.objects = s.objects ++ [(addRect s pos w).2] ∧
    (addRect s pos w).1.camera = s.camera ∧
    Geo.drawn (addRect s pos w).2 =
      (let A : V3 ℝ := ⟨pos.x + w / 2, pos.y, pos.z - w / 2⟩
       let B : V3 ℝ := ⟨pos.x + w / 2, pos.y, pos.z + w / 2⟩
       let C : V3 ℝ := ⟨pos.x - w / 2, pos.y, pos.z + w / 2⟩
       let D : V3 ℝ := ⟨pos.x - w / 2, pos.y, pos.z - w / 2⟩
       [(A, B), (B, C), (C, D), (D, A)]) :=
  ⟨rfl, rfl, rfl⟩

theorem Scene.foldl_min (xs : List ℝ) (x : ℝ) :
    Geo.IsMin (x :: xs) (xs.foldl (fun m y => if y < m then y else m) x) := by
  induction xs generalizing x with
  | nil => exact ⟨by simp, by simp⟩
  | cons y ys ih =>
    obtain ⟨h1, h2⟩ := ih (if y < x then y else x)
    simp only [List.foldl_cons]
    refine ⟨?_, ?_⟩
    · rcases List.mem_cons.mp h1 with h | h
      · rw [h]; split_ifs <;> simp
      · simp [h]
    · intro z hz
      have h3 := h2 _ List.mem_cons_self
      have h4 : (if y < x then y else x) ≤ x ∧ (if y < x then y else x) ≤ y := by
        split_ifs with h <;> constructor <;> linarith
      rcases List.mem_cons.mp hz with rfl | hz
      · exact h3.trans h4.1
      · rcases List.mem_cons.mp hz with rfl | hz
        · exact h3.trans h4.2
        · exact h2 z (List.mem_cons_of_mem _ hz)

theorem Scene.foldl_max (xs : List ℝ) (x : ℝ) :
    Geo.IsMax (x :: xs) (xs.foldl (fun m y => if m < y then y else m) x) := by
  induction xs generalizing x with
  | nil => exact ⟨by simp, by simp⟩
  | cons y ys ih =>
    obtain ⟨h1, h2⟩ := ih (if x < y then y else x)
    simp only [List.foldl_cons]
    refine ⟨?_, ?_⟩
    · rcases List.mem_cons.mp h1 with h | h
      · rw [h]; split_ifs <;> simp
      · simp [h]
    · intro z hz
      have h3 := h2 _ List.mem_cons_self
      have h4 : x ≤ (if x < y then y else x) ∧ y ≤ (if x < y then y else x) := by
        split_ifs with h <;> constructor <;> linarith
      rcases List.mem_cons.mp hz with rfl | hz
      · exact h4.1.trans h3
      · rcases List.mem_cons.mp hz with rfl | hz
        · exact h4.2.trans h3
        · exact h2 z (List.mem_cons_of_mem _ hz)

theorem Scene.drawn_lines (f g : ℝ → V3 ℝ) (l : List ℝ) (r : List Row) :
    Geo.drawn (l.flatMap (fun y => [some (f y), some (g y), none]) ++ r) =
      l.map (fun y => (f y, g y)) ++ Geo.drawn r := by
  induction l with
  | nil => rfl
  | cons y ys ih =>
    simp only [List.flatMap_cons, List.append_assoc, List.map_cons, List.cons_append, List.nil_append]
    rw [Geo.drawn, Geo.drawn, Geo.drawn, ih]
    all_goals simp

/-- **C82** `addGrid` appends one object and draws one full line per y value and one per x value; with an
empty list of values it raises ValueError and adds nothing. -/
theorem C82_grid (s : Scene.State) (xs ys : List ℝ) :
    (xs ≠ [] ∧ ys ≠ [] → ∃ t o minX maxX minY maxY, addGrid s xs ys = .ok (t, o) ∧
      t.objects = s.objects ++ [o] ∧ t.camera = s.camera ∧
      Geo.IsMin xs minX ∧ Geo.IsMax xs maxX ∧ Geo.IsMin ys minY ∧ Geo.IsMax ys maxY ∧
      Geo.drawn o = ys.map (fun y => (⟨minX, y, 0⟩, ⟨maxX, y, 0⟩)) ++ xs.map (fun x => (⟨x, minY, 0⟩, ⟨x, maxY, 0⟩))) ∧
    (xs = [] ∨ ys = [] → addGrid s xs ys = .error .valueError) := by
  constructor
  · rintro ⟨hx, hy⟩
    obtain ⟨x, xs, rfl⟩ := List.exists_cons_of_ne_nil hx
    obtain ⟨y, ys, rfl⟩ := List.exists_cons_of_ne_nil hy
    refine ⟨_, _, _, _, _, _, rfl, rfl, rfl, foldl_min xs x, foldl_max xs x, foldl_min ys y, foldl_max ys y, ?_⟩
    have h := drawn_lines (fun x => ⟨x, ys.foldl (fun m y => if y < m then y else m) y, 0⟩)
      (fun x => ⟨x, ys.foldl (fun m y => if m < y then y else m) y, 0⟩) (x :: xs) []
    rw [List.append_nil] at h
    rw [drawn_lines (fun y => ⟨xs.foldl (fun m y => if y < m then y else m) x, y, 0⟩)
      (fun y => ⟨xs.foldl (fun m y => if m < y then y else m) x, y, 0⟩), h]
    simp [Geo.drawn]
  · rintro (rfl | rfl)
    · rfl
    · cases xs <;> rfl

example : ∃ t o minX maxX minY maxY, addGrid {} [1, 2] [3] = .ok (t, o) ∧
      t.objects = [] ++ [o] ∧ t.camera = none ∧
      Geo.IsMin [1, 2] minX ∧ Geo.IsMax [1, 2] maxX ∧ Geo.IsMin [3] minY ∧ Geo.IsMax [3] maxY ∧
      Geo.drawn o = [3].map (fun y => (⟨minX, y, 0⟩, ⟨maxX, y, 0⟩)) ++
        [1, 2].map (fun x => (⟨x, minY, 0⟩, ⟨x, maxY, 0⟩)) :=
  (C82_grid {} [1, 2] [3]).1 ⟨by simp, by simp⟩

example : (Geo.drawn (addCube {} ⟨1, 2, 3⟩ 4).2).length = 12 := (C82_cube_edges {} ⟨1, 2, 3⟩ 4 (by norm_num)).1
