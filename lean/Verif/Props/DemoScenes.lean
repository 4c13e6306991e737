import Verif.Model.DemoScenes
import Verif.Spec.DemoScenes
import Verif.Props.Scene

/-! # C199: the scenes of the demonstrator -/

namespace Scene

theorem mem_cube {pos : V3 ℝ} {w : ℝ} {p : V3 ℝ} (h : some p ∈ cube pos w) :
    |p.x - pos.x| = |w / 2| ∧ |p.y - pos.y| = |w / 2| ∧ |p.z - pos.z| = |w / 2| := by
  simp only [cube, List.mem_cons, Option.some.injEq, reduceCtorEq, List.not_mem_nil, or_false, false_or] at h
  rcases h with h | h | h | h | h | h | h | h | h | h | h | h | h | h | h | h | h | h <;> subst h <;> simp

/-- A cube of width 1 whose center is at height 1/2. -/
theorem stands_cube (x y : ℝ) : Geo.Stands (cube ⟨x, y, 1 / 2⟩ 1) := by
  refine ⟨fun p hp => ?_, ⟨x + 1 / 2, y + 1 / 2, 1 / 2 - 1 / 2⟩, by simp [cube], by simp⟩
  have h := (mem_cube hp).2.2
  rw [abs_of_pos (by norm_num : (0 : ℝ) < 1 / 2)] at h
  have := neg_abs_le (p.z - 1 / 2)
  have h' : |p.z - 1 / 2| = 1 / 2 := h
  linarith

theorem apart_axis {a b p q : ℝ} (hp : |p - a| = |(1 : ℝ) / 2|) (hq : |q - b| = |(1 : ℝ) / 2|) (h : 2 ≤ |a - b|) : 1 ≤ |p - q| := by
  rw [abs_of_pos (by norm_num : (0 : ℝ) < 1 / 2)] at hp hq
  have t1 := abs_sub_abs_le_abs_sub (a - b) (p - q)
  have t2 : |a - b - (p - q)| ≤ |p - a| + |q - b| := by
    rw [show a - b - (p - q) = -(p - a) + (q - b) by ring]
    refine (abs_add_le _ _).trans ?_
    rw [abs_neg]
  linarith

theorem apart_cubes {i j k l : ℤ} (h : (i, j) ≠ (k, l)) (z z' : ℝ) :
    Geo.Apart 1 (cube ⟨((i * 2 : ℤ) : ℝ), ((j * 2 : ℤ) : ℝ), z⟩ 1) (cube ⟨((k * 2 : ℤ) : ℝ), ((l * 2 : ℤ) : ℝ), z'⟩ 1) := by
  have two : ∀ {a b : ℤ}, a ≠ b → (2 : ℝ) ≤ |((a * 2 : ℤ) : ℝ) - ((b * 2 : ℤ) : ℝ)| := by
    intro a b hab
    have h1 : (1 : ℤ) ≤ |a - b| := Int.one_le_abs (sub_ne_zero.2 hab)
    have h2 : (1 : ℝ) ≤ |(a : ℝ) - b| := by exact_mod_cast h1
    push_cast
    rw [← sub_mul, abs_mul, abs_of_pos (by norm_num : (0 : ℝ) < 2)]
    linarith
  by_cases hi : i = k
  · have hj : j ≠ l := fun e => h (by rw [hi, e])
    exact Or.inr fun p q hp hq => apart_axis (mem_cube hp).2.1 (mem_cube hq).2.1 (two hj)
  · exact Or.inl fun p q hp hq => apart_axis (mem_cube hp).1 (mem_cube hq).1 (two hi)

theorem foldl_add {α : Type} (f : α → List Row) (l : List α) (s : State) :
    l.foldl (fun s a => add s (f a)) s = { s with objects := s.objects ++ l.map f } := by
  induction l generalizing s with
  | nil => simp
  | cons a l ih => rw [List.foldl_cons, ih]; simp [add]

/-- The positions of the nine cubes. -/
def nine : List (ℤ × ℤ) := [(-1, -1), (-1, 0), (-1, 1), (0, -1), (0, 0), (0, 1), (1, -1), (1, 0), (1, 1)]

theorem mem_arange {a : ℤ} {n : ℕ} {x : ℝ} : x ∈ arange a n ↔ ∃ m : ℤ, a ≤ m ∧ m < a + n ∧ x = m := by
  unfold arange
  rw [List.mem_map]
  constructor
  · rintro ⟨k, hk, rfl⟩
    exact ⟨a + k, by omega, by have := List.mem_range.1 hk; omega, rfl⟩
  · rintro ⟨m, h1, h2, rfl⟩
    refine ⟨(m - a).toNat, List.mem_range.2 (by omega), ?_⟩
    congr 1
    omega

end Scene

open Scene in
/-- **C199** The scene with nine cubes: twenty lines in each direction on the ground, and nine cubes that stand on the ground, keep a distance of at least 1 from each
other and are within the grid; they are added row by row, at the even positions from -2 to 2. -/
theorem C199_nine (c : Camera.Cam) : ∃ s g cubes, nineCubes c = .ok s ∧ s.camera = some c ∧ s.objects = g :: cubes ∧
    (∀ l, l ∈ Geo.drawn g ↔ ∃ n : ℤ, -10 ≤ n ∧ n ≤ 9 ∧ (l = (⟨-10, n, 0⟩, ⟨9, n, 0⟩) ∨ l = (⟨n, -10, 0⟩, ⟨n, 9, 0⟩))) ∧
    cubes.length = 9 ∧ cubes.Pairwise (Geo.Apart 1) ∧
    (∀ o ∈ cubes, Geo.Stands o ∧ ∀ p, some p ∈ o → |p.x| ≤ 5 / 2 ∧ |p.y| ≤ 5 / 2 ∧ p.z ≤ 1) ∧
    ∀ i j : Fin 3, ∃ o, cubes[3 * i.val + j.val]? = some o ∧ ∀ p, some p ∈ o → |p.x - 2 * ((i.val : ℝ) - 1)| = 1 / 2 ∧ |p.y - 2 * ((j.val : ℝ) - 1)| = 1 / 2 := by
  have hne : arange (-10) 20 ≠ [] := by
    intro h
    have : (-10 : ℝ) ∈ arange (-10) 20 := mem_arange.2 ⟨-10, by norm_num, by norm_num, by norm_num⟩
    simp [h] at this
  obtain ⟨t, g, mx, Mx, my, My, hg, ht, htc, h1, h2, h3, h4, hdr⟩ := (C82_grid (setCamera {} c) (arange (-10) 20) (arange (-10) 20)).1 ⟨hne, hne⟩
  have lo : (-10 : ℝ) ∈ arange (-10) 20 := mem_arange.2 ⟨-10, by norm_num, by norm_num, by norm_num⟩
  have hi : (9 : ℝ) ∈ arange (-10) 20 := mem_arange.2 ⟨9, by norm_num, by norm_num, by norm_num⟩
  have ge : ∀ x ∈ arange (-10) 20, (-10 : ℝ) ≤ x := by
    intro x hx
    obtain ⟨m, h1, -, rfl⟩ := mem_arange.1 hx
    exact_mod_cast h1
  have le : ∀ x ∈ arange (-10) 20, x ≤ 9 := by
    intro x hx
    obtain ⟨m, -, h1, rfl⟩ := mem_arange.1 hx
    have : m ≤ 9 := by push_cast at h1; omega
    exact_mod_cast this
  have e1 : mx = -10 := le_antisymm (h1.2 _ lo) (ge _ h1.1)
  have e2 : Mx = 9 := le_antisymm (le _ h2.1) (h2.2 _ hi)
  have e3 : my = -10 := le_antisymm (h3.2 _ lo) (ge _ h3.1)
  have e4 : My = 9 := le_antisymm (le _ h4.1) (h4.2 _ hi)
  let f : ℤ × ℤ → List Row := fun x => cube ⟨((x.1 * 2 : ℤ) : ℝ), ((x.2 * 2 : ℤ) : ℝ), 1 / 2⟩ 1
  have hobj : t.objects = [g] := by rw [ht]; rfl
  have hcam : t.camera = some c := by rw [htc]; rfl
  refine ⟨{ t with objects := t.objects ++ nine.map f }, g, nine.map f, ?_, hcam, by rw [hobj]; rfl, ?_, rfl, ?_, ?_, ?_⟩
  · unfold nineCubes
    rw [hg]
    show Except.ok _ = Except.ok _
    congr 1
    rw [← foldl_add f nine t]
    simp only [List.foldl_cons, List.foldl_nil, nine, addCube, f]
    have hpos : ∀ x y : ℝ, (⟨x, y, 0⟩ + ⟨0, 0, 1 / 2⟩ : V3 ℝ) = ⟨x, y, 1 / 2⟩ := fun x y => by ext <;> simp
    simp only [hpos]
  · intro l
    rw [hdr, e1, e2, e3, e4, List.mem_append, List.mem_map, List.mem_map]
    constructor
    · rintro (⟨y, hy, rfl⟩ | ⟨y, hy, rfl⟩) <;> obtain ⟨m, m1, m2, rfl⟩ := mem_arange.1 hy <;> push_cast at m2
      · exact ⟨m, m1, by omega, Or.inl rfl⟩
      · exact ⟨m, m1, by omega, Or.inr rfl⟩
    · rintro ⟨m, m1, m2, rfl | rfl⟩
      · exact Or.inl ⟨m, mem_arange.2 ⟨m, m1, by push_cast; omega, rfl⟩, rfl⟩
      · exact Or.inr ⟨m, mem_arange.2 ⟨m, m1, by push_cast; omega, rfl⟩, rfl⟩
  · rw [List.pairwise_map]
    have hnd : nine.Nodup := by decide
    exact hnd.imp fun {a b} hab => apart_cubes (i := a.1) (j := a.2) (k := b.1) (l := b.2) hab _ _
  · intro o ho
    obtain ⟨⟨i, j⟩, hij, rfl⟩ := List.mem_map.1 ho
    refine ⟨stands_cube _ _, fun p hp => ?_⟩
    obtain ⟨p1, p2, p3⟩ := mem_cube hp
    rw [abs_of_pos (by norm_num : (0 : ℝ) < 1 / 2)] at p1 p2 p3
    have hb : ∀ x : ℤ × ℤ, x ∈ nine → |x.1| ≤ 1 ∧ |x.2| ≤ 1 := by decide
    obtain ⟨b1, b2⟩ := hb _ hij
    have c1 : |((i * 2 : ℤ) : ℝ)| ≤ 2 := by
      have : |i * 2| ≤ 2 := by have := abs_le.1 b1; simp only at this; exact abs_le.2 ⟨by omega, by omega⟩
      exact_mod_cast this
    have c2 : |((j * 2 : ℤ) : ℝ)| ≤ 2 := by
      have : |j * 2| ≤ 2 := by have := abs_le.1 b2; simp only at this; exact abs_le.2 ⟨by omega, by omega⟩
      exact_mod_cast this
    have t1 := abs_sub_abs_le_abs_sub p.x ((i * 2 : ℤ) : ℝ)
    have t2 := abs_sub_abs_le_abs_sub p.y ((j * 2 : ℤ) : ℝ)
    have t3 := le_abs_self (p.z - 1 / 2)
    simp only at p1 p2 p3
    exact ⟨by linarith, by linarith, by linarith⟩
  · intro i j
    refine ⟨f (i.val - 1, j.val - 1), ?_, fun p hp => ?_⟩
    · rw [List.getElem?_map]
      have hn : ∀ i j : Fin 3, nine[3 * i.val + j.val]? = some ((i.val : ℤ) - 1, (j.val : ℤ) - 1) := by decide
      rw [hn]
      rfl
    · obtain ⟨p1, p2, -⟩ := mem_cube hp
      rw [abs_of_pos (by norm_num : (0 : ℝ) < 1 / 2)] at p1 p2
      simp only at p1 p2
      push_cast at p1 p2
      exact ⟨by rw [mul_comm]; exact p1, by rw [mul_comm]; exact p2⟩

open Scene in
/-- **C199** The scene with random cubes: whatever is drawn, there is one cube of height 1 per draw, it stands on the ground, and for the numbers of `randint(1, 1000)` it is
within 0.5 and 999.5 in the direction of y. -/
theorem C199_plane (c : Camera.Cam) (draws : List (ℝ × ℤ)) : (onPlane c draws).camera = some c ∧ (onPlane c draws).objects.length = draws.length ∧
    List.Forall₂ (fun d o => Geo.Stands o ∧ ∀ p, some p ∈ o → p.z ≤ 1 ∧ |p.x - d.1| = 1 / 2 ∧ |p.y - d.2| = 1 / 2 ∧
      (1 ≤ d.2 → d.2 < 1000 → 1 / 2 ≤ p.y ∧ p.y ≤ 1999 / 2)) draws (onPlane c draws).objects := by
  let f : ℝ × ℤ → List Row := fun d => cube ⟨d.1, (d.2 : ℝ), 1 / 2⟩ 1
  have hpos : ∀ x y : ℝ, (⟨x, y, 0⟩ + ⟨0, 0, 1 / 2⟩ : V3 ℝ) = ⟨x, y, 1 / 2⟩ := fun x y => by ext <;> simp
  have e : onPlane c draws = { setCamera {} c with objects := [] ++ draws.map f } := by
    unfold onPlane addCube
    simp only [hpos]
    exact foldl_add f draws (setCamera {} c)
  rw [e]
  refine ⟨rfl, by simp, ?_⟩
  rw [List.nil_append, List.forall₂_map_right_iff]
  refine List.forall₂_same.2 fun d _ => ⟨stands_cube _ _, fun p hp => ?_⟩
  obtain ⟨p1, p2, p3⟩ := mem_cube hp
  rw [abs_of_pos (by norm_num : (0 : ℝ) < 1 / 2)] at p1 p2 p3
  have t3 := le_abs_self (p.z - 1 / 2)
  simp only at p1 p2 p3
  refine ⟨by linarith, p1, p2, fun h1 h2 => ?_⟩
  have a := abs_le.1 p2.le
  have h1' : (1 : ℝ) ≤ d.2 := by exact_mod_cast h1
  have h2' : (d.2 : ℝ) ≤ 999 := by exact_mod_cast (by omega : d.2 ≤ 999)
  exact ⟨by linarith [a.1], by linarith [a.2]⟩

example (c : Camera.Cam) : (Scene.onPlane c [(0, 1), (3, 999)]).objects.length = 2 := (C199_plane c _).2.1
