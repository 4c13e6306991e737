import Verif.Model.View
import Verif.Spec.View
import Verif.Proofs.Camera
import Mathlib.Tactic.Linarith
import Mathlib.Tactic.Ring

/-! # Lemmas for the border, cone, horizon and area table -/

open Classical Num Camera

namespace View

theorem mapM_ok {ε α β : Type} (f : α → Except ε β) (g : α → β) (l : List α) (h : ∀ a ∈ l, f a = .ok (g a)) :
    l.mapM f = .ok (l.map g) := by
  induction l with
  | nil => rfl
  | cons a l ih =>
    rw [List.mapM_cons, h a List.mem_cons_self, ih fun b hb => h b (List.mem_cons_of_mem _ hb)]
    rfl

theorem mem_arange_up {a b s x : ℝ} (hs : 0 < s) (h : x ∈ arange a b s) : a ≤ x ∧ x < b := by
  simp only [arange, List.mem_map, List.mem_range, Nat.lt_ceil] at h
  obtain ⟨i, hi, rfl⟩ := h
  rw [lt_div_iff₀ hs] at hi
  exact ⟨by nlinarith [Nat.cast_nonneg (α := ℝ) i], by linarith⟩

theorem mem_arange_down {a b s x : ℝ} (hs : 0 < s) (h : x ∈ arange a b (-s)) : b < x ∧ x ≤ a := by
  simp only [arange, List.mem_map, List.mem_range, Nat.lt_ceil] at h
  obtain ⟨i, hi, rfl⟩ := h
  rw [div_neg, ← neg_div, lt_div_iff₀ hs] at hi
  exact ⟨by linarith, by nlinarith [Nat.cast_nonneg (α := ℝ) i]⟩

theorem arange_nat (h : ℕ) : arange 0 h 1 = (List.range h).map fun (i : ℕ) => (i : ℝ) := by simp [arange]

theorem arange_nat_down (h : ℕ) : arange h 0 (-1) = (List.range h).map fun (i : ℕ) => (h : ℝ) - i := by
  simp [arange, sub_eq_add_neg]

/-- A list given by its entries, followed by a list, is a chain if neighbours are related. -/
theorem chain_range {α : Type} {R : α → α → Prop} (g : ℕ → α) (n : ℕ) (e : α) (t : List α)
    (h1 : ∀ i, i + 1 < n → R (g i) (g (i + 1))) (h2 : ∀ i, i + 1 = n → R (g i) e) (h3 : (e :: t).IsChain R) :
    ((List.range n).map g ++ e :: t).IsChain R := by
  rw [List.isChain_append]
  refine ⟨?_, h3, ?_⟩
  · rw [List.isChain_map, List.isChain_iff_getElem]
    intro i hi
    simp only [List.length_range] at hi
    simp only [List.getElem_range]
    exact h1 i hi
  · intro x hx y hy
    simp only [List.head?_cons, Option.mem_def, Option.some.injEq] at hy
    subst hy
    cases n with
    | zero => simp at hx
    | succ n =>
      rw [List.range_succ, List.map_append] at hx
      simp at hx
      subst hx
      exact h2 n rfl

/-- One side of the border: it starts with `s` and is a chain, provided the rest starts with `e` and is a
chain. -/
theorem chain_side {α : Type} {R : α → α → Prop} (g : ℕ → α) (n : ℕ) (s e : α) (l : List α)
    (h0 : n = 0 → s = e) (hs : g 0 = s)
    (h1 : ∀ i, i + 1 < n → R (g i) (g (i + 1))) (h2 : ∀ i, i + 1 = n → R (g i) e)
    (h3 : l.head? = some e) (h4 : l.IsChain R) :
    ((List.range n).map g ++ l).head? = some s ∧ ((List.range n).map g ++ l).IsChain R := by
  cases l with
  | nil => simp at h3
  | cons a t =>
    simp only [List.head?_cons, Option.some.injEq] at h3
    subst h3
    refine ⟨?_, chain_range g n a t h1 h2 h4⟩
    cases n with
    | zero => simp [h0 rfl]
    | succ n => simp [List.range_succ_eq_map, hs]

theorem ceil_step {a r : ℝ} (hr : 0 < r) {i : ℕ} (h : i + 1 = ⌈a / r⌉₊) : (i : ℝ) * r < a ∧ a ≤ (i + 1) * r := by
  constructor
  · have : i < ⌈a / r⌉₊ := by omega
    rw [Nat.lt_ceil, lt_div_iff₀ hr] at this
    exact this
  · have := Nat.le_ceil (a / r)
    rw [← h, div_le_iff₀ hr] at this
    push_cast at this
    exact this

theorem imageBorder_eq (w h r : ℝ) : imageBorder w h r =
    (List.range ⌈h / r⌉₊).map (fun (i : ℕ) => (⟨0, i * r⟩ : V2 ℝ)) ++
    ((List.range ⌈w / r⌉₊).map (fun (i : ℕ) => (⟨i * r, h⟩ : V2 ℝ)) ++
    ((List.range ⌈h / r⌉₊).map (fun (i : ℕ) => (⟨w, h - i * r⟩ : V2 ℝ)) ++
    (List.range ⌈w / r⌉₊).map (fun (i : ℕ) => (⟨w - i * r, 0⟩ : V2 ℝ)))) := by
  simp [imageBorder, arange, List.map_map, Function.comp_def, neg_div_neg_eq, sub_eq_add_neg]

/-- The border with the first point repeated at the end. -/
theorem border_chain {R : V2 ℝ → V2 ℝ → Prop} {w h r : ℝ} (hw : 0 ≤ w) (hh : 0 ≤ h) (hr : 0 < r)
    (up : ∀ i : ℕ, (i + 1) * r ≤ h → R ⟨0, i * r⟩ ⟨0, (i + 1) * r⟩)
    (up' : ∀ i : ℕ, i * r < h → h ≤ (i + 1) * r → R ⟨0, i * r⟩ ⟨0, h⟩)
    (rt : ∀ i : ℕ, (i + 1) * r ≤ w → R ⟨i * r, h⟩ ⟨(i + 1) * r, h⟩)
    (rt' : ∀ i : ℕ, i * r < w → w ≤ (i + 1) * r → R ⟨i * r, h⟩ ⟨w, h⟩)
    (dn : ∀ i : ℕ, (i + 1) * r ≤ h → R ⟨w, h - i * r⟩ ⟨w, h - (i + 1) * r⟩)
    (dn' : ∀ i : ℕ, i * r < h → h ≤ (i + 1) * r → R ⟨w, h - i * r⟩ ⟨w, 0⟩)
    (lf : ∀ i : ℕ, (i + 1) * r ≤ w → R ⟨w - i * r, 0⟩ ⟨w - (i + 1) * r, 0⟩)
    (lf' : ∀ i : ℕ, i * r < w → w ≤ (i + 1) * r → R ⟨w - i * r, 0⟩ ⟨0, 0⟩) :
    (imageBorder w h r ++ [(⟨0, 0⟩ : V2 ℝ)]).head? = some (⟨0, 0⟩ : V2 ℝ) ∧ (imageBorder w h r ++ [(⟨0, 0⟩ : V2 ℝ)]).IsChain R := by
  have z : ∀ a : ℝ, 0 ≤ a → ⌈a / r⌉₊ = 0 → a = 0 := by
    intro a ha h0
    rw [Nat.ceil_eq_zero, div_le_iff₀ hr] at h0
    linarith
  have lt : ∀ {a : ℝ} {i : ℕ}, i + 1 < ⌈a / r⌉₊ → ((i : ℝ) + 1) * r ≤ a := by
    intro a i hi
    rw [Nat.lt_ceil, lt_div_iff₀ hr] at hi
    push_cast at hi
    exact hi.le
  rw [imageBorder_eq]
  simp only [List.append_assoc]
  have s4 := chain_side (R := R) (fun i : ℕ => (⟨w - i * r, 0⟩ : V2 ℝ)) ⌈w / r⌉₊ ⟨w, 0⟩ ⟨0, 0⟩ [⟨0, 0⟩]
    (fun h0 => by rw [z w hw h0]) (by simp) (fun i hi => by push_cast; exact lf i (lt hi))
    (fun i hi => lf' i (ceil_step hr hi).1 (ceil_step hr hi).2) rfl (List.isChain_singleton _)
  have s3 := chain_side (R := R) (fun i : ℕ => (⟨w, h - i * r⟩ : V2 ℝ)) ⌈h / r⌉₊ ⟨w, h⟩ ⟨w, 0⟩ _
    (fun h0 => by rw [z h hh h0]) (by simp) (fun i hi => by push_cast; exact dn i (lt hi))
    (fun i hi => dn' i (ceil_step hr hi).1 (ceil_step hr hi).2) s4.1 s4.2
  have s2 := chain_side (R := R) (fun i : ℕ => (⟨i * r, h⟩ : V2 ℝ)) ⌈w / r⌉₊ ⟨0, h⟩ ⟨w, h⟩ _
    (fun h0 => by rw [z w hw h0]) (by simp) (fun i hi => by push_cast; exact rt i (lt hi))
    (fun i hi => rt' i (ceil_step hr hi).1 (ceil_step hr hi).2) s3.1 s3.2
  exact chain_side (R := R) (fun i : ℕ => (⟨0, i * r⟩ : V2 ℝ)) ⌈h / r⌉₊ ⟨0, 0⟩ ⟨0, h⟩ _
    (fun h0 => by rw [z h hh h0]) (by simp) (fun i hi => by push_cast; exact up i (lt hi))
    (fun i hi => up' i (ceil_step hr hi).1 (ceil_step hr hi).2) s2.1 s2.2

theorem border_nat (w h : ℕ) : imageBorder w h 1 =
    (List.range h).map (fun (i : ℕ) => (⟨0, i⟩ : V2 ℝ)) ++
    ((List.range w).map (fun (i : ℕ) => (⟨i, h⟩ : V2 ℝ)) ++
    ((List.range h).map (fun (i : ℕ) => (⟨w, h - i⟩ : V2 ℝ)) ++
    (List.range w).map (fun (i : ℕ) => (⟨w - i, 0⟩ : V2 ℝ)))) := by
  rw [imageBorder_eq]; simp

/-! ### the cone -/

theorem coneLines_inner (o : V3 Num) (B : List (V3 Num)) (is : List ℕ) (last : List ℕ) (hi : ∀ i ∈ is, i < B.length)
    (T : List (V3 Num)) :
    coneLines o (is ++ last) (B ++ T) =
      coneLines o last (B ++ (T ++ is.flatMap fun i => [V3.nan, o, B.getD i V3.nan])) := by
  induction is generalizing T with
  | nil => simp
  | cons i is ih =>
    have h1 : i < B.length := hi i List.mem_cons_self
    rw [List.cons_append, coneLines]
    have h2 : (B ++ T ++ [V3.nan] ++ [o])[i]? = some (B.getD i V3.nan) := by
      rw [List.append_assoc, List.append_assoc, List.getElem?_append_left h1, List.getElem?_eq_getElem h1,
        List.getD_eq_getElem?_getD, List.getElem?_eq_getElem h1]
      rfl
    simp only [h2]
    have h3 := ih (fun j hj => hi j (List.mem_cons_of_mem _ hj)) (T ++ [V3.nan, o, B.getD i V3.nan])
    simp only [List.append_assoc, List.cons_append, List.nil_append, List.flatMap_cons] at h3 ⊢
    exact h3

theorem coneLines_all (o : V3 Num) (B : List (V3 Num)) (is : List ℕ) (hi : ∀ i ∈ is, i < B.length) :
    coneLines o (is ++ [B.length]) B =
      .ok (B ++ (is.flatMap fun i => [V3.nan, o, B.getD i V3.nan]) ++ [V3.nan, o, V3.nan]) := by
  have h := coneLines_inner o B is [B.length] hi []
  rw [List.append_nil, List.nil_append] at h
  rw [h, coneLines]
  have h2 : (B ++ (is.flatMap fun i => [V3.nan, o, B.getD i V3.nan]) ++ [V3.nan] ++ [o])[B.length]? = some V3.nan := by
    rw [List.append_assoc, List.append_assoc, List.getElem?_append_right le_rfl]
    cases is with
    | nil => simp
    | cons i is => simp
  simp only [h2]
  rw [coneLines]
  simp [List.append_assoc]

/-- The lookup never fails as long as every index is at most the length of the original border. -/
theorem coneLines_ne (o : V3 Num) (is : List ℕ) (B : List (V3 Num)) (hi : ∀ i ∈ is, i ≤ B.length) :
    ∃ L, coneLines o is B = .ok L := by
  induction is generalizing B with
  | nil => exact ⟨B, rfl⟩
  | cons i is ih =>
    have h1 : i < (B ++ [V3.nan] ++ [o]).length := by
      have := hi i List.mem_cons_self
      simp; omega
    rw [coneLines]
    simp only [List.getElem?_eq_getElem h1]
    exact ih _ fun j hj => by
      have := hi j (List.mem_cons_of_mem _ hj)
      simp; omega

/-! ### argmin -/

theorem le_total' {x y : Num} (hx : x ≠ nan) (hy : y ≠ nan) : x ≤ y ∨ y < x := by
  rcases le_or_gt (ext x) (ext y) with h | h
  · exact Or.inl ⟨hx, hy, h⟩
  · exact Or.inr ⟨hy, hx, h⟩

theorem not_lt_of_le' {x y : Num} (h : x ≤ y) : ¬ y < x := fun h' => absurd h'.2.2 (not_lt.mpr h.2.2)

/-- The entry at `argmin` is the smallest, and the first smallest one. -/
theorem argmin_spec (l : List Num) (h0 : l ≠ []) (hn : ∀ x ∈ l, x ≠ nan) :
    ∃ v, l[argmin l]? = some v ∧ (∀ x ∈ l, v ≤ x) ∧ ∀ j < argmin l, ∀ x, l[j]? = some x → v < x := by
  induction l with
  | nil => exact absurd rfl h0
  | cons x xs ih =>
    rw [argmin]
    split_ifs with h
    · refine ⟨x, rfl, ?_, by simp⟩
      intro y hy
      rcases List.mem_cons.mp hy with rfl | hy
      · exact ⟨hn y hy, hn y hy, le_rfl⟩
      · exact h y hy
    · have hx := hn x List.mem_cons_self
      have hn' : ∀ y ∈ xs, y ≠ nan := fun y hy => hn y (List.mem_cons_of_mem _ hy)
      have hne : xs ≠ [] := by rintro rfl; simp at h
      obtain ⟨v, h1, h2, h3⟩ := ih hne hn'
      simp only [not_forall] at h
      obtain ⟨y, hy, hxy⟩ := h
      have hv : v < x := by
        have a := (le_total' hx (hn' y hy)).resolve_left hxy
        have b := h2 y hy
        exact ⟨b.1, hx, lt_of_le_of_lt b.2.2 a.2.2⟩
      refine ⟨v, by simpa using h1, ?_, ?_⟩
      · intro z hz
        rcases List.mem_cons.mp hz with rfl | hz
        · exact ⟨hv.1, hv.2.1, hv.2.2.le⟩
        · exact h2 z hz
      · intro j hj z hz
        cases j with
        | zero => simp at hz; subst hz; exact hv
        | succ j => exact h3 j (by omega) z (by simpa using hz)

/-- `nanargmin` of a list without infinities. -/
theorem nanargmin_spec (l : List Num) (hinf : ∀ x ∈ l, ¬ IsInf x) :
    (nanargmin l = none ↔ ∀ x ∈ l, x = nan) ∧
    ∀ i, nanargmin l = some i → ∃ v, l[i]? = some v ∧ v ≠ nan ∧ (∀ x ∈ l, x ≠ nan → v ≤ x) ∧
      ∀ j < i, ∀ x, l[j]? = some x → x ≠ nan → v < x := by
  unfold nanargmin
  split_ifs with h
  · exact ⟨⟨fun _ => h, fun _ => rfl⟩, by simp⟩
  · refine ⟨⟨fun h' => (by simp at h'), fun h' => absurd h' h⟩, ?_⟩
    intro i hi
    simp only [Option.some.injEq] at hi
    simp only [not_forall] at h
    obtain ⟨y, hy, hyn⟩ := h
    have hni : ∀ x, Ray.nanToInf x ≠ nan := by
      intro x; unfold Ray.nanToInf; split_ifs with h
      · simp
      · exact h
    have hid : ∀ x, x ≠ nan → Ray.nanToInf x = x := fun x hx => if_neg hx
    obtain ⟨v, h1, h2, h3⟩ := argmin_spec (l.map Ray.nanToInf) (by rintro h; simp at h; subst h; simp at hy) (by
      intro x hx
      obtain ⟨z, -, rfl⟩ := List.mem_map.mp hx
      exact hni z)
    rw [hi] at h1 h3
    rw [List.getElem?_map] at h1
    obtain ⟨u, hu, huv⟩ := Option.map_eq_some_iff.mp h1
    have hum := List.mem_of_getElem? hu
    have hun : u ≠ nan := by
      rintro rfl
      have e : v = pinf := by rw [← huv]; simp [Ray.nanToInf]
      have a := h2 y (by rw [← hid y hyn]; exact List.mem_map_of_mem hy)
      rw [e] at a
      have b := hinf y hy
      cases y with
      | fin r => exact absurd a.2.2 (by simp [ext])
      | nzero => exact absurd a.2.2 (by simp [ext])
      | pinf => exact b trivial
      | ninf => exact b trivial
      | nan => exact hyn rfl
    have ev : v = u := by rw [← huv, hid u hun]
    subst ev
    refine ⟨v, hu, hun, ?_, ?_⟩
    · intro x hx hxn
      exact h2 x (by rw [← hid x hxn]; exact List.mem_map_of_mem hx)
    · intro j hj x hx hxn
      exact h3 j hj x (by rw [List.getElem?_map, hx]; simp [hid x hxn])

/-! ### tables -/

theorem flatten_take {α : Type} (w : ℕ) (rs : List (List α)) (h : ∀ r ∈ rs, r.length = w) (i : ℕ) (hi : i < rs.length) :
    (rs.flatten.drop (i * w)).take w = rs[i] := by
  induction rs generalizing i with
  | nil => simp at hi
  | cons r rs ih =>
    have hr := h r List.mem_cons_self
    cases i with
    | zero => simp [← hr]
    | succ i =>
      rw [List.flatten_cons, Nat.succ_mul, Nat.add_comm, ← List.drop_drop]
      have : (r ++ rs.flatten).drop w = rs.flatten := by rw [← hr]; simp
      rw [this, ih (fun q hq => h q (List.mem_cons_of_mem _ hq)) i (by simpa using hi)]
      simp

theorem reshape_flatten {α : Type} (h w : ℕ) (f : ℕ → ℕ → α) :
    reshape ((List.range h).flatMap fun y => (List.range w).map fun x => f y x) h w =
      .ok ((List.range h).map fun y => (List.range w).map fun x => f y x) := by
  unfold reshape
  have hl : ((List.range h).flatMap fun y => (List.range w).map fun x => f y x).length = h * w := by
    simp [List.length_flatMap]
  rw [if_pos hl]
  congr 1
  apply List.map_congr_left
  intro i hi
  rw [List.mem_range] at hi
  have := flatten_take w ((List.range h).map fun y => (List.range w).map fun x => f y x) (by
    intro r hr; obtain ⟨y, -, rfl⟩ := List.mem_map.mp hr; simp) i (by simpa using hi)
  rw [← List.flatMap_def] at this
  rw [this]
  simp

end View
