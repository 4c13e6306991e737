import Verif.Spec.Shape
import Mathlib.Tactic.NormNum
import Std.Data.String.ToNat

/-! # Formats of arrays -/

open Shape

namespace Shape

/-- The names known have their sizes. -/
def Knows (env : List (List Char × ℕ)) (size : List Char → ℕ) : Prop := ∀ a n, env.lookup a = some n → n = size a

theorem knows_cons {env : List (List Char × ℕ)} {size : List Char → ℕ} {a : List Char} {n : ℕ} (h : env.lookup a = none ∨ env.lookup a = some n) :
    Knows ((a, n) :: env) size ↔ Knows env size ∧ n = size a := by
  constructor
  · intro hk
    have e : n = size a := hk a n (by simp)
    refine ⟨fun b m hb => ?_, e⟩
    by_cases hab : b = a
    · subst hab
      rcases h with h | h
      · rw [h] at hb; cases hb
      · rw [h] at hb; cases hb; exact e
    · have hba : (b == a) = false := by simpa using hab
      exact hk b m (by rw [List.lookup_cons, hba]; exact hb)
  · rintro ⟨hk, e⟩ b m hb
    rw [List.lookup_cons] at hb
    by_cases hab : b = a
    · subst hab
      rw [beq_self_eq_true] at hb
      cases hb; exact e
    · have hba : (b == a) = false := by simpa using hab
      rw [hba] at hb; exact hk b m hb

theorem check_spec {ds : List Dim} (hd : ∀ d ∈ ds, d ≠ .name dots) (tl : List Dim) (ht : tl = [] ∨ ∃ t, tl = .name dots :: t) (ns : List ℕ)
    (env : List (List Char × ℕ)) :
    check (ds ++ tl) ns env = .ok () ↔ ∃ size, Knows env size ∧ ∃ a b, ns = a ++ b ∧ List.Forall₂ (Fits size) ds a := by
  induction ds generalizing ns env with
  | nil =>
    have h1 : check ([] ++ tl) ns env = .ok () := by
      rcases ht with rfl | ⟨t, rfl⟩
      · rfl
      · simp [check]
    refine ⟨fun _ => ⟨fun a => (env.lookup a).getD 0, fun a n h => by simp [h], [], ns, rfl, .nil⟩, fun _ => h1⟩
  | cons d ds ih =>
    have hd' : ∀ d ∈ ds, d ≠ .name dots := fun d' h => hd d' (by simp [h])
    have hF : ∀ (P : (List Char → ℕ) → Prop) (n : ℕ) (ns : List ℕ), (∃ size, P size ∧ ∃ a b, n :: ns = a ++ b ∧ List.Forall₂ (Fits size) (d :: ds) a) ↔
        ∃ size, (P size ∧ Fits size d n) ∧ ∃ a b, ns = a ++ b ∧ List.Forall₂ (Fits size) ds a := by
      intro P n ns
      constructor
      · rintro ⟨size, hP, a, b, e, hf⟩
        cases hf with
        | cons h1 h2 =>
          simp only [List.cons_append, List.cons.injEq] at e
          obtain ⟨rfl, e⟩ := e
          exact ⟨size, ⟨hP, h1⟩, _, b, e, h2⟩
      · rintro ⟨size, ⟨hP, h1⟩, a, b, rfl, h2⟩
        exact ⟨size, hP, n :: a, b, rfl, .cons h1 h2⟩
    have hN : ∀ env : List (List Char × ℕ), ¬ ∃ size, Knows env size ∧ ∃ a b, ([] : List ℕ) = a ++ b ∧ List.Forall₂ (Fits size) (d :: ds) a := by
      rintro env ⟨size, -, a, b, e, hf⟩
      cases hf with
      | cons h1 h2 => simp at e
    cases d with
    | num k =>
      cases ns with
      | nil => simp only [hN, iff_false]; simp [check]
      | cons n ns =>
        rw [hF]
        simp only [List.cons_append, check]
        by_cases e : n = k
        · rw [if_pos e, ih hd']; simp [Fits, e]
        · rw [if_neg e]; simp [Fits, e]
    | name a =>
      have ha : a ≠ dots := fun e => hd (.name a) (by simp) (by rw [e])
      cases ns with
      | nil => simp only [hN, iff_false]; simp [check, ha]
      | cons n ns =>
        rw [hF]
        simp only [List.cons_append, check, if_neg ha]
        cases e : env.lookup a with
        | none =>
          simp only
          rw [ih hd']
          simp only [knows_cons (Or.inl e), Fits]
        | some m =>
          simp only
          by_cases e' : m = n
          · rw [if_pos e', ih hd']
            simp only [knows_cons (Or.inr (by rw [e, e'])), Fits]
          · rw [if_neg e']
            constructor
            · intro h; cases h
            · rintro ⟨size, ⟨hk, h1⟩, -⟩
              have := hk a m e
              simp only [Fits] at h1
              omega

theorem fits_reverse {size : List Char → ℕ} {ds : List Dim} {ns : List ℕ} : List.Forall₂ (Fits size) ds.reverse ns.reverse ↔ List.Forall₂ (Fits size) ds ns :=
  List.forall₂_reverse_iff

theorem ensureOne_spec {shape : List Dim} (hs : shape ≠ []) (hw : Wf shape) (sh : List ℕ) : ensureOne sh shape = .ok () ↔ Has shape sh := by
  unfold ensureOne Has
  cases shape with
  | nil => exact absurd rfl hs
  | cons d t =>
    have hK : ∀ size, Knows [] size := fun size a n h => by simp at h
    by_cases hd : d = .name dots
    · subst hd
      have := check_spec (ds := t.reverse) (fun d hd => hw d (by simpa using hd)) [.name dots] (Or.inr ⟨[], rfl⟩) sh.reverse []
      simp only [List.head?_cons, ne_eq, not_true_eq_false, false_and, if_false, List.reverse_cons]
      rw [this]
      constructor
      · rintro ⟨size, -, a, b, e, hf⟩
        refine ⟨size, b.reverse, a.reverse, ?_, ?_⟩
        · rw [← List.reverse_append, ← e, List.reverse_reverse]
        · rw [← fits_reverse, List.reverse_reverse]; exact hf
      · rintro ⟨size, b, a, rfl, hf⟩
        exact ⟨size, hK size, a.reverse, b.reverse, by rw [List.reverse_append], fits_reverse.2 hf⟩
    · have hall : ∀ d' ∈ (d :: t).reverse, d' ≠ .name dots := by
        intro d' h
        rw [List.mem_reverse, List.mem_cons] at h
        rcases h with rfl | h
        · exact hd
        · exact hw d' h
      have := check_spec hall [] (Or.inl rfl) sh.reverse []
      rw [List.append_nil] at this
      have hH : (∃ size, HasWith size (d :: t) sh) ↔ ∃ size, List.Forall₂ (Fits size) (d :: t) sh := by
        refine exists_congr fun size => ?_
        unfold HasWith
        split
        · rename_i e; cases e; exact absurd rfl hd
        · exact Iff.rfl
      rw [hH]
      by_cases hl : sh.length = (d :: t).length
      · rw [if_neg (by simp only [not_and, not_not]; exact fun _ => hl), this]
        constructor
        · rintro ⟨size, -, a, b, e, hf⟩
          have h1 := hf.length_eq
          have h2 : sh.reverse.length = a.length + b.length := by rw [e, List.length_append]
          rw [List.length_reverse] at h1 h2
          have hb : b = [] := List.length_eq_zero_iff.1 (by omega)
          subst hb
          rw [List.append_nil] at e
          rw [← e] at hf
          exact ⟨size, fits_reverse.1 hf⟩
        · rintro ⟨size, hf⟩
          exact ⟨size, hK size, sh.reverse, [], by simp, fits_reverse.2 hf⟩
      · rw [if_pos ⟨by simpa using hd, hl⟩]
        constructor
        · intro h; cases h
        · rintro ⟨size, hf⟩; exact absurd hf.length_eq.symm hl

theorem dim_num (n : ℕ) : dim (Nat.toDigits 10 n) = .num n := by
  unfold dim
  have h1 : Nat.toDigits 10 n ≠ [] := Nat.toDigits_ne_nil
  have h2 : (Nat.toDigits 10 n).all Char.isDigit = true := by
    rw [List.all_eq_true]; exact fun c hc => Nat.isDigit_of_mem_toDigits (by norm_num) (by norm_num) hc
  rw [if_pos ⟨h1, h2⟩, Nat.ofDigitChars_ten_toDigits]

theorem dim_text {d : Dim} (h : Proper d) : dim d.text = d := by
  cases d with
  | num n => exact dim_num n
  | name a =>
    obtain ⟨-, c, hc, hd⟩ := h a rfl
    unfold dim Dim.text
    rw [if_neg]
    rintro ⟨-, h⟩
    rw [List.all_eq_true] at h
    rw [h c hc] at hd; cases hd

theorem x_not_mem {d : Dim} (h : Proper d) : 'x' ∉ d.text := by
  cases d with
  | num n =>
    intro hx
    have := Nat.isDigit_of_mem_toDigits (by norm_num) (by norm_num) hx
    simp [Char.isDigit] at this
  | name a => exact (h a rfl).1

theorem stringToShape_text {shape : List Dim} (hs : shape ≠ []) (hp : ∀ d ∈ shape, Proper d) : stringToShape (text shape) = shape := by
  unfold stringToShape text
  rw [List.splitOn_intercalate, List.map_map]
  · conv_rhs => rw [← List.map_id shape]
    exact List.map_congr_left fun d hd => dim_text (hp d hd)
  · intro l hl
    obtain ⟨d, hd, rfl⟩ := List.mem_map.1 hl
    exact x_not_mem (hp d hd)
  · simpa using hs

theorem ensureEach_spec {α : Type} (shape : List Dim) (l : List (Arr α)) : (ensureEach shape l = .ok l ↔ ∀ a ∈ l, ensureOne a.shape shape = .ok ()) ∧
    ∀ r, ensureEach shape l = .ok r → r = l := by
  induction l with
  | nil => simp [ensureEach]
  | cons a t ih =>
    simp only [ensureEach, bind, Except.bind]
    rcases h : ensureOne a.shape shape with e | u
    · simp [h]
    · rcases h' : ensureEach shape t with e | t'
      · rw [h'] at ih
        simp only [reduceCtorEq, false_iff, IsEmpty.forall_iff, implies_true, and_true] at ih ⊢
        intro hall
        exact ih fun b hb => hall b (by simp [hb])
      · rw [h'] at ih
        obtain ⟨i1, i2⟩ := ih
        have e := i2 t' rfl
        subst e
        simp only [true_iff, Except.ok.injEq] at i1 ⊢
        refine ⟨fun b hb => ?_, fun r hr => hr.symm⟩
        rcases List.mem_cons.1 hb with rfl | hb
        · exact h
        · exact i1 b hb

end Shape

/-- **C75** An array is accepted, and returned as it is, exactly if its shape has the format and additional arrays have the same shape. -/
theorem C75_ensure_array_format {α : Type} {shape : List Dim} (hs : shape ≠ []) (hp : ∀ d ∈ shape, Proper d) (hw : Wf shape) (p : Arr α) (more r : List (Arr α)) :
    ensure p (text shape) more = .ok r ↔ r = p :: more ∧ (∀ a ∈ more, a.shape = p.shape) ∧ Has shape p.shape := by
  unfold ensure
  rw [stringToShape_text hs hp]
  obtain ⟨e1, e2⟩ := ensureEach_spec shape (p :: more)
  have hall : (∀ a ∈ p :: more, a.shape = p.shape) ↔ ∀ a ∈ more, a.shape = p.shape := by simp
  by_cases hm : ∀ a ∈ more, a.shape = p.shape
  · rw [if_neg (by rw [hall]; tauto)]
    constructor
    · intro h
      have hr := e2 r h
      subst hr
      exact ⟨rfl, hm, (ensureOne_spec hs hw _).1 (e1.1 h p (by simp))⟩
    · rintro ⟨rfl, -, h⟩
      refine e1.2 fun a ha => ?_
      rw [hall.2 hm a ha]; exact (ensureOne_spec hs hw _).2 h
  · rw [if_pos]
    · constructor
      · intro h; cases h
      · rintro ⟨-, h, -⟩; exact absurd h hm
    · refine ⟨?_, fun h => hm (hall.1 h)⟩
      rintro rfl; simp at hm

/-- **C75** With "...xk" an array is accepted exactly if it has at least one dimension and its last dimension is k. -/
theorem C75_last_dimension {α : Type} (k : ℕ) (p : Arr α) (more r : List (Arr α)) :
    ensure p ("...x".toList ++ Nat.toDigits 10 k) more = .ok r ↔ r = p :: more ∧ (∀ a ∈ more, a.shape = p.shape) ∧ p.shape.getLast? = some k := by
  have ht : "...x".toList ++ Nat.toDigits 10 k = text [.name dots, .num k] := by
    simp [text, Dim.text, List.intercalate, dots]
  rw [ht, C75_ensure_array_format (by simp)]
  · have : Has [.name dots, .num k] p.shape ↔ p.shape.getLast? = some k := by
      unfold Has dots
      constructor
      · rintro ⟨size, b, l, e, hf⟩
        cases hf with
        | cons h1 h2 => cases h2; simp only [Fits] at h1; rw [e, h1]; simp
      · intro h
        rw [List.getLast?_eq_some_iff] at h
        obtain ⟨b, e⟩ := h
        exact ⟨fun _ => 0, b, [k], e, .cons rfl .nil⟩
    rw [this]
  · intro d hd a e
    subst e
    simp only [List.mem_cons, Dim.name.injEq, reduceCtorEq, List.not_mem_nil, or_self, or_false] at hd
    subst hd
    exact ⟨by simp [dots], '.', by simp [dots], by decide⟩
  · intro d hd
    simp only [List.tail_cons, List.mem_singleton] at hd
    subst hd; simp

/-- The format "Nx4xN". -/
example : ∃ shape : List Dim, shape ≠ [] ∧ (∀ d ∈ shape, Proper d) ∧ Wf shape ∧ text shape = "Nx4xN".toList ∧ Has shape [7, 4, 7] ∧ ¬ Has shape [7, 4, 8] := by
  refine ⟨[.name ['N'], .num 4, .name ['N']], by simp, ?_, ?_, rfl, ⟨fun _ => 7, ?_⟩, ?_⟩
  · intro d hd a e
    subst e
    simp at hd; subst hd
    exact ⟨by simp, 'N', by simp, by decide⟩
  · intro d hd; simp at hd; rcases hd with rfl | rfl <;> simp
  · exact .cons rfl (.cons rfl (.cons rfl .nil))
  · rintro ⟨size, h⟩
    have h : List.Forall₂ (Fits size) [.name ['N'], .num 4, .name ['N']] [7, 4, 8] := h
    cases h with
    | cons h1 h => cases h with
      | cons h2 h => cases h with
        | cons h3 h => simp only [Fits] at h1 h3; omega
