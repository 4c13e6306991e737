import Verif.Spec.Batch
import Verif.Proofs.Camera

/-! # Stacks of points (C115, C116) -/

open Classical

namespace Batch

open Camera (PyErr Cam)
open Num (fin)

theorem bshape_nil (s : List ℕ) : bshape s [] = some s := by cases s <;> rfl

theorem bdim_self (a : ℕ) : bdim a a = some a := by simp [bdim]

theorem bdim_one (a : ℕ) : bdim a 1 = some a := by unfold bdim; split_ifs with h <;> simp_all

theorem one_bdim (a : ℕ) : bdim 1 a = some a := by
  by_cases h : 1 = a
  · rw [← h]; rfl
  · simp [bdim, h]

theorem bshape_self (s : List ℕ) : bshape s s = some s := by
  induction s with
  | nil => rfl
  | cons a s ih => simp [bshape, bdim_self, ih]

theorem bidx_inside {s i : List ℕ} (h : Inside s i) : bidx s i = i := by
  induction h with
  | nil => rfl
  | @cons a b i s h1 _ ih =>
    simp only [bidx, ih]
    congr 1
    split_ifs with e <;> omega

theorem inside_cons {n : ℕ} {s i : List ℕ} (h : Inside (n :: s) i) : ∃ k j, i = k :: j ∧ k < n ∧ Inside s j := by
  cases h with
  | cons h1 h2 => exact ⟨_, _, rfl, h1, h2⟩

theorem inside_one {n : ℕ} {i : List ℕ} (h : Inside [n] i) : ∃ k, i = [k] ∧ k < n := by
  obtain ⟨k, j, rfl, h1, h2⟩ := inside_cons h
  cases h2
  exact ⟨k, rfl, h1⟩

theorem point_eq (off dir : V3 Num) (f : Num) : Camera.pointAt off dir f =
    ⟨if f < fin 0 then .nan else dir.x * f + off.x, if f < fin 0 then .nan else dir.y * f + off.y,
      if f < fin 0 then .nan else dir.z * f + off.z⟩ := by
  unfold Camera.pointAt
  split_ifs <;> rfl

/-- The offset. -/
noncomputable def off (c : Cam) : V3 Num := Spatial.spaceFromCamera c.orient.mat ⟨fin 0, fin 0, fin 0⟩

theorem getRay_off (c : Cam) (p : V2 Num) (n : Bool) : (Camera.getRay c p n).1 = off c := rfl

/-- The factor of a coordinate. -/
noncomputable def fac (c : Cam) (k : ℕ) (v : Num) (p : V2 Num) : Num := (v - comp (off c) k) / comp (Camera.getRay c p).2 k

theorem single_coord (c : Cam) (p : V2 Num) (k : ℕ) (v : Nd) (i : List ℕ) : Camera.spaceFromImage c p ((Con.coord k v).at_ i) =
    .ok (Camera.pointAt (off c) (Camera.getRay c p).2 (fac c k (v.at_ (i.take v.shape.length)) p)) := by
  rcases k with _ | _ | k <;> rfl

theorem single_dist (c : Cam) (p : V2 Num) (d : Num) : Camera.spaceFromImage c p { D := some d } =
    .ok (Camera.pointAt (off c) (Camera.getRay c p true).2 d) := rfl

theorem plain_ok (c : Cam) (lead : List ℕ) (at_ : List ℕ → Num) (f : Num) :
    plain c ⟨3 :: lead, at_⟩ (scalar f) = .ok ⟨3 :: lead, fun i => at_ (bidx (3 :: lead) (bidx (3 :: lead) i)) * f + (offset c).at_ (bidx [3] i)⟩ := by
  have h1 : bshape (3 :: lead) [3] = some (3 :: lead) := by simp [bshape, bdim_self, bshape_nil]
  simp only [plain, Nd.op, scalar, bshape_nil, offset, bind, Except.bind, h1]

theorem mask_scalar (p : Nd) (f : Num) : mask p (scalar f) = .ok ⟨p.shape, fun i => if f < fin 0 then .nan else p.at_ i⟩ := by
  unfold mask
  rw [if_pos (by simp [scalar])]
  rfl

theorem rows_scalar (c : Cam) (lead : List ℕ) (at_ : List ℕ → Num) (f : Num) : ∃ out, (do
    let p ← plain c ⟨3 :: lead, at_⟩ (scalar f)
    mask p (scalar f)) = .ok out ∧ out.shape = 3 :: lead ∧ ∀ i, Inside lead i →
      out.point i = Camera.pointAt (off c) ⟨at_ (0 :: i), at_ (1 :: i), at_ (2 :: i)⟩ f := by
  rw [plain_ok]
  simp only [bind, Except.bind, mask_scalar]
  refine ⟨_, rfl, rfl, fun i hi => ?_⟩
  rw [point_eq]
  simp only [Nd.point, bidx, bidx_inside hi, offset, comp, off]
  simp

theorem perRow_ok (c : Cam) {lead : List ℕ} {N : ℕ} (hl : lead = [] ∨ lead = [N]) (at_ : List ℕ → Num) (f : List ℕ → Num) : ∃ out, (do
    let p ← perRow c ⟨3 :: lead, at_⟩ ⟨[N], f⟩
    mask p ⟨[N], f⟩) = .ok out ∧ out.shape = [3, N] ∧ ∀ n, n < N →
      out.point [n] = Camera.pointAt (off c) ⟨at_ (0 :: [n].take lead.length), at_ (1 :: [n].take lead.length),
        at_ (2 :: [n].take lead.length)⟩ (f [n]) := by
  have hN : ∀ n, n < N → (if N = 1 then 0 else n) = n := fun n h => by split_ifs <;> omega
  rcases hl with rfl | rfl
  · simp only [perRow, Nd.col, colShape, bind, Except.bind, Nd.op, bshape, bdim_self, bdim_one, mask, List.drop, List.length_cons,
      List.length_nil, if_true, Nat.reduceAdd, Nat.reduceSub]
    refine ⟨_, rfl, rfl, fun n hn => ?_⟩
    rw [point_eq]
    simp [Nd.point, bidx, hN n hn, offset, comp, off, colIdx]
  · simp only [perRow, Nd.col, colShape, bind, Except.bind, Nd.op, bshape, bdim_self, bdim_one, mask, List.drop, List.length_cons,
      List.length_nil, if_true, Nat.reduceAdd, Nat.reduceSub]
    refine ⟨_, rfl, rfl, fun n hn => ?_⟩
    rw [point_eq]
    simp [Nd.point, bidx, hN n hn, offset, comp, off, colIdx]

theorem mk_eta (v : V3 Num) : (⟨comp v 0, comp v 1, comp v 2⟩ : V3 Num) = v := rfl

end Batch

open Batch

/-- **C115** (partial: the documented shapes, see `C115_three_violated` and `C115_columns_violated`) For a single image point or
N of them, and a coordinate given as one number or N numbers, every point of the result is the one `spaceFromImage` gives for
this image point and coordinate. -/
theorem C115_coordinate_partial (c : Camera.Cam) (points : Nd) (k : ℕ) (v : Nd) (lead r : List ℕ) (N : ℕ) (hp : points.shape = 2 :: lead)
    (hr : r = [] ∧ lead = [] ∧ v.shape = [] ∨ r = [N] ∧ (lead = [] ∨ lead = [N]) ∧ (v.shape = [] ∨ v.shape = [N]) ∧ (lead = [N] ∨ v.shape = [N])) :
    RowWise c points (.coord k v) lead r := by
  have hN : ∀ n, n < N → (if N = 1 then 0 else n) = n := fun n h => by split_ifs <;> omega
  have ev : v = ⟨v.shape, v.at_⟩ := rfl
  rcases hr with ⟨rfl, rfl, hv⟩ | ⟨rfl, hl, hv, ho⟩
  · obtain ⟨out, h1, h2, h3⟩ := rows_scalar c [] (directions c points false).at_ (fac c k (v.at_ []) (points.pixel []))
    refine ⟨out, ?_, h2, fun i hi => ?_⟩
    · rw [← h1]
      simp only [spaceFromImage, hp, directions, Nd.op, hv, bshape, scalar, bind, Except.bind, Nd.last, List.tail, bidx]
      rfl
    · cases hi
      rw [single_coord, h3 _ .nil, hv]
      rfl
  · have key : ∃ out, spaceFromImage c points (.coord k v) = .ok out ∧ out.shape = [3, N] ∧ ∀ n, n < N →
        out.point [n] = Camera.pointAt (off c) (Camera.getRay c (points.pixel ([n].take lead.length))).2
          (fac c k (v.at_ ([n].take v.shape.length)) (points.pixel ([n].take lead.length))) := by
      obtain ⟨out, h1, h2, h3⟩ := perRow_ok c hl (directions c points false).at_
        (fun i => (v.at_ (bidx v.shape (bidx v.shape i)) - comp (off c) k) / (directions c points false).at_ (k :: bidx lead i))
      refine ⟨out, ?_, h2, fun n hn => ?_⟩
      · rw [← h1]
        have e1 : bshape v.shape lead = some [N] := by
          rcases hl with rfl | rfl <;> rcases hv with hv | hv <;> simp [hv, bshape, bdim_self] at ho ⊢
        simp only [spaceFromImage, hp, directions, Nd.op, bshape_nil, scalar, bind, Except.bind, Nd.last, List.tail, e1]
        rfl
      · rw [h3 n hn]
        rcases hl with rfl | rfl <;> rcases hv with hv | hv <;> rw [hv] <;> simp only [bidx, hN n hn] <;> rfl
    obtain ⟨out, h1, h2, h3⟩ := key
    refine ⟨out, h1, h2, fun i hi => ?_⟩
    obtain ⟨n, rfl, hn⟩ := inside_one hi
    rw [single_coord, h3 n hn]

/-- **C115** (partial: as above) The same for N distances given as an array. -/
theorem C115_distances_partial (c : Camera.Cam) (points : Nd) (d : Nd) (lead : List ℕ) (N : ℕ) (hp : points.shape = 2 :: lead)
    (hl : lead = [] ∨ lead = [N]) (hd : d.shape = [N]) : RowWise c points (.distArr d) lead [N] := by
  obtain ⟨out, h1, h2, h3⟩ := perRow_ok c hl (directions c points true).at_ d.at_
  refine ⟨out, ?_, h2, fun i hi => ?_⟩
  · rw [← h1, ← hd]
    simp only [spaceFromImage, hp, directions, List.tail]
    rfl
  · obtain ⟨n, rfl, hn⟩ := inside_one hi
    rw [h3 n hn, Con.at_, single_dist, hd]
    rfl

/-- **C115** (any number of leading axes) With one distance every point is converted alone. -/
theorem C115_distance (c : Camera.Cam) (points : Nd) (d : Num) (lead : List ℕ) (hp : points.shape = 2 :: lead) :
    RowWise c points (.distNum d) lead lead := by
  obtain ⟨out, h1, h2, h3⟩ := rows_scalar c lead (directions c points true).at_ d
  refine ⟨out, ?_, h2, fun i hi => ?_⟩
  · rw [← h1]
    simp only [spaceFromImage, hp, directions, List.tail]
    rfl
  · rw [h3 i hi, Con.at_, single_dist, List.take_of_length_le (by rw [List.Forall₂.length_eq hi])]
    rfl

/-- Distances given as a list are never accepted. -/
theorem C115_distance_list_rejected (c : Camera.Cam) (points d : Nd) : ∃ e, spaceFromImage c points (.distList d) = .error e := by
  unfold spaceFromImage
  split
  · exact ⟨_, rfl⟩
  · split_ifs
    · exact ⟨_, rfl⟩
    · simp only [bind, Except.bind]
      split
      · exact ⟨_, rfl⟩
      · exact ⟨_, rfl⟩

/-- The factors of an N x M stack. -/
theorem Batch.stack (c : Camera.Cam) (points : Nd) (k : ℕ) (v : Num) (M N : ℕ) (hp : points.shape = [2, M, N]) :
    spaceFromImage c points (.coord k (scalar v)) = (do
      let p ← perRow c ⟨[3, M, N], (directions c points false).at_⟩ ⟨[M, N], fun i => (v - comp (off c) k) / (directions c points false).at_ (k :: bidx [M, N] i)⟩
      mask p ⟨[M, N], fun i => (v - comp (off c) k) / (directions c points false).at_ (k :: bidx [M, N] i)⟩) := by
  simp only [spaceFromImage, hp, directions, Nd.op, bshape, scalar, bind, Except.bind, Nd.last, List.tail]
  rfl

/-- **C115 violated** An array of N x M image points with M other than 1 and 3 is rejected although `ensure_array_format` accepts
it and `spaceFromImage` converts each of its points. -/
theorem C115_columns_violated (c : Camera.Cam) (points : Nd) (k : ℕ) (v : Num) (M N : ℕ) (hp : points.shape = [2, M, N]) (h1 : M ≠ 1)
    (h3 : M ≠ 3) : spaceFromImage c points (.coord k (scalar v)) = .error .valueError ∧
      ∀ i, ∃ q, Camera.spaceFromImage c (points.pixel i) ((Con.coord k (scalar v)).at_ i) = .ok q := by
  refine ⟨?_, fun i => ⟨_, single_coord ..⟩⟩
  rw [Batch.stack c points k v M N hp]
  have : bdim 3 M = none := by unfold bdim; split_ifs <;> first | rfl | omega
  simp only [perRow, Nd.col, colShape, Option.map, bind, Except.bind, Nd.op, bshape, this]

/-- The exact result for N x 3 image points: the components of the directions are multiplied with the factors of different
points. -/
theorem Batch.three (c : Camera.Cam) (points : Nd) (k : ℕ) (v : Num) (N : ℕ) (hp : points.shape = [2, 3, N]) :
    ∃ out, spaceFromImage c points (.coord k (scalar v)) = .ok out ∧ out.shape = [3, 3, N] ∧ ∀ n m, n < N → m < 3 →
      out.point [m, n] = if fac c k v (points.pixel [m, n]) < .fin 0 then V3.nan else
        let r := (Camera.getRay c (points.pixel [m, n])).2
        ⟨r.x * fac c k v (points.pixel [0, n]) + (off c).x, r.y * fac c k v (points.pixel [1, n]) + (off c).y,
          r.z * fac c k v (points.pixel [2, n]) + (off c).z⟩ := by
  have hN : ∀ n, n < N → (if N = 1 then 0 else n) = n := fun n h => by split_ifs <;> omega
  rw [Batch.stack c points k v 3 N hp]
  simp only [perRow, Nd.col, colShape, Option.map, bind, Except.bind, Nd.op, bshape, bdim_self, bdim_one, mask, List.drop, List.length_cons,
      List.length_nil, if_true, Nat.reduceAdd, Nat.reduceSub]
  refine ⟨_, rfl, rfl, fun n m hn hm => ?_⟩
  have e : ∀ j, (directions c points false).at_ [k, j, n] = comp (Camera.getRay c (points.pixel [j, n])).2 k := fun j => rfl
  simp only [Nd.point, bidx, hN n hn, colIdx, List.drop, List.length_cons, List.length_nil, Nat.reduceAdd, Nat.reduceSub, e, fac]
  simp only [show (3:ℕ) ≠ 1 by decide, if_false, if_true]
  by_cases hf : (v - comp (off c) k) / comp (Camera.getRay c (points.pixel [m, n])).2 k < .fin 0
  · simp only [hf, if_true]; rfl
  · simp only [hf, if_false]; rfl

/-- **C115 violated** An array of N x 3 image points is accepted, but the points are not on the plane: unless a ray has the same
slope as that of the third image point of its row, its point misses the plane Z that `spaceFromImage` hits for the image point
alone. -/
theorem C115_three_violated (c : Camera.Cam) (points : Nd) (N : ℕ) (hp : points.shape = [2, 3, N]) (z h a b : ℝ)
    (ho : Num.Is (Camera.getRay c (points.pixel [0, 0])).1.z h) (n m : ℕ) (hn : n < N) (hm : m < 3)
    (ha : Num.Is (Camera.getRay c (points.pixel [m, n])).2.z a) (hb : Num.Is (Camera.getRay c (points.pixel [2, n])).2.z b)
    (ha0 : a ≠ 0) (hb0 : b ≠ 0) (hab : a ≠ b) (hz : z ≠ h) (hf : 0 ≤ (z - h) / a) :
    ∃ out q s, spaceFromImage c points (.coord 2 (scalar (.fin z))) = .ok out ∧ out.shape = [3, 3, N] ∧ Num.Is (out.point [m, n]).z s ∧ s ≠ z ∧
      Camera.spaceFromImage c (points.pixel [m, n]) { Z := some (.fin z) } = .ok q ∧ Num.Is q.z z := by
  obtain ⟨out, h1, h2, h3⟩ := Batch.three c points 2 (.fin z) N hp
  rw [getRay_off] at ho
  have f1 : Num.Is (fac c 2 (.fin z) (points.pixel [m, n])) ((z - h) / a) := ((Num.is_fin z).sub ho).div ha ha0
  have f2 : Num.Is (fac c 2 (.fin z) (points.pixel [2, n])) ((z - h) / b) := ((Num.is_fin z).sub ho).div hb hb0
  have hneg : ¬ fac c 2 (.fin z) (points.pixel [m, n]) < .fin 0 := by
    rw [f1.lt_iff (Num.is_fin 0)]; exact not_lt.2 hf
  have h4 := h3 n m hn hm
  rw [if_neg hneg] at h4
  refine ⟨out, Camera.pointAt (off c) (Camera.getRay c (points.pixel [m, n])).2 (fac c 2 (.fin z) (points.pixel [m, n])), a * ((z - h) / b) + h, h1, h2, ?_, ?_, rfl, ?_⟩
  · rw [h4]
    exact (ha.mul f2).add ho
  · intro e
    have : a * (z - h) = b * (z - h) := by field_simp at e; linarith
    exact hab (mul_right_cancel₀ (sub_ne_zero.2 hz) this)
  · rw [Camera.pointAt, if_neg hneg]
    exact ((ha.mul f1).add ho).congr (by field_simp; ring)

/-- **C116** (partial: single points and rows of points, see the violations below) Every GPS position that `gpsFromSpace` gives is
the one of its point alone. -/
theorem C116_rows_partial (space : Nd) (gps0 : Gps.Pt) (lead : List ℕ) (N : ℕ) (hs : space.shape = 3 :: lead) (hl : lead = [] ∨ lead = [N]) :
    ∃ out, gpsFromSpace space gps0 = .ok out ∧ out.shape = 3 :: lead ∧ ∀ i, Inside lead i →
      Gps.gpsFromSpace (space.point i) gps0 = ⟨out.at_ (0 :: i), out.at_ (1 :: i), some (out.at_ (2 :: i))⟩ := by
  have hr : lead.reverse = lead := by rcases hl with rfl | rfl <;> rfl
  have hi : ∀ i, Inside lead i → i.reverse = i := by
    intro i h
    rcases hl with rfl | rfl
    · cases h; rfl
    · obtain ⟨n, rfl, -⟩ := inside_one h; rfl
  obtain ⟨lat, lon, h⟩ := gps0
  cases h <;>
  · simp only [gpsFromSpace, moveDistance, hs, stackT, bind, Except.bind, List.tail, List.mem_cons, List.not_mem_nil, or_false,
      forall_eq_or_imp, forall_eq, Nd.last, and_self, if_true, hr, List.head?]
    refine ⟨_, rfl, rfl, fun i h => ?_⟩
    simp [hi i h, Gps.gpsFromSpace, Nd.point, Gps.moveDistance, Gps.splitGPS]

/-- **C116 violated** For N x N points the positions are right but every height is that of the point with the indices exchanged. -/
theorem C116_heights_violated (space : Nd) (gps0 : Gps.Pt) (N : ℕ) (hs : space.shape = [3, N, N]) :
    ∃ out, gpsFromSpace space gps0 = .ok out ∧ out.shape = [3, N, N] ∧ ∀ i j, ∃ g, Gps.gpsFromSpace (space.point [i, j]) gps0 = g ∧
      out.at_ [0, i, j] = g.lat ∧ out.at_ [1, i, j] = g.lon ∧ out.at_ [2, i, j] = space.at_ [2, j, i] := by
  obtain ⟨lat, lon, h⟩ := gps0
  cases h <;>
  · simp only [gpsFromSpace, moveDistance, hs, stackT, bind, Except.bind, List.tail, List.mem_cons, List.not_mem_nil, or_false,
      forall_eq_or_imp, forall_eq, Nd.last, and_self, if_true, List.head?, List.reverse_cons, List.reverse_nil, List.nil_append, List.cons_append]
    refine ⟨_, rfl, rfl, fun i j => ⟨_, rfl, ?_⟩⟩
    simp [Gps.gpsFromSpace, Nd.point, Gps.moveDistance, Gps.splitGPS]

/-- **C116 violated** N x M points with different N and M are rejected. -/
theorem C116_rectangular_violated (space : Nd) (gps0 : Gps.Pt) (M N : ℕ) (hs : space.shape = [3, M, N]) (h : M ≠ N) :
    gpsFromSpace space gps0 = .error .valueError := by
  obtain ⟨lat, lon, h'⟩ := gps0
  cases h' <;>
  · simp only [gpsFromSpace, moveDistance, hs, stackT, bind, Except.bind, List.tail, List.mem_cons, List.not_mem_nil, or_false,
      forall_eq_or_imp, forall_eq, Nd.last, and_self, if_true, List.head?]
    simp [h]

/-- **C116 violated** `spaceFromGPS` exchanges the indices of an N x M array (N other than 2). -/
theorem C116_transposed_violated (gps : Nd) (gps0 : Gps.Pt) (M N : ℕ) (hs : gps.shape = [3, M, N]) (hN : N ≠ 2) :
    ∃ out, spaceFromGPS gps gps0 = .ok out ∧ out.shape = [3, N, M] ∧ ∀ i j, ∃ s,
      Gps.spaceFromGPS (.one ⟨gps.at_ [0, i, j], gps.at_ [1, i, j], some (gps.at_ [2, i, j])⟩) gps0 = .ok [s] ∧ out.point [j, i] = s := by
  simp only [spaceFromGPS, hs, stackT, bind, Except.bind, List.tail, List.mem_cons, List.not_mem_nil, or_false, List.getLast?, List.getLast,
      forall_eq_or_imp, forall_eq, Nd.last, and_self, if_true, List.headD, Option.some.injEq, hN, if_false]
  refine ⟨_, rfl, rfl, fun i j => ⟨_, rfl, ?_⟩⟩
  simp [Nd.point, Gps.spaceRow, ptAt, hs]

/-- Two image points with two planes; a camera with different slopes in a row. -/
example : ∃ (points v : Nd), points.shape = [2, 2] ∧ v.shape = [2] := ⟨⟨[2, 2], fun _ => .fin 0⟩, ⟨[2], fun _ => .fin 0⟩, rfl, rfl⟩

example : ∃ (c : Camera.Cam) (points : Nd) (a b h z : ℝ), points.shape = [2, 3, 1] ∧
    Num.Is (Camera.getRay c (points.pixel [0, 0])).1.z h ∧ Num.Is (Camera.getRay c (points.pixel [0, 0])).2.z a ∧
    Num.Is (Camera.getRay c (points.pixel [2, 0])).2.z b ∧ a ≠ 0 ∧ b ≠ 0 ∧ a ≠ b ∧ z ≠ h ∧ 0 ≤ (z - h) / a := by
  let c : Camera.Cam := ⟨.rectilinear, ⟨1, 1, 0, 0, 5, 5⟩, .thr ⟨1, 90, 0, 0, 0, 0⟩, Camera.noDistortion⟩
  let points : Nd := ⟨[2, 3, 1], fun i => match i with
    | [0, _, _] => .fin 0
    | [_, 2, _] => .fin 2
    | _ => .fin 1⟩
  have d : ∀ (i : List ℕ) (p : V2 ℝ), points.pixel i = p.num → Num.Is (Camera.getRay c (points.pixel i)).2.z (-p.y) := by
    intro i p hp
    obtain ⟨s, -, h1, -, h2⟩ := Camera.getRay_dir c (by norm_num [c]) (by norm_num [c]) (n := points.pixel i) (p := p)
      (by rw [hp]; exact V2.is_num p) false
    rw [h1 rfl] at h2
    refine h2.2.2.congr ?_
    have h90 : Spatial.rad 90 = Real.pi / 2 := by unfold Spatial.rad; ring
    have h0 : Spatial.rad 0 = 0 := by unfold Spatial.rad; ring
    have hw : Spatial.wrap360 0 = 0 := by unfold Spatial.wrap360; norm_num
    simp [c, Camera.dirR, Projection.rayR, Camera.Orient.mat, Spatial.initCameraMatrix, Spatial.matrices, Spatial.rotation, Spatial.R_roll, Spatial.R_tilt, Spatial.R_head, h0, hw, M3.mul, M3.rowMul, M3.applyR, M3.T, V3.dot, h90, V3.mulS]
  refine ⟨c, points, -1, -2, 1, 0, rfl, (Camera.getRay_offset c _ false).2.2, d [0, 0] ⟨0, 1⟩ rfl, d [2, 0] ⟨0, 2⟩ rfl, ?_⟩
  norm_num
