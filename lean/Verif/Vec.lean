import Verif.Num

/-! # Vectors and matrices used by the model -/

/-- A point or row with two coordinates. -/
@[ext] structure V2 (α : Type) where
  x : α
  y : α

/-- A point or row with three coordinates. -/
@[ext] structure V3 (α : Type) where
  x : α
  y : α
  z : α

namespace V2
/-- Componentwise numerical equality with a real vector. -/
def Is (p : V2 Num) (q : V2 ℝ) : Prop := Num.Is p.x q.x ∧ Num.Is p.y q.y
/-- A real vector as array of ideal IEEE numbers. -/
def num (p : V2 ℝ) : V2 Num := ⟨.fin p.x, .fin p.y⟩
/-- The row `(nan, nan)`. -/
def nan : V2 Num := ⟨.nan, .nan⟩
end V2

namespace V3
variable {α : Type}

/-- Componentwise numerical equality with a real vector. -/
def Is (p : V3 Num) (q : V3 ℝ) : Prop := Num.Is p.x q.x ∧ Num.Is p.y q.y ∧ Num.Is p.z q.z
/-- A real vector as array of ideal IEEE numbers. -/
def num (p : V3 ℝ) : V3 Num := ⟨.fin p.x, .fin p.y, .fin p.z⟩
/-- The row `(nan, nan, nan)`. -/
def nan : V3 Num := ⟨.nan, .nan, .nan⟩
/-- All components finite. -/
def Finite (p : V3 Num) : Prop := p.x.Finite ∧ p.y.Finite ∧ p.z.Finite

/-- Component by index 0, 1, 2 (`p[..., i]`). -/
def get (p : V3 α) : Fin 3 → α
  | 0 => p.x
  | 1 => p.y
  | 2 => p.z

/-- Componentwise map. -/
def map {β : Type} (f : α → β) (p : V3 α) : V3 β := ⟨f p.x, f p.y, f p.z⟩

instance [Add α] : Add (V3 α) := ⟨fun p q => ⟨p.x + q.x, p.y + q.y, p.z + q.z⟩⟩
instance [Sub α] : Sub (V3 α) := ⟨fun p q => ⟨p.x - q.x, p.y - q.y, p.z - q.z⟩⟩
instance [Neg α] : Neg (V3 α) := ⟨fun p => ⟨-p.x, -p.y, -p.z⟩⟩

/-- Multiplication of a row by a number, `p * s`. -/
def mulS [Mul α] (p : V3 α) (s : α) : V3 α := ⟨p.x * s, p.y * s, p.z * s⟩
/-- Division of a row by a number, `p / s`. -/
def divS [Div α] (p : V3 α) (s : α) : V3 α := ⟨p.x / s, p.y / s, p.z / s⟩
/-- Inner product. -/
def dot [Add α] [Mul α] (p q : V3 α) : α := p.x * q.x + p.y * q.y + p.z * q.z
/-- Cross product (`np.cross`). -/
def cross [Sub α] [Mul α] (p q : V3 α) : V3 α :=
  ⟨p.y * q.z - p.z * q.y, p.z * q.x - p.x * q.z, p.x * q.y - p.y * q.x⟩

@[simp] theorem add_x [Add α] (p q : V3 α) : (p + q).x = p.x + q.x := rfl
@[simp] theorem add_y [Add α] (p q : V3 α) : (p + q).y = p.y + q.y := rfl
@[simp] theorem add_z [Add α] (p q : V3 α) : (p + q).z = p.z + q.z := rfl
@[simp] theorem sub_x [Sub α] (p q : V3 α) : (p - q).x = p.x - q.x := rfl
@[simp] theorem sub_y [Sub α] (p q : V3 α) : (p - q).y = p.y - q.y := rfl
@[simp] theorem sub_z [Sub α] (p q : V3 α) : (p - q).z = p.z - q.z := rfl
@[simp] theorem neg_x [Neg α] (p : V3 α) : (-p).x = -p.x := rfl
@[simp] theorem neg_y [Neg α] (p : V3 α) : (-p).y = -p.y := rfl
@[simp] theorem neg_z [Neg α] (p : V3 α) : (-p).z = -p.z := rfl
@[simp] theorem mulS_x [Mul α] (p : V3 α) (s : α) : (p.mulS s).x = p.x * s := rfl
@[simp] theorem mulS_y [Mul α] (p : V3 α) (s : α) : (p.mulS s).y = p.y * s := rfl
@[simp] theorem mulS_z [Mul α] (p : V3 α) (s : α) : (p.mulS s).z = p.z * s := rfl
@[simp] theorem divS_x [Div α] (p : V3 α) (s : α) : (p.divS s).x = p.x / s := rfl
@[simp] theorem divS_y [Div α] (p : V3 α) (s : α) : (p.divS s).y = p.y / s := rfl
@[simp] theorem divS_z [Div α] (p : V3 α) (s : α) : (p.divS s).z = p.z / s := rfl
@[simp] theorem get_0 (p : V3 α) : p.get 0 = p.x := rfl
@[simp] theorem get_1 (p : V3 α) : p.get 1 = p.y := rfl
@[simp] theorem get_2 (p : V3 α) : p.get 2 = p.z := rfl

/-- `np.linalg.norm(p, axis=-1)` of a row. -/
noncomputable def normN (p : V3 Num) : Num := Num.sqrt (p.x * p.x + p.y * p.y + p.z * p.z)

/-- Squared Euclidean length of a real vector. -/
def normSq (p : V3 ℝ) : ℝ := p.x ^ 2 + p.y ^ 2 + p.z ^ 2
/-- Euclidean length of a real vector. -/
noncomputable def norm (p : V3 ℝ) : ℝ := Real.sqrt p.normSq
/-- Euclidean distance of two real points. -/
noncomputable def dist (p q : V3 ℝ) : ℝ := norm (p - q)
end V3

/-- A real 3x3 matrix, by rows. -/
@[ext] structure M3 where
  r0 : V3 ℝ
  r1 : V3 ℝ
  r2 : V3 ℝ

namespace M3
/-- The identity matrix. -/
def one : M3 := ⟨⟨1, 0, 0⟩, ⟨0, 1, 0⟩, ⟨0, 0, 1⟩⟩
/-- Transpose (`A.T`). -/
def T (A : M3) : M3 := ⟨⟨A.r0.x, A.r1.x, A.r2.x⟩, ⟨A.r0.y, A.r1.y, A.r2.y⟩, ⟨A.r0.z, A.r1.z, A.r2.z⟩⟩
/-- Row times matrix, for real rows. -/
def rowMul (v : V3 ℝ) (B : M3) : V3 ℝ := ⟨v.dot B.T.r0, v.dot B.T.r1, v.dot B.T.r2⟩
/-- Matrix product (`np.dot(A, B)`). -/
def mul (A B : M3) : M3 := ⟨rowMul A.r0 B, rowMul A.r1 B, rowMul A.r2 B⟩
/-- Determinant. -/
def det (A : M3) : ℝ := A.r0.dot (A.r1.cross A.r2)
/-- `np.linalg.inv(A)`: the inverse by cofactors.  numpy raises `LinAlgError` for `det A = 0`; the
matrices the code inverts have determinant 1 (`det_rot` in `Verif/Proofs/Spatial.lean`). -/
noncomputable def inv (A : M3) : M3 :=
  let c0 := (A.r1.cross A.r2).divS A.det
  let c1 := (A.r2.cross A.r0).divS A.det
  let c2 := (A.r0.cross A.r1).divS A.det
  T ⟨c0, c1, c2⟩
/-- `np.dot(p, A.T)` for a row `p` of ideal IEEE numbers: the matrix applied to the point. -/
noncomputable def apply (A : M3) (p : V3 Num) : V3 Num :=
  ⟨p.dot A.r0.num, p.dot A.r1.num, p.dot A.r2.num⟩
/-- The matrix applied to a real point. -/
def applyR (A : M3) (p : V3 ℝ) : V3 ℝ := ⟨p.dot A.r0, p.dot A.r1, p.dot A.r2⟩
end M3
