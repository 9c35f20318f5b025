import Mathlib.Algebra.Ring.Basic
import Mathlib.Algebra.Field.Basic
import Mathlib.Tactic.Ring
import Mathlib.Tactic.LinearCombination

/-!
# Fixed-size arrays

`jnp` arrays of shape `(3,)`, `(4,)`, `(3,3)`, `(6,)`, `(6,6)` as they occur in
`/repo/src/ring/{maths,algebra,spatial,base}.py`, with entries in an arbitrary type `R`
(exact arithmetic; floating point rounding is not modelled).  A `(6,6)` array is stored as its
four `(3,3)` quadrants, exactly how `spatial.quadrants` assembles it.
-/

namespace RingLib

/-- An array of shape `(3,)`. -/
@[ext] structure Vec3 (R : Type*) where
  x : R
  y : R
  z : R
deriving DecidableEq, Repr

/-- An array of shape `(4,)` used as quaternion, scalar part first
(`/repo/src/ring/maths.py` convention). -/
@[ext] structure Quat (R : Type*) where
  w : R
  x : R
  y : R
  z : R
deriving DecidableEq, Repr

/-- An array of shape `(3,3)`; `a01` is row 0, column 1. -/
@[ext] structure Mat3 (R : Type*) where
  a00 : R
  a01 : R
  a02 : R
  a10 : R
  a11 : R
  a12 : R
  a20 : R
  a21 : R
  a22 : R
deriving DecidableEq, Repr

/-- An array of shape `(6,)` as two halves (`v[:3]`, `v[3:]`). -/
@[ext] structure Vec6 (R : Type*) where
  fst : Vec3 R
  snd : Vec3 R
deriving DecidableEq, Repr

/-- An array of shape `(6,6)` as four `(3,3)` quadrants. -/
@[ext] structure Mat6 (R : Type*) where
  aa : Mat3 R
  ab : Mat3 R
  ba : Mat3 R
  bb : Mat3 R
deriving DecidableEq, Repr

variable {R : Type*}

namespace Vec3

def zero [Zero R] : Vec3 R := ⟨0, 0, 0⟩
def add [Add R] (a b : Vec3 R) : Vec3 R := ⟨a.x + b.x, a.y + b.y, a.z + b.z⟩
def sub [Sub R] (a b : Vec3 R) : Vec3 R := ⟨a.x - b.x, a.y - b.y, a.z - b.z⟩
def neg [Neg R] (a : Vec3 R) : Vec3 R := ⟨-a.x, -a.y, -a.z⟩
/-- scalar times array -/
def smul [Mul R] (s : R) (a : Vec3 R) : Vec3 R := ⟨s * a.x, s * a.y, s * a.z⟩
/-- `a @ b` for two arrays of shape `(3,)` -/
def dot [Add R] [Mul R] (a b : Vec3 R) : R := a.x * b.x + a.y * b.y + a.z * b.z
/-- `jnp.cross(a, b)` -/
def cross [Sub R] [Mul R] (a b : Vec3 R) : Vec3 R :=
  ⟨a.y * b.z - a.z * b.y, a.z * b.x - a.x * b.z, a.x * b.y - a.y * b.x⟩

instance [Zero R] : Zero (Vec3 R) := ⟨zero⟩
instance [Add R] : Add (Vec3 R) := ⟨add⟩
instance [Sub R] : Sub (Vec3 R) := ⟨sub⟩
instance [Neg R] : Neg (Vec3 R) := ⟨neg⟩

section simps
@[simp] theorem zero_x [Zero R] : (0 : Vec3 R).x = 0 := rfl
@[simp] theorem zero_y [Zero R] : (0 : Vec3 R).y = 0 := rfl
@[simp] theorem zero_z [Zero R] : (0 : Vec3 R).z = 0 := rfl
@[simp] theorem add_x [Add R] (a b : Vec3 R) : (a + b).x = a.x + b.x := rfl
@[simp] theorem add_y [Add R] (a b : Vec3 R) : (a + b).y = a.y + b.y := rfl
@[simp] theorem add_z [Add R] (a b : Vec3 R) : (a + b).z = a.z + b.z := rfl
@[simp] theorem sub_x [Sub R] (a b : Vec3 R) : (a - b).x = a.x - b.x := rfl
@[simp] theorem sub_y [Sub R] (a b : Vec3 R) : (a - b).y = a.y - b.y := rfl
@[simp] theorem sub_z [Sub R] (a b : Vec3 R) : (a - b).z = a.z - b.z := rfl
@[simp] theorem neg_x [Neg R] (a : Vec3 R) : (-a).x = -a.x := rfl
@[simp] theorem neg_y [Neg R] (a : Vec3 R) : (-a).y = -a.y := rfl
@[simp] theorem neg_z [Neg R] (a : Vec3 R) : (-a).z = -a.z := rfl
@[simp] theorem smul_x [Mul R] (s : R) (a : Vec3 R) : (smul s a).x = s * a.x := rfl
@[simp] theorem smul_y [Mul R] (s : R) (a : Vec3 R) : (smul s a).y = s * a.y := rfl
@[simp] theorem smul_z [Mul R] (s : R) (a : Vec3 R) : (smul s a).z = s * a.z := rfl
@[simp] theorem cross_x [Sub R] [Mul R] (a b : Vec3 R) :
    (cross a b).x = a.y * b.z - a.z * b.y := rfl
@[simp] theorem cross_y [Sub R] [Mul R] (a b : Vec3 R) :
    (cross a b).y = a.z * b.x - a.x * b.z := rfl
@[simp] theorem cross_z [Sub R] [Mul R] (a b : Vec3 R) :
    (cross a b).z = a.x * b.y - a.y * b.x := rfl
end simps

instance [AddCommGroup R] : AddCommGroup (Vec3 R) where
  add_assoc a b c := by ext <;> simp [add_assoc]
  zero_add a := by ext <;> simp
  add_zero a := by ext <;> simp
  neg_add_cancel a := by ext <;> simp
  add_comm a b := by ext <;> simp [add_comm]
  sub_eq_add_neg a b := by ext <;> simp [sub_eq_add_neg]
  nsmul := nsmulRec
  zsmul := zsmulRec

end Vec3

namespace Quat

def neg [Neg R] (a : Quat R) : Quat R := ⟨-a.w, -a.x, -a.y, -a.z⟩
instance [Neg R] : Neg (Quat R) := ⟨neg⟩
@[simp] theorem neg_w [Neg R] (a : Quat R) : (-a).w = -a.w := rfl
@[simp] theorem neg_x [Neg R] (a : Quat R) : (-a).x = -a.x := rfl
@[simp] theorem neg_y [Neg R] (a : Quat R) : (-a).y = -a.y := rfl
@[simp] theorem neg_z [Neg R] (a : Quat R) : (-a).z = -a.z := rfl

/-- `q[1:]` -/
def vec (q : Quat R) : Vec3 R := ⟨q.x, q.y, q.z⟩
@[simp] theorem vec_x (q : Quat R) : q.vec.x = q.x := rfl
@[simp] theorem vec_y (q : Quat R) : q.vec.y = q.y := rfl
@[simp] theorem vec_z (q : Quat R) : q.vec.z = q.z := rfl

end Quat

namespace Mat3

def zero [Zero R] : Mat3 R := ⟨0, 0, 0, 0, 0, 0, 0, 0, 0⟩
/-- `jnp.eye(3)` -/
def eye [Zero R] [One R] : Mat3 R := ⟨1, 0, 0, 0, 1, 0, 0, 0, 1⟩
/-- `jnp.diag(jnp.array([a, b, c]))` -/
def diag [Zero R] (a b c : R) : Mat3 R := ⟨a, 0, 0, 0, b, 0, 0, 0, c⟩
def add [Add R] (a b : Mat3 R) : Mat3 R :=
  ⟨a.a00 + b.a00, a.a01 + b.a01, a.a02 + b.a02, a.a10 + b.a10, a.a11 + b.a11, a.a12 + b.a12,
   a.a20 + b.a20, a.a21 + b.a21, a.a22 + b.a22⟩
def sub [Sub R] (a b : Mat3 R) : Mat3 R :=
  ⟨a.a00 - b.a00, a.a01 - b.a01, a.a02 - b.a02, a.a10 - b.a10, a.a11 - b.a11, a.a12 - b.a12,
   a.a20 - b.a20, a.a21 - b.a21, a.a22 - b.a22⟩
def neg [Neg R] (a : Mat3 R) : Mat3 R :=
  ⟨-a.a00, -a.a01, -a.a02, -a.a10, -a.a11, -a.a12, -a.a20, -a.a21, -a.a22⟩
def smul [Mul R] (s : R) (a : Mat3 R) : Mat3 R :=
  ⟨s * a.a00, s * a.a01, s * a.a02, s * a.a10, s * a.a11, s * a.a12,
   s * a.a20, s * a.a21, s * a.a22⟩
/-- `A @ B` -/
def mul [Add R] [Mul R] (a b : Mat3 R) : Mat3 R :=
  ⟨a.a00 * b.a00 + a.a01 * b.a10 + a.a02 * b.a20,
   a.a00 * b.a01 + a.a01 * b.a11 + a.a02 * b.a21,
   a.a00 * b.a02 + a.a01 * b.a12 + a.a02 * b.a22,
   a.a10 * b.a00 + a.a11 * b.a10 + a.a12 * b.a20,
   a.a10 * b.a01 + a.a11 * b.a11 + a.a12 * b.a21,
   a.a10 * b.a02 + a.a11 * b.a12 + a.a12 * b.a22,
   a.a20 * b.a00 + a.a21 * b.a10 + a.a22 * b.a20,
   a.a20 * b.a01 + a.a21 * b.a11 + a.a22 * b.a21,
   a.a20 * b.a02 + a.a21 * b.a12 + a.a22 * b.a22⟩
/-- `A.T` -/
def transpose (a : Mat3 R) : Mat3 R :=
  ⟨a.a00, a.a10, a.a20, a.a01, a.a11, a.a21, a.a02, a.a12, a.a22⟩
/-- `A @ v` -/
def mulVec [Add R] [Mul R] (a : Mat3 R) (v : Vec3 R) : Vec3 R :=
  ⟨a.a00 * v.x + a.a01 * v.y + a.a02 * v.z,
   a.a10 * v.x + a.a11 * v.y + a.a12 * v.z,
   a.a20 * v.x + a.a21 * v.y + a.a22 * v.z⟩
/-- determinant; only used in specifications -/
def det [Add R] [Sub R] [Mul R] (a : Mat3 R) : R :=
  a.a00 * (a.a11 * a.a22 - a.a12 * a.a21) - a.a01 * (a.a10 * a.a22 - a.a12 * a.a20)
    + a.a02 * (a.a10 * a.a21 - a.a11 * a.a20)

instance [Zero R] : Zero (Mat3 R) := ⟨zero⟩
instance [Add R] : Add (Mat3 R) := ⟨add⟩
instance [Sub R] : Sub (Mat3 R) := ⟨sub⟩
instance [Neg R] : Neg (Mat3 R) := ⟨neg⟩

theorem zero_def [Zero R] : (0 : Mat3 R) = ⟨0, 0, 0, 0, 0, 0, 0, 0, 0⟩ := rfl
theorem add_def [Add R] (a b : Mat3 R) : a + b =
  ⟨a.a00 + b.a00, a.a01 + b.a01, a.a02 + b.a02, a.a10 + b.a10, a.a11 + b.a11, a.a12 + b.a12,
   a.a20 + b.a20, a.a21 + b.a21, a.a22 + b.a22⟩ := rfl
theorem sub_def [Sub R] (a b : Mat3 R) : a - b =
  ⟨a.a00 - b.a00, a.a01 - b.a01, a.a02 - b.a02, a.a10 - b.a10, a.a11 - b.a11, a.a12 - b.a12,
   a.a20 - b.a20, a.a21 - b.a21, a.a22 - b.a22⟩ := rfl
theorem neg_def [Neg R] (a : Mat3 R) : -a =
  ⟨-a.a00, -a.a01, -a.a02, -a.a10, -a.a11, -a.a12, -a.a20, -a.a21, -a.a22⟩ := rfl

instance [AddCommGroup R] : AddCommGroup (Mat3 R) where
  add_assoc a b c := by ext <;> simp [add_def, add_assoc]
  zero_add a := by ext <;> simp [add_def, zero_def]
  add_zero a := by ext <;> simp [add_def, zero_def]
  neg_add_cancel a := by ext <;> simp [add_def, neg_def, zero_def]
  add_comm a b := by ext <;> simp [add_def, add_comm]
  sub_eq_add_neg a b := by ext <;> simp [add_def, neg_def, sub_def, sub_eq_add_neg]
  nsmul := nsmulRec
  zsmul := zsmulRec

end Mat3

namespace Vec6
def add [Add R] (a b : Vec6 R) : Vec6 R := ⟨a.fst + b.fst, a.snd + b.snd⟩
instance [Add R] : Add (Vec6 R) := ⟨add⟩
/-- `a @ b` for two arrays of shape `(6,)` -/
def dot [Add R] [Mul R] (a b : Vec6 R) : R := a.fst.dot b.fst + a.snd.dot b.snd
end Vec6

namespace Mat6
/-- `A @ B` by quadrants -/
def mul [Add R] [Mul R] (a b : Mat6 R) : Mat6 R :=
  ⟨a.aa.mul b.aa + a.ab.mul b.ba, a.aa.mul b.ab + a.ab.mul b.bb,
   a.ba.mul b.aa + a.bb.mul b.ba, a.ba.mul b.ab + a.bb.mul b.bb⟩
/-- `A @ v` by quadrants -/
def mulVec [Add R] [Mul R] (a : Mat6 R) (v : Vec6 R) : Vec6 R :=
  ⟨a.aa.mulVec v.fst + a.ab.mulVec v.snd, a.ba.mulVec v.fst + a.bb.mulVec v.snd⟩
/-- `A.T` by quadrants -/
def transpose (a : Mat6 R) : Mat6 R :=
  ⟨a.aa.transpose, a.ba.transpose, a.ab.transpose, a.bb.transpose⟩
def neg [Neg R] (a : Mat6 R) : Mat6 R := ⟨-a.aa, -a.ab, -a.ba, -a.bb⟩
instance [Neg R] : Neg (Mat6 R) := ⟨neg⟩
end Mat6

end RingLib
