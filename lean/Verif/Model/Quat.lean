import Verif.Model.Vec

/-!
# `/repo/src/ring/maths.py`, algebraic part

Everything here is exact polynomial (or rational) arithmetic, so it is stated over an arbitrary
commutative ring (or field).
-/

namespace RingLib
namespace maths

variable {R : Type*}

/-- `jnp.array([1.0, 0, 0, 0])`, see `/repo/src/ring/base.py:144` and `maths.py:93-98`. -/
def unitQuat [Zero R] [One R] : Quat R := ⟨1, 0, 0, 0⟩

/-- `jnp.dot(q, q)` as used in `/repo/src/ring/maths.py:179`. -/
def quat_dot [Add R] [Mul R] (p q : Quat R) : R :=
  p.w * q.w + p.x * q.x + p.y * q.y + p.z * q.z

/-- `/repo/src/ring/maths.py:101-112` `quat_mul`. -/
def quat_mul [Add R] [Sub R] [Mul R] (u v : Quat R) : Quat R :=
  ⟨u.w * v.w - u.x * v.x - u.y * v.y - u.z * v.z,
   u.w * v.x + u.x * v.w + u.y * v.z - u.z * v.y,
   u.w * v.y - u.x * v.z + u.y * v.w + u.z * v.x,
   u.w * v.z + u.x * v.y - u.y * v.x + u.z * v.w⟩

/-- `/repo/src/ring/maths.py:115-117` `quat_inv`: multiplication with `[1,-1,-1,-1]`. -/
def quat_inv [Ring R] (q : Quat R) : Quat R := ⟨q.w * 1, q.x * -1, q.y * -1, q.z * -1⟩

/-- `/repo/src/ring/maths.py:133-135` `rotate_quat`. -/
def rotate_quat [Ring R] (q quat : Quat R) : Quat R := quat_mul quat (quat_mul q (quat_inv quat))

/-- `/repo/src/ring/maths.py:120-124` `rotate`. -/
def rotate [Ring R] (v : Vec3 R) (quat : Quat R) : Vec3 R :=
  (rotate_quat ⟨0, v.x, v.y, v.z⟩ quat).vec

/-- `/repo/src/ring/maths.py:176-193` `quat_to_3x3`. -/
def quat_to_3x3 [Field R] (q : Quat R) : Mat3 R :=
  let d := quat_dot q q
  let s := 2 / d
  let xs := q.x * s; let ys := q.y * s; let zs := q.z * s
  let wx := q.w * xs; let wy := q.w * ys; let wz := q.w * zs
  let xx := q.x * xs; let xy := q.x * ys; let xz := q.x * zs
  let yy := q.y * ys; let yz := q.y * zs; let zz := q.z * zs
  ⟨1 - (yy + zz), xy - wz, xz + wy,
   xy + wz, 1 - (xx + zz), yz - wx,
   xz - wy, yz + wx, 1 - (xx + yy)⟩

/-- `/repo/src/ring/maths.py:127-130` `rotate_matrix`. -/
def rotate_matrix [Field R] (m : Mat3 R) (quat : Quat R) : Mat3 R :=
  let E := quat_to_3x3 quat
  (E.mul m).mul E.transpose

/-- `/repo/src/ring/maths.py:83-85` `ensure_positive_w`. -/
def ensure_positive_w [Zero R] [Neg R] [LT R] [DecidableLT R] (q : Quat R) : Quat R :=
  if q.w < 0 then -q else q

end maths
end RingLib
