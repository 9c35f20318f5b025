import Verif.Model.Vec

/-! Specification vocabulary for quaternions and matrices. -/

namespace RingLib
variable {R : Type*}

/-- squared Euclidean norm, written out -/
def Quat.normSq [Add R] [Mul R] (q : Quat R) : R := q.w * q.w + q.x * q.x + q.y * q.y + q.z * q.z

/-- a *unit* quaternion -/
def Quat.IsUnit [Add R] [Mul R] [One R] (q : Quat R) : Prop :=
  q.w * q.w + q.x * q.x + q.y * q.y + q.z * q.z = 1

/-- a proper rotation matrix: `A Aᵀ = 1`, `Aᵀ A = 1`, `det A = 1` -/
def Mat3.IsRotation [CommRing R] (A : Mat3 R) : Prop :=
  A.mul A.transpose = .eye ∧ A.transpose.mul A = .eye ∧ A.det = 1

end RingLib
