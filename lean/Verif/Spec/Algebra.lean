import Verif.Model.Algebra
import Verif.Spec.Quat

/-! Specification vocabulary for rigid transforms. -/

namespace RingLib
variable {R : Type*}

/-- A transform whose rotation part is a unit quaternion. -/
def Transform.IsUnit [Add R] [Mul R] [One R] (t : Transform R) : Prop := t.rot.IsUnit

/-- Meaning of a transform `A -> B`: coordinates in `B` of the point with coordinates `p` in `A`
(`/repo/src/ring/base.py:114-119`: "B is located relative to A at `pos` in frame A and `rot` is
the relative quaternion from A to B"). -/
def Transform.point [CommRing R] (t : Transform R) (p : Vec3 R) : Vec3 R :=
  maths.rotate (p - t.pos) t.rot

/-- A symmetric 3x3 matrix. -/
def Mat3.IsSymm (A : Mat3 R) : Prop := A.a01 = A.a10 ∧ A.a02 = A.a20 ∧ A.a12 = A.a21

end RingLib
