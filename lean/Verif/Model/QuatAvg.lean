import Mathlib.LinearAlgebra.Matrix.Symmetric
import Mathlib.Data.Real.Basic
import Verif.Model.Trig

/-!
# Functions of several quaternions

`quat_angle_constantAxisOverTime` and `quat_avg` of `/repo/src/ring/maths.py`.

* `jnp.linalg.eigh` is a parameter: a function from matrices to eigenvalues and a matrix whose columns are
  eigenvectors.  What its documentation promises is `IsEigh` in `Verif/Props/QuatAvg.lean`.
-/

namespace RingLib
namespace maths
open Real

open Classical in
/-- The angle of one quaternion, given the axis of the first one, `/repo/src/ring/maths.py:252-256`. -/
noncomputable def angleAlong (convention : Vec3 ℝ) (q : Quat ℝ) : ℝ :=
  let axis := safe_normalize q.vec
  let angle := quat_angle q
  if norm3 (convention - axis) > norm3 (convention + axis) then -angle else angle

/-- `/repo/src/ring/maths.py:246-256` `quat_angle_constantAxisOverTime`. -/
noncomputable def quat_angle_constantAxisOverTime : List (Quat ℝ) → List ℝ
  | [] => []
  | q0 :: qs => (q0 :: qs).map (angleAlong (safe_normalize q0.vec))

/-- the components of a quaternion -/
def quatComp {R : Type*} (q : Quat R) : Fin 4 → R := ![q.w, q.x, q.y, q.z]

/-- `jnp.einsum("ij,ik,i->...jk", qs, qs, jnp.ones(n))`, `/repo/src/ring/maths.py:330` -/
noncomputable def outerSum (qs : List (Quat ℝ)) : Matrix (Fin 4) (Fin 4) ℝ :=
  fun j k => (qs.map fun q => quatComp q j * quatComp q k * 1).sum

/-- `/repo/src/ring/maths.py:324-331` `quat_avg`: the last column of the eigenvectors. -/
noncomputable def quat_avg
    (eigh : Matrix (Fin 4) (Fin 4) ℝ → (Fin 4 → ℝ) × Matrix (Fin 4) (Fin 4) ℝ) (qs : List (Quat ℝ)) : Quat ℝ :=
  let V := (eigh (outerSum qs)).2
  ⟨V 0 3, V 1 3, V 2 3, V 3 3⟩

end maths
end RingLib
