import Mathlib.Analysis.SpecialFunctions.Complex.Arg
import Mathlib.Analysis.SpecialFunctions.Trigonometric.Inverse
import Verif.Model.Quat

/-!
# `/repo/src/ring/maths.py`, the part with square roots and trigonometric functions

Over the real numbers. `jnp.arctan2(y, x)` is the argument of the complex number `x + iy` (the sign
of a floating point zero is not modelled). `jnp.isclose(x, 0.0)` with the default tolerances is
`|x| ≤ 1e-8`.
-/

namespace RingLib
namespace maths
open Real

/-- `jnp.arctan2(y, x)` -/
noncomputable def atan2 (y x : ℝ) : ℝ := Complex.arg ⟨x, y⟩

/-- python's `x % m` for `m > 0` -/
noncomputable def pyMod (x m : ℝ) : ℝ := x - m * ⌊x / m⌋

/-- `/repo/src/ring/maths.py:9-11` `wrap_to_pi`. -/
noncomputable def wrap_to_pi (phi : ℝ) : ℝ := pyMod (phi + π) (2 * π) - π

/-- `jnp.isclose(x, 0.0)` -/
def isclose0 (x : ℝ) : Prop := |x| ≤ 1e-8

/-- `jnp.allclose(v, 0.0)` for three components -/
def allclose0 (v : Vec3 ℝ) : Prop := isclose0 v.x ∧ isclose0 v.y ∧ isclose0 v.z

/-- `jnp.linalg.norm` of three components -/
noncomputable def norm3 (v : Vec3 ℝ) : ℝ := √(v.x ^ 2 + v.y ^ 2 + v.z ^ 2)

open Classical in
/-- `/repo/src/ring/maths.py:25-36` `safe_norm` of three components. -/
noncomputable def safe_norm (v : Vec3 ℝ) : ℝ := if allclose0 v then 0 else norm3 v

open Classical in
/-- `/repo/src/ring/maths.py:39-50` `safe_normalize` of three components. -/
noncomputable def safe_normalize (v : Vec3 ℝ) : Vec3 ℝ :=
  if allclose0 v then 0 else ⟨v.x / safe_norm v, v.y / safe_norm v, v.z / safe_norm v⟩

/-- `jnp.allclose(q, 0.0)` for four components -/
def allclose0' (q : Quat ℝ) : Prop := isclose0 q.w ∧ isclose0 q.x ∧ isclose0 q.y ∧ isclose0 q.z

/-- `jnp.linalg.norm` of four components -/
noncomputable def norm4 (q : Quat ℝ) : ℝ := √(q.w ^ 2 + q.x ^ 2 + q.y ^ 2 + q.z ^ 2)

open Classical in
/-- `/repo/src/ring/maths.py:39-50` `safe_normalize` of four components. -/
noncomputable def safe_normalize4 (q : Quat ℝ) : Quat ℝ :=
  if allclose0' q then ⟨0, 0, 0, 0⟩
  else ⟨q.w / norm4 q, q.x / norm4 q, q.y / norm4 q, q.z / norm4 q⟩

/-- `/repo/src/ring/maths.py:138-163` `quat_rot_axis`. -/
noncomputable def quat_rot_axis (axis : Vec3 ℝ) (angle : ℝ) : Quat ℝ :=
  let axis := safe_normalize axis
  let angle := angle * -1
  let s := sin (angle / 2)
  let c := cos (angle / 2)
  ⟨c, axis.x * s, axis.y * s, axis.z * s⟩

/-- `/repo/src/ring/maths.py:166-173` `quat_from_3x3`. -/
noncomputable def quat_from_3x3 (m : Mat3 ℝ) : Quat ℝ :=
  let w := √(1 + m.a00 + m.a11 + m.a22) / 2
  ⟨w, (m.a21 - m.a12) / (w * 4), (m.a02 - m.a20) / (w * 4), (m.a10 - m.a01) / (w * 4)⟩

/-- `/repo/src/ring/maths.py:239-243` `quat_angle`. -/
noncomputable def quat_angle (q : Quat ℝ) : ℝ := wrap_to_pi (2 * atan2 (safe_norm q.vec) q.w)

/-- `/repo/src/ring/maths.py:88-90` `angle_error`. -/
noncomputable def angle_error (q qhat : Quat ℝ) : ℝ := |quat_angle (quat_mul (quat_inv q) qhat)|

/-- `/repo/src/ring/maths.py:259-266` `quat_to_rot_axis`. -/
noncomputable def quat_to_rot_axis (q : Quat ℝ) : Vec3 ℝ × ℝ :=
  (safe_normalize q.vec, quat_angle q * -1)

/-- the letters of a rotation convention -/
inductive Axis | x | y | z
deriving DecidableEq, Repr

/-- `axes_map`, `/repo/src/ring/maths.py:217-225`. -/
def Axis.unit {R : Type*} [Zero R] [One R] : Axis → Vec3 R
  | .x => ⟨1, 0, 0⟩
  | .y => ⟨0, 1, 0⟩
  | .z => ⟨0, 0, 1⟩

/-- `/repo/src/ring/maths.py:212-236` `quat_euler`. -/
noncomputable def quat_euler (angles : Vec3 ℝ) (intrinsic : Bool := true)
    (convention : Axis × Axis × Axis := (.z, .y, .x)) : Quat ℝ :=
  let q1 := quat_rot_axis convention.1.unit angles.x
  let q2 := quat_rot_axis convention.2.1.unit angles.y
  let q3 := quat_rot_axis convention.2.2.unit angles.z
  if intrinsic then quat_mul q3 (quat_mul q2 q1) else quat_mul q1 (quat_mul q2 q3)

/-- `/repo/src/ring/maths.py:269-280` `euler_to_quat`. -/
noncomputable def euler_to_quat (angles : Vec3 ℝ) : Quat ℝ :=
  let c1 := cos (angles.x / 2); let c2 := cos (angles.y / 2); let c3 := cos (angles.z / 2)
  let s1 := sin (angles.x / 2); let s2 := sin (angles.y / 2); let s3 := sin (angles.z / 2)
  let w := c1 * c2 * c3 - s1 * s2 * s3
  let x := s1 * c2 * c3 + c1 * s2 * s3
  let y := c1 * s2 * c3 - s1 * c2 * s3
  let z := c1 * c2 * s3 + s1 * s2 * c3
  quat_inv ⟨w, x, y, z⟩

/-- `/repo/src/ring/maths.py:283-302` `quat_to_euler`. -/
noncomputable def quat_to_euler (q : Quat ℝ) : Vec3 ℝ :=
  let q := quat_inv q
  let z := atan2 (-2 * q.x * q.y + 2 * q.w * q.z)
    (q.x * q.x + q.w * q.w - q.z * q.z - q.y * q.y)
  let y := arcsin (max (-1) (min (2 * q.x * q.z + 2 * q.w * q.y) 1))
  let x := atan2 (-2 * q.y * q.z + 2 * q.w * q.x)
    (q.z * q.z - q.y * q.y - q.x * q.x + q.w * q.w)
  ⟨x, y, z⟩

/-- `/repo/src/ring/maths.py:305-321` `quat_project`. -/
noncomputable def quat_project (q : Quat ℝ) (k : Vec3 ℝ) : Quat ℝ × Quat ℝ :=
  let phi_pri := 2 * atan2 (q.vec.dot k) q.w
  let q_pri := quat_rot_axis k (-phi_pri)
  let q_res := quat_mul q (quat_inv q_pri)
  (q_pri, q_res)

/-- `/repo/src/ring/maths.py:393-397` `quat_transfer_heading`. -/
noncomputable def quat_transfer_heading (q_from q_to : Quat ℝ) : Quat ℝ :=
  let heading := (quat_project q_from ⟨0, 0, 1⟩).1
  let q_to := (quat_project q_to ⟨0, 0, 1⟩).2
  quat_mul q_to heading

/-- `/repo/src/ring/maths.py:383-385` `quat_inclinationAngle`. -/
noncomputable def quat_inclinationAngle (q : Quat ℝ) : ℝ := quat_angle (quat_project q ⟨0, 0, 1⟩).2
/-- `/repo/src/ring/maths.py:388-390` `quat_headingAngle`. -/
noncomputable def quat_headingAngle (q : Quat ℝ) : ℝ := quat_angle (quat_project q ⟨0, 0, 1⟩).1

end maths
end RingLib
