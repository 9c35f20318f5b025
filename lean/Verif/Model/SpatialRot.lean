import Verif.Model.Algebra
import Verif.Model.Trig

/-!
# Rotations about the coordinate axes and inverse trigonometric functions

The rest of `/repo/src/ring/spatial.py`, and `safe_arccos`, `safe_arcsin`, `unit_quats_like` of
`/repo/src/ring/maths.py`.

* `jnp.arccos` and `jnp.arcsin` are the functions of Mathlib, which agree with them on `[-1, 1]`.
* A function with `custom_jvp` is a pair: its values, and what it returns when it is differentiated, the value
  and the tangent.
-/

namespace RingLib
namespace spatial
open Real

/-- `/repo/src/ring/spatial.py:13-24` `rx`. -/
noncomputable def rx (theta : ℝ) : Mat3 ℝ :=
  let s := sin theta
  let c := cos theta
  ⟨1, 0, 0, 0, c, s, 0, -s, c⟩

/-- `/repo/src/ring/spatial.py:27-38` `ry`. -/
noncomputable def ry (theta : ℝ) : Mat3 ℝ :=
  let s := sin theta
  let c := cos theta
  ⟨c, 0, -s, 0, 1, 0, s, 0, c⟩

/-- `/repo/src/ring/spatial.py:41-52` `rz`. -/
noncomputable def rz (theta : ℝ) : Mat3 ℝ :=
  let s := sin theta
  let c := cos theta
  ⟨c, s, 0, -s, c, 0, 0, 0, 1⟩

/-- `/repo/src/ring/spatial.py:86-87` `rotx`. -/
noncomputable def rotx (theta : ℝ) : Mat6 ℝ := _rotxyz (rx theta)

/-- `/repo/src/ring/spatial.py:90-91` `roty`. -/
noncomputable def roty (theta : ℝ) : Mat6 ℝ := _rotxyz (ry theta)

/-- `/repo/src/ring/spatial.py:94-95` `rotz`. -/
noncomputable def rotz (theta : ℝ) : Mat6 ℝ := _rotxyz (rz theta)

/-- `/repo/src/ring/spatial.py:115-126` `XtoV`: an array of shape `(6, 1)` -/
noncomputable def XtoV (X : Mat6 ℝ) : List (List ℝ) :=
  [[0.5 * (X.aa.a12 - X.aa.a21)],
   [0.5 * (X.aa.a20 - X.aa.a02)],
   [0.5 * (X.aa.a01 - X.aa.a10)],
   [0.5 * (X.ba.a12 - X.ba.a21)],
   [0.5 * (X.ba.a20 - X.ba.a02)],
   [0.5 * (X.ba.a01 - X.ba.a10)]]

end spatial

namespace maths
open Real

/-- `jnp.clip(x, -1 + 1e-7, 1 - 1e-7)` -/
noncomputable def clip1 (x : ℝ) : ℝ := max (-1 + 1e-7) (min x (1 - 1e-7))

/-- `/repo/src/ring/maths.py:53-56` `safe_arccos`. -/
noncomputable def safe_arccos (x : ℝ) : ℝ := arccos x

/-- `/repo/src/ring/maths.py:59-65` `_safe_arccos_jvp`. -/
noncomputable def _safe_arccos_jvp (x x_dot : ℝ) : ℝ × ℝ :=
  (safe_arccos x, -x_dot / √(1 - clip1 x ^ 2))

/-- `/repo/src/ring/maths.py:68-71` `safe_arcsin`. -/
noncomputable def safe_arcsin (x : ℝ) : ℝ := arcsin x

/-- `/repo/src/ring/maths.py:74-80` `_safe_arcsin_jvp`. -/
noncomputable def _safe_arcsin_jvp (x x_dot : ℝ) : ℝ × ℝ :=
  (safe_arccos x, x_dot / √(1 - clip1 x ^ 2))

/-- The second angle of `quat_to_euler` when it is differentiated, `/repo/src/ring/maths.py:296`:
the value that is returned with the derivative. -/
noncomputable def quat_to_euler_y_jvp (q : Quat ℝ) (x_dot : ℝ) : ℝ × ℝ :=
  let q := quat_inv q
  _safe_arcsin_jvp (max (-1) (min (2 * q.x * q.z + 2 * q.w * q.y) 1)) x_dot

/-- `/repo/src/ring/maths.py:93-98` `unit_quats_like` for an array of shape `(n, k)`. -/
def unit_quats_like {R : Type*} [Zero R] [One R] (array : List (List R)) (k : Nat) :
    Option (List (Quat R)) :=
  if k ≠ 4 then none else some (array.map fun _ => unitQuat)

end maths
end RingLib
