import Verif.Model.Dynamics
import Verif.Model.Sensors

/-!
# The IMU on a spring, simulated by the physics engine

`_quasi_physical_simulation_beautiful` of `/repo/src/ring/algorithms/sensors.py`. The system that is read from the
constant string is written down as the value that reading it gives (the reading itself is modelled in `Model/Xml.lean`).
-/

namespace RingLib
namespace sensors
open maths System

/-- `/repo/src/ring/algorithms/sensors.py:502` the geometry of `_quasi_physical_sys_str` -/
noncomputable def qpGeoms : List (Geometry ℝ) := [⟨2 / 1000, .zero, 0, .box (1 / 100) (1 / 100) (1 / 100), none, none⟩]

/-- `/repo/src/ring/algorithms/sensors.py:497-506,512` the system of `_quasi_physical_sys_str` with the given `dt`.
No `pos`, no rotation, no `armature` and no `spring_zero` is written, so all are zero
(`/repo/src/ring/io/xml/abstract.py:11-46`). -/
noncomputable def qpSys (dt : ℝ) : System ℝ Unit where
  link_parents := [-1]
  links := [⟨.zero, 0, 0, compute_inertia_per_link Real.pi qpGeoms 0, .zero, .zero⟩]
  joint_params := [("default", [()])]
  link_types := ["p3d"]
  link_damping := [1 / 10, 1 / 10, 1 / 10]
  link_armature := [0, 0, 0]
  link_spring_stiffness := [3, 3, 3]
  link_spring_zeropoint := [0, 0, 0]
  dt := dt
  geoms := qpGeoms
  gravity := 0
  integration_method := "semi_implicit_euler"
  mass_mat_iters := 0
  link_names := ["IMU"]
  model_name := none
  omc := [none]

/-- the array of a position -/
def posList (p : Vec3 ℝ) : List ℝ := [p.x, p.y, p.z]

/-- `/repo/src/ring/algorithms/sensors.py:514-516,519` `step_dynamics` and its scan: the zero point of the spring is the
next position of the motion -/
noncomputable def qpBeautifulScan {π : Type} (E : JEnv ℝ π) (s : System ℝ π) :
    State ℝ → List (Vec3 ℝ) → Py (List (List ℝ))
  | _, [] => .ok []
  | state, p :: ps => do
    let state ← step E { s with link_spring_zeropoint := posList p } state
    let rest ← qpBeautifulScan E s state ps
    pure (state.q :: rest)

/-- `/repo/src/ring/algorithms/sensors.py:509-520` `_quasi_physical_simulation_beautiful`; the orientations are passed
on unchanged and are left out. -/
noncomputable def _quasi_physical_simulation_beautiful (E : JEnv ℝ Unit) (pos : List (Vec3 ℝ)) (dt : ℝ) :
    Py (List (List ℝ)) :=
  match pos with
  | [] => .error .index
  | p0 :: _ => do
    let state ← State.create E (qpSys dt) (some (posList p0))
    qpBeautifulScan E (qpSys dt) state pos

end sensors
end RingLib
