import Verif.Model.Dynamics
import Mathlib.Data.Real.Basic

/-!
# Specification: a system in another unit of time
-/

namespace RingLib
open _root_.RingLib.System

/-- the same system in a unit of time that is `k` times as long -/
noncomputable def System.tempo {π' : Type} (k : ℝ) (s : System ℝ π') : System ℝ π' :=
  { s with
    gravity := .smul (k * k) s.gravity
    dt := s.dt / k
    link_damping := s.link_damping.map (k * ·)
    link_spring_stiffness := s.link_spring_stiffness.map (k * k * ·) }

/-- the same state in a unit of time that is `k` times as long -/
noncomputable def System.State.tempo (k : ℝ) (st : State ℝ) : State ℝ := { st with qd := st.qd.map (k * ·) }

/-- none of the joints has a quaternion -/
def System.NoQuat {π' : Type} (s : System ℝ π') : Prop :=
  ∀ t ∈ s.link_types, joint_type_is_free_or_cor_or_spherical t = false

end RingLib
