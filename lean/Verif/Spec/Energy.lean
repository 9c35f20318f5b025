import Mathlib.Data.Real.Basic
import Verif.Spec.Twist

/-! # Specification vocabulary for energies -/

namespace RingLib
open Finset

/-- potential energy of a body with the inertia `it` (of which mass and first moment count) in the pose `x`, in the
gravity `g` (which points upwards, as in the library): gravity times mass times height of the centre of mass -/
noncomputable def bodyPotential (g : Vec3 ℝ) (it : Inertia ℝ) (x : Transform ℝ) : ℝ :=
  g.dot (Vec3.smul it.mass x.pos + maths.rotate it.h (maths.quat_inv x.rot))

/-- potential energy of the links of a system in the poses `xs` -/
noncomputable def potential {π : Type} (s : System ℝ π) (xs : List (Transform ℝ)) : ℝ :=
  ∑ i ∈ range s.link_parents.length, bodyPotential s.gravity (s.linkI i) (poseAt xs i)

/-- energy of the springs at the coordinates `q` -/
noncomputable def elastic {π : Type} (s : System ℝ π) (q : List ℝ) : ℝ :=
  ∑ r ∈ range q.length, 1 / 2 * (s.link_spring_stiffness.getD r 0 * (s.link_spring_zeropoint.getD r 0 - q.getD r 0) ^ 2)

/-- what the regularisation of the mass matrix (the implicit damping and `1e-6`) adds to the kinetic energy -/
noncomputable def regularEnergy {π : Type} (s : System ℝ π) (u : List ℝ) : ℝ :=
  ∑ r ∈ range u.length, 1 / 2 * ((s.link_damping.getD r 0 * s.dt + 1e-6) * u.getD r 0 ^ 2)

/-- `m'` is the derivative of the motion `m` that depends on time -/
def Motion.HasDeriv (m : ℝ → Motion ℝ) (m' : Motion ℝ) (t : ℝ) : Prop :=
  Vec3.HasDeriv (fun τ => (m τ).ang) m'.ang t ∧ Vec3.HasDeriv (fun τ => (m τ).vel) m'.vel t

/-- joints whose coordinates are lengths and angles along resting axes -/
def Straight : jcalc.BuiltIn → Prop
  | .frozen | .p3d | .r _ | .p _ => True
  | _ => False

end RingLib
