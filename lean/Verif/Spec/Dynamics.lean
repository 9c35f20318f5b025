import Mathlib.Algebra.BigOperators.Group.Finset.Basic
import Verif.Spec.Kinematics
import Verif.Spec.Quat

/-! # Specification vocabulary for dynamics -/

namespace RingLib
variable {α π : Type}

/-- Every joint has as many motion axes as its type has velocity coordinates. -/
def JEnv.MotionWidths (E : JEnv α π) : Prop :=
  ∀ t jm, E.joints t = some jm → E.dw t = some jm.motion.length

/-- The motion axes of link `i`. -/
def System.axesAt (E : JEnv α π) (s : System α π) (i : Nat) : List (Motion α) :=
  ((E.joints (s.link_types.getD i "")).bind fun jm => (s.jointParam i).map fun p =>
    jm.motion.map fun m => m p).getD []

/-- transform from the parent of link `i` to link `i` -/
def System.linkT [Zero α] [One α] (s : System α π) (i : Nat) : Transform α :=
  (s.links[i]?.map LinkRow.transform).getD .zero

/-- inertia of link `i` -/
def System.linkI [Zero α] (s : System α π) (i : Nat) : Inertia α :=
  (s.links[i]?.map LinkRow.inertia).getD .zero

/-- What the dynamics algorithms need: a well-formed system with known joints, whose transforms
are rigid. -/
structure System.Dynamic [Field α] (E : JEnv α π) (s : System α π) : Prop where
  wf : s.WF E.toEnv
  jointed : s.Jointed E
  widths : E.MotionWidths
  unit : ∀ l ∈ s.links, l.transform.rot.normSq = 1
  geoms_unit : ∀ g ∈ s.geoms, g.transform.rot.normSq = 1

/-- `v` are the velocities of the links (in link coordinates) when the joints move with the
velocities `u`: velocity of the parent, seen from the link, plus the motion in the joint. -/
def System.IsLinkVel [Field α] (E : JEnv α π) (s : System α π) (u : List α)
    (v : Nat → Motion α) : Prop :=
  ∀ i (h : i < s.link_parents.length), v i =
    (if s.link_parents[i] = -1 then ⟨0, 0⟩
      else algebra.transform_motion (s.linkT i) (v s.link_parents[i].toNat)) +
    ((s.axesAt E i).zipWith (fun ax c => Motion.smul c ax)
      (ownSlice E.dw s.link_types u i)).foldr (· + ·) ⟨0, 0⟩

/-- motion in the joint of link `i` for joint velocities (or accelerations) `u` -/
def System.jointMotion [Field α] (E : JEnv α π) (s : System α π) (u : List α) (i : Nat) :
    Motion α :=
  ((s.axesAt E i).zipWith (fun ax c => Motion.smul c ax)
    (ownSlice E.dw s.link_types u i)).foldr (· + ·) ⟨0, 0⟩

/-- The Newton-Euler equations of the tree of links, in link coordinates: velocities `v`,
accelerations `a` (the world accelerates with `gravity`, which stands for the gravitational pull),
forces `f` transmitted by the joints, and joint torques `tau`. -/
structure System.IsNewtonEuler [Field α] (E : JEnv α π) (s : System α π) (qd qdd : List α)
    (v a : Nat → Motion α) (f : Nat → Force α) (tau : List α) : Prop where
  vel : s.IsLinkVel E qd v
  acc : ∀ i (h : i < s.link_parents.length), a i =
    algebra.transform_motion (s.linkT i)
      (if s.link_parents[i] = -1 then ⟨0, s.gravity⟩ else a s.link_parents[i].toNat) +
    s.jointMotion E qdd i + algebra.motion_cross (v i) (s.jointMotion E qd i)
  /-- rate of change of the momentum, plus what the children pull -/
  force : ∀ i, i < s.link_parents.length → f i =
    algebra.inertia_mul_motion (s.linkI i) (a i) +
    algebra.motion_cross_star (v i) (algebra.inertia_mul_motion (s.linkI i) (v i)) +
    ((List.range s.link_parents.length).filter fun c =>
        s.link_parents.getD c (-1) = (i : Int)).foldr
      (fun c F => algebra.transform_force (algebra.transform_inv (s.linkT c)) (f c) + F) ⟨0, 0⟩
  /-- every torque is the force along its axis -/
  torque : ∀ i, i < s.link_types.length →
    ownSlice E.dw s.link_types tau i = (s.axesAt E i).map fun ax => algebra.motion_dot ax (f i)

/-- The coordinates of every joint with a quaternion (free, cor, spherical) start with a unit
quaternion. -/
def System.UnitQ (E : JEnv ℝ π) (s : System ℝ π) (q : List ℝ) : Prop :=
  ∀ i (h : i < s.link_types.length),
    System.joint_type_is_free_or_cor_or_spherical s.link_types[i] = true →
    let c := ownSlice E.qw s.link_types q i
    c.getD 0 0 ^ 2 + c.getD 1 0 ^ 2 + c.getD 2 0 ^ 2 + c.getD 3 0 ^ 2 = 1

/-- What simulation needs: a well-formed system of built-in joints with rigid transforms. -/
structure System.Simulable (E : JEnv ℝ π) (s : System ℝ π) : Prop where
  wf : s.WF E.toEnv
  default : "default" ∈ s.joint_params.map (·.1)
  widths : E.MotionWidths
  builtin : s.JointsIn fun _ => True
  nonempty : 0 < s.link_parents.length
  unit : ∀ l ∈ s.links, l.transform1.rot.normSq = 1
  geoms_unit : ∀ g ∈ s.geoms, g.transform.rot.normSq = 1
  method : s.integration_method.toLower = "semi_implicit_euler"

end RingLib
