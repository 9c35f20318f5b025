import Verif.Spec.System
import Verif.Model.Jcalc

/-! # Specification vocabulary for kinematics -/

namespace RingLib
variable {α π : Type}

/-- The joint parameters that link `i` uses: those of its joint type, else the default ones. -/
def System.jointParam (s : System α π) (i : Nat) : Option π :=
  match s.joint_params.lookup (s.link_types.getD i "") with
  | some ps => ps[i]?
  | none => (s.joint_params.lookup "default").bind (·[i]?)

/-- Every joint type of the system has a joint model, and default parameters exist. -/
structure System.Jointed (E : JEnv α π) (s : System α π) : Prop where
  known : ∀ t ∈ s.link_types, ∃ jm, E.joints t = some jm
  default : "default" ∈ s.joint_params.map (·.1)

/-- `T` is the transform which the joint of link `i` prescribes for the coordinates `q`. -/
def System.IsJointTransform (E : JEnv α π) (s : System α π) (q : List α) (i : Nat)
    (T : Transform α) : Prop :=
  ∃ jm p, E.joints (s.link_types.getD i "") = some jm ∧ s.jointParam i = some p ∧
    T = jm.transform (ownSlice E.qw s.link_types q i) p

/-- The pose of frame `p`, where `-1` is the world. -/
def poseAt [Zero α] [One α] (xs : List (Transform α)) (p : Int) : Transform α :=
  if p < 0 then .zero else xs.getD p.toNat .zero

/-- `Path parents i l`: `l` are the links from `i` up to the root of its tree. -/
inductive Path (parents : List Int) : Nat → List Nat → Prop
  | root {i : Nat} : parents[i]? = some (-1) → Path parents i [i]
  | step {i p : Nat} {l : List Nat} : parents[i]? = some (p : Int) → Path parents p l →
      Path parents i (i :: l)

/-- What forward kinematics has to deliver: poses `xs` and updated system `s'`. -/
structure System.IsFK [Ring α] (E : JEnv α π) (s : System α π) (q : List α)
    (xs : List (Transform α)) (s' : System α π) : Prop where
  len : xs.length = s.link_parents.length
  links_len : s'.links.length = s.link_parents.length
  rest : s' = { s with links := s'.links }
  pose : ∀ i (h : i < s.link_parents.length) (row : LinkRow α), s.links[i]? = some row →
    ∃ T, s.IsJointTransform E q i T ∧
      xs[i]? = some (algebra.transform_mul (algebra.transform_mul T row.transform1)
        (poseAt xs s.link_parents[i])) ∧
      s'.links[i]? = some { row with
        transform2 := T, transform := algebra.transform_mul T row.transform1 }

end RingLib

namespace RingLib
namespace jcalc

/-- all built-in joint types -/
def BuiltIn.all : List BuiltIn :=
  [.free, .free_2d, .frozen, .spherical, .p3d, .cor, .r .x, .r .y, .r .z, .p .x, .p .y, .p .z,
    .saddle]

/-- the built-in joint type with the given name -/
def BuiltIn.ofName (t : String) : Option BuiltIn := BuiltIn.all.find? fun b => b.name = t

theorem BuiltIn.ofName_name (b : BuiltIn) : BuiltIn.ofName b.name = some b := by
  rcases b with _ | _ | _ | _ | _ | _ | ⟨_ | _ | _⟩ | ⟨_ | _ | _⟩ | _ <;> decide

end jcalc

/-- The registries contain the built-in joints, unchanged. -/
structure JEnv.Std {π : Type} (E : JEnv ℝ π) : Prop where
  joints : ∀ b : jcalc.BuiltIn, E.joints b.name = some b.model
  qw : ∀ b : jcalc.BuiltIn, E.qw b.name = some b.q_width
  dw : ∀ b : jcalc.BuiltIn, E.dw b.name = some b.qd_width

/-- All joints of the system are built-in joints out of a given class. -/
def System.JointsIn {α π : Type} (s : System α π) (P : jcalc.BuiltIn → Prop) : Prop :=
  ∀ t ∈ s.link_types, ∃ b : jcalc.BuiltIn, P b ∧ t = b.name

end RingLib
