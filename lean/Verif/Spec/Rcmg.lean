import Verif.Model.Rcmg
import Verif.Props.DrawQ
import Verif.Props.Setup
import Verif.Props.Joints
import Verif.Props.Xml
import Verif.Props.Pipeline

/-!
# What one sequence of the generator shows
-/

namespace RingLib
open System jcalc generator io
variable {π K : Type}

/-- A random variant of a system: the links are put somewhere into their boxes (or stay where they
are), the parameters of the joints are drawn anew (or are kept), and all the rest is the same. -/
structure Variant (E : JEnv ℝ π) (J : JointInit π K) (positions params : Bool) (s s' : System ℝ π) :
    Prop where
  wf : s'.WF E.toEnv
  rest : s' = { s with links := s'.links, joint_params := s'.joint_params }
  links_len : s'.links.length = s.links.length
  link : ∀ (i : Nat) l l', s.links[i]? = some l → s'.links[i]? = some l' →
    l' = { l with transform1 := ⟨l'.transform1.pos, l.transform1.rot⟩ }
  placed : ∀ (i : Nat) l l', s.links[i]? = some l → s'.links[i]? = some l' →
    if positions then InBox l.pos_min l.pos_max l'.transform1.pos
    else l'.transform1.pos = l.transform1.pos
  joints : if params then FreshParams J s.link_types s.link_parents.length s'.joint_params
    else s'.joint_params = s.joint_params

/-- Every free joint has become a joint with a free centre of rotation. -/
structure WithCor (E : JEnv ℝ π) (s s' : System ℝ π) : Prop where
  wf : s'.WF E.toEnv
  body : s.SameBody s'
  views : ∀ m, s'.view E.toEnv m = (s.view E.toEnv m).map fun v =>
    if v.type = "free" then
      v.withJoint "cor" (v.armature ++ v.armature.drop 3) (v.damping ++ v.damping.drop 3)
        (v.stiffness ++ v.stiffness.drop 3) (v.zeropoint ++ v.zeropoint.drop 4)
    else v

/-- the time step of a sequence: that of the system, or `1 / f` for one of the rates `f` -/
def IsStep (hz : Option (Option (List ℝ))) (dt : Option ℝ) : Prop :=
  match hz with
  | none => dt = none
  | some rates => ∃ f ∈ rates.getD [], dt = some (1 / f)

/-- `q` is a random motion of `s` for `n` time steps, and `x` are the poses of the links during this
motion. -/
structure IsMotion (E : JEnv ℝ π) (R : Rng K) (s : System ℝ π) (c : MotionConfig) (key : K)
    (N : Option Nat) (n : Nat) (q : List (List ℝ)) (x : List (List (Transform ℝ))) : Prop where
  length : q.length = n
  poses_length : x.length = n
  unit : ∀ row ∈ q, row.length = (s.link_types.map (wOf E.qw)).sum ∧ s.UnitQ E row
  drawn : ∀ i, i < s.link_parents.length → ∃ rows, LinkDraw E R s c key N n i rows ∧
    ∀ k, ∀ hk : k < q.length, ∀ hk' : k < rows.length,
      ownSlice E.qw s.link_types q[k] i = rows[k]
  poses : ∀ k, ∀ hk : k < q.length, ∀ hk' : k < x.length, ∃ s', s.IsFK E q[k] x[k] s'

end RingLib
