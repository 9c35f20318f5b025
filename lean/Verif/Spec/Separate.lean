import Verif.Spec.Dynamics
import Verif.Model.Kinematics

/-!
# Systems of several trees

A set of links that is closed under going to the parent and to the children consists of whole trees. Two systems, or
two states, may agree on such a set and differ elsewhere. Nothing here refers to the algorithms of dynamics.
-/

namespace RingLib

variable {π : Type}

/-- `P` consists of whole trees: a link belongs to `P` exactly if its parent does. -/
def WholeTrees (parents : List Int) (P : Nat → Prop) : Prop :=
  ∀ i p : Nat, parents[i]? = some (p : Int) → (P i ↔ P p)

/-- with a link, `P` contains its parent -/
def Upward (parents : List Int) (P : Nat → Prop) : Prop :=
  ∀ i p : Nat, parents[i]? = some (p : Int) → P i → P p

/-- with a link, `P` contains its children -/
def Downward (parents : List Int) (P : Nat → Prop) : Prop :=
  ∀ i p : Nat, parents[i]? = some (p : Int) → P p → P i

/-- The link `i` is on a branch through `k`: it is `k`, hangs below `k` or carries `k`. -/
def OnBranch (parents : List Int) (k i : Nat) : Prop := Desc parents k i ∨ Desc parents i k

/-- the two vectors have the same entries for the links in `P` -/
def SameOn (w : String → Option Nat) (types : List String) (P : Nat → Prop) (a b : List ℝ) : Prop :=
  ∀ i, i < types.length → P i → ownSlice w types b i = ownSlice w types a i

/-- `s₂` has the links and joints of `s`. On `P` they are mounted, weigh, are sprung, damped and rotored as in `s`;
elsewhere all of this may differ. -/
structure AgreeOn (E : Env ℝ π) (P : Nat → Prop) (s s₂ : System ℝ π) : Prop where
  rest : s₂ = { s with
    links := s₂.links, geoms := s₂.geoms, link_damping := s₂.link_damping, link_armature := s₂.link_armature
    link_spring_stiffness := s₂.link_spring_stiffness, link_spring_zeropoint := s₂.link_spring_zeropoint }
  row : ∀ i, P i → s₂.links[i]?.map LinkRow.transform1 = s.links[i]?.map LinkRow.transform1 ∧
    s₂.links[i]?.map LinkRow.inertia = s.links[i]?.map LinkRow.inertia
  damping : SameOn E.dw s.link_types P s.link_damping s₂.link_damping
  armature : SameOn E.dw s.link_types P s.link_armature s₂.link_armature
  stiffness : SameOn E.dw s.link_types P s.link_spring_stiffness s₂.link_spring_stiffness
  zeropoint : SameOn E.qw s.link_types P s.link_spring_zeropoint s₂.link_spring_zeropoint

/-- the two states agree on `P` -/
structure System.State.AgreeOn (E : Env ℝ π) (types : List String) (P : Nat → Prop) (a b : System.State ℝ) : Prop where
  q : SameOn E.qw types P a.q b.q
  qd : SameOn E.dw types P a.qd b.qd
  x : ∀ i, P i → b.x[i]? = a.x[i]?

/-- The torques of one step, for `n` degrees of freedom, agree on `P`. Torques that are not given are zero. -/
structure TorquesOn (E : Env ℝ π) (types : List String) (P : Nat → Prop) (n : Nat) (o o₂ : Option (List ℝ)) : Prop where
  len : ∀ t ∈ o, t.length = n
  len₂ : ∀ t ∈ o₂, t.length = n
  same : SameOn E.dw types P (o.getD (List.replicate n 0)) (o₂.getD (List.replicate n 0))

end RingLib
