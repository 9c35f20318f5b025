import Verif.Spec.Dynamics
import Verif.Model.Kinematics

/-!
# Moving a scene through the world

Every tree of a system may be mounted somewhere else, in another orientation; gravity turns with it. Nothing here
refers to the algorithms of dynamics.
-/

namespace RingLib
open maths

variable {π : Type}

/-- `s₂` is `s` with its trees mounted elsewhere: the tree to which link `i` belongs is moved by `A i`, and gravity, as
seen from the moved tree, has the direction that it has in `s`. What forward kinematics fills in (`transform`,
`transform2`) is not compared. -/
structure Moved (A : Nat → Transform ℝ) (s s₂ : System ℝ π) : Prop where
  rest : s₂ = { s with links := s₂.links, gravity := s₂.gravity }
  len : s₂.links.length = s.links.length
  row : ∀ i (h : i < s.links.length) (h₂ : i < s₂.links.length),
    s₂.links[i].transform1 = (if s.link_parents.getD i (-1) = -1 then
      algebra.transform_mul s.links[i].transform1 (A i) else s.links[i].transform1) ∧
    s₂.links[i].pos_min = s.links[i].pos_min ∧ s₂.links[i].pos_max = s.links[i].pos_max ∧
    s₂.links[i].inertia = s.links[i].inertia
  along : ∀ i p : Nat, s.link_parents[i]? = some (p : Int) → A i = A p
  unit : ∀ i, i < s.link_parents.length → (A i).rot.normSq = 1
  gravity : ∀ i, s.link_parents[i]? = some (-1) → rotate s₂.gravity (A i).rot = s.gravity

/-- the poses `xs`, moved along -/
def movedPoses (A : Nat → Transform ℝ) (xs : List (Transform ℝ)) : List (Transform ℝ) :=
  xs.mapIdx fun i x => algebra.transform_mul x (A i)

/-- a state with the same coordinates and velocities, whose poses are moved along -/
def System.State.moved (A : Nat → Transform ℝ) (st : System.State ℝ) : System.State ℝ :=
  { st with x := movedPoses A st.x }

end RingLib
