import Verif.Spec.Kinematics

/-!
# Links of two systems with the same name

Links keep their names when a system is cut, joined or renumbered, while their numbers change.
-/

namespace RingLib
variable {α π : Type}

/-- `q` and `q'` hold the same coordinates for every link that both systems have. -/
def CoordsByName (E : Env α π) (s s' : System α π) (q q' : List α) : Prop :=
  ∀ (n : String) (i i' : Nat), s.link_names[i]? = some n → s'.link_names[i']? = some n →
    ownSlice E.qw s'.link_types q' i' = ownSlice E.qw s.link_types q i

/-- The link called `n` has the pose `T` in the list `xs` of the poses of `s`. -/
def System.NamedPose (s : System α π) (xs : List (Transform α)) (n : String) (T : Transform α) : Prop :=
  ∃ i : Nat, s.link_names[i]? = some n ∧ xs[i]? = some T

end RingLib
