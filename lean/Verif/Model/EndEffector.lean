import Verif.Model.Kinematics
import Verif.Model.Random
import Verif.Model.Callbacks

/-!
# Inverse kinematics of an end effector

Models `/repo/src/ring/algorithms/kinematics.py` (`inverse_kinematics_endeffector`).

The optimiser (`jaxopt.LBFGS` by default) is an external library; here it is a parameter `solver`
that gets the objective and the initial value. It may raise, it may end with a parameter vector, and
it may end with NaNs (`none`); then the joint configuration and the residual are NaN as well.
Everything else is computed with exact real numbers.
-/

namespace RingLib
namespace System
open algebra maths

variable {π : Type}

/-- `jaxopt_solver(objective, …).run(q0).params`, `none` are NaNs -/
abbrev Solver := (List ℝ → Py ℝ) → List ℝ → Py (Option (List ℝ))

/-- `/repo/src/ring/algorithms/kinematics.py:187-194` `objective`. `[…]` on the transforms is an
index of a jax array that is never out of range, as there is one transform per link. -/
noncomputable def ik_objective (E : JEnv ℝ π) (s : System ℝ π) (endeffector_link_name : String)
    (endeffector_x : Transform ℝ) (error_weight_rot error_weight_pos : ℝ)
    (custom_joints : String → Option (List ℝ → List ℝ)) (q : List ℝ) : Py ℝ := do
  let q ← s.coordinate_vector_to_q E q custom_joints
  let (xs, _) ← s.forward_kinematics_transforms E q
  let i ← s.name_to_idx endeffector_link_name
  let xhat ← pyGet xs (i : Int)
  let error_rot := angle_error endeffector_x.rot xhat.rot
  let d := endeffector_x.pos - xhat.pos
  let error_pos := Real.sqrt (d.x ^ 2 + d.y ^ 2 + d.z ^ 2)
  pure (error_weight_rot * error_rot + error_weight_pos * error_pos)

/-- `/repo/src/ring/algorithms/kinematics.py:196-202` the optimisation from one initial value;
returns `q_sol, q_sol_value, results.params`. -/
noncomputable def ik_run (E : JEnv ℝ π) (s : System ℝ π) (solver : Solver)
    (endeffector_link_name : String) (endeffector_x : Transform ℝ)
    (error_weight_rot error_weight_pos : ℝ) (custom_joints : String → Option (List ℝ → List ℝ))
    (q0 : List ℝ) : Py (Option (List ℝ) × Fl ℝ × Option (List ℝ)) := do
  let objective := ik_objective E s endeffector_link_name endeffector_x error_weight_rot
    error_weight_pos custom_joints
  let params ← solver objective q0
  match params with
  | none => pure (none, .nan, none)
  | some params => do
    let q_sol ← s.coordinate_vector_to_q E params custom_joints
    let q_sol_value ← objective params
    pure (some q_sol, .fin q_sol_value, some params)

/-- `x < y` for values that are not NaN -/
noncomputable def flLt : Fl ℝ → Fl ℝ → Bool
  | .fin x, .fin y => decide (x < y)
  | .fin _, .posInf => true
  | .negInf, .fin _ => true
  | .negInf, .posInf => true
  | _, _ => false

/-- `jnp.argmin` of a vector: the first NaN if there is one, else the first minimum; an empty vector
is a ValueError -/
noncomputable def argmin : List (Fl ℝ) → Py Nat
  | [] => .error .value
  | v :: vs =>
    match (v :: vs).findIdx? Fl.isNan with
    | some i => .ok i
    | none => .ok (((vs.zipIdx 1).foldl
        (fun (best : Fl ℝ × Nat) w => if flLt w.1 best.1 then w else best) (v, 0)).2)

/-- what `inverse_kinematics_endeffector` returns: joint values, residual, parameters of all runs -/
structure IKOut where
  q : Option (List ℝ)
  value : Fl ℝ
  results : List (Option (List ℝ))

/-- `/repo/src/ring/algorithms/kinematics.py:100-202` `inverse_kinematics_endeffector`. The assertion
in line 144 is about the number of axes of `endeffector_x`, here always a single transform. -/
noncomputable def inverse_kinematics_endeffector {K : Type} (R : Rng K) (E : JEnv ℝ π)
    (s : System ℝ π) (solver : Solver) (endeffector_link_name : String)
    (endeffector_x : Transform ℝ) (error_weight_rot error_weight_pos : ℝ := 1)
    (q0 : Option (List ℝ) := none) (random_q0_starts : Option Nat := none) (key : Option K := none)
    (custom_joints : String → Option (List ℝ → List ℝ) := fun _ => none) : Py IKOut := do
  let run := ik_run E s solver endeffector_link_name endeffector_x error_weight_rot error_weight_pos
    custom_joints
  let single (q0 : List ℝ) : Py IKOut := do
    let r ← run q0
    pure ⟨r.1, r.2.1, [r.2.2]⟩
  if random_q0_starts.isSome then do
    pyAssert q0.isNone
    pyAssert key.isSome
  match q0, random_q0_starts, key with
  | none, none, _ => do
    let st ← State.create E s
    single st.q
  | none, some n, some key => do
    let m ← s.q_size E.toEnv
    let q0s := (List.range n).map fun i =>
      (List.range m).map fun j => R.normal key (n * m) (i * m + j)
    let rs ← q0s.mapM fun q0 => do
      pyAssert (q0.length = m)
      run q0
    let best_q_index ← argmin (rs.map fun r => r.2.1)
    let best ← pyGet rs (best_q_index : Int)
    pure ⟨best.1, best.2.1, rs.map fun r => r.2.2⟩
  | none, some _, none => .error .assertion
  | some q0, _, _ => do
    let m ← s.q_size E.toEnv
    pyAssert (q0.length = m)
    single q0

end System
end RingLib
