import Verif.Model.MotionConfig
import Verif.Model.Kinematics

/-!
# Drawing the coordinates of a whole system: `/repo/src/ring/algorithms/generator/base.py`
-/

namespace RingLib
namespace generator
open random jcalc System

/-- `rcmg_draw_fn`: configuration, keys, `dt`, `N`, joint parameters; `none` if it does not end -/
abbrev DrawFn (K π : Type) :=
  MotionConfig → K → K → ℝ → Option Nat → π → Option (List (List ℝ))

/-- `jcalc.get_joint_model(link_type).rcmg_draw_fn`; the outer `none` is an unknown joint type, the
inner one a joint type without draw function -/
abbrev DrawEnv (K π : Type) := String → Option (Option (DrawFn K π))

/-- `jnp.concatenate(q_list, axis=1)` -/
def concatenate1 (q_list : List (List (List ℝ))) : Py (List (List ℝ)) :=
  match q_list with
  | [] => .error .value
  | a :: as =>
    if as.all (·.length = a.length) then
      .ok ((List.range a.length).map fun k => ((a :: as).map (·.getD k [])).flatten)
    else .error .type

/-- `/repo/src/ring/algorithms/generator/base.py:436-462` `draw_q`. A draw function that does not end
is an error. -/
noncomputable def draw_q {K π : Type} (R : Rng K) (draw : DrawEnv K π) (config : MotionConfig)
    (dt : ℝ) (N : Option Nat) (key : K) (_ : IdxMap)
    (x : String × (LinkRow ℝ × List (String × π))) : Py (List (List ℝ) × K) := do
  let joint_params ← _limit_scope_of_joint_params x.1 x.2.2
  let key_t := R.split key 3 1
  let key_value := R.split key 3 2
  let draw_fn ← match draw x.1 with
    | none => .error .assertion
    | some none => .error .other
    | some (some f) => (.ok f : Py (DrawFn K π))
  let _config ← match config.joint_type_specific_overwrites.lookup x.1 with
    | some changes => replace_fields config changes
    | none => .ok config
  match draw_fn _config key_t key_value dt N joint_params with
  | none => .error .other
  | some q_link => pure (q_link, R.split key 3 0)

/-- `/repo/src/ring/algorithms/generator/base.py:425-470` `draw_random_q` -/
noncomputable def draw_random_q {K π : Type} (E : Env ℝ π) (R : Rng K) (draw : DrawEnv K π) (key : K)
    (s : System ℝ π) (config : MotionConfig) (N : Option Nat) : Py (K × List (List ℝ)) := do
  let r ← s.scanState E (draw_q R draw config s.dt N) key ((argL s.link_types).and (argL s.linkRows))
  let q ← concatenate1 r.1
  pure (r.2, q)

end generator
end RingLib
