import Verif.Model.DrawQ

/-!
# Scaling joint motions and randomising the motion of the root

`/repo/src/ring/sim2real/sim2real.py`. A recording is a list of time steps, each a list with one pose
per link.
-/

namespace RingLib
open algebra maths

namespace System
variable {π K : Type}

/-- `/repo/src/ring/sim2real/sim2real.py:165-168` `_checks_time_series_of_xs`. That the array has
three axes is part of the type; an array without time steps has any number of links. -/
def _checks_time_series_of_xs {α : Type} (s : System α π) (xs : List (List (Transform α))) : Py Unit :=
  pyAssert (∀ row ∈ xs, row.length = s.num_links)

/-- `/repo/src/ring/sim2real/sim2real.py:281-288` `_scale_transform_based_on_type` -/
noncomputable def _scale_transform_based_on_type (x : Transform ℝ) (link_type : String)
    (factor : ℝ) : Transform ℝ :=
  let pos := if link_type ∈ ["px", "py", "pz", "free"] then .smul factor x.pos else x.pos
  let rot := if link_type ∈ ["rx", "ry", "rz", "spherical", "free"] then
      let r := quat_to_rot_axis x.rot
      quat_rot_axis r.1 (r.2 * factor)
    else x.rot
  ⟨pos, rot⟩

/-- `/repo/src/ring/sim2real/sim2real.py:270-274` the callback of `scale_xs` -/
noncomputable def scale_link (exclude : List String) (factor : ℝ) (xs : List (Transform ℝ))
    (a : Nat × String) : Py (Transform ℝ) := do
  let x_link ← pyGet xs a.1
  if a.2 ∉ exclude then pure (_scale_transform_based_on_type x_link a.2 factor)
  else pure x_link

/-- `/repo/src/ring/sim2real/sim2real.py:268-276` `_scale_xs`, one time step -/
noncomputable def _scale_xs (E : JEnv ℝ π) (s : System ℝ π) (factor : ℝ) (exclude : List String)
    (xs : List (Transform ℝ)) : Py (List (Transform ℝ)) :=
  s.scan E.toEnv (fun _ _ a => scale_link exclude factor xs a)
    ((argL (List.range s.num_links)).and (argL s.link_types))

/-- `/repo/src/ring/sim2real/sim2real.py:246-278` `scale_xs` -/
noncomputable def scale_xs (E : JEnv ℝ π) (s : System ℝ π) (xs : List (List (Transform ℝ)))
    (factor : ℝ) (exclude : List String := ["px", "py", "pz", "free"]) :
    Py (List (List (Transform ℝ))) := do
  s._checks_time_series_of_xs xs
  xs.mapM (s._scale_xs E factor exclude)

/-- `.at[i].set(value)` with a value of `value.length` time steps into an array of `T` time steps: a
single time step is repeated, otherwise the lengths must agree -/
def broadcastSteps {β : Type} (T : Nat) (value : List β) : Py (List β) :=
  if value.length = T then .ok value
  else match value with
    | [v] => .ok (List.replicate T v)
    | _ => .error .value

/-- `/repo/src/ring/sim2real/sim2real.py:228-237` `_overwrite_transform_of_link_then_update` and
`_replace_transform_of_link`, all time steps -/
def overwriteSeq {α : Type} [Ring α] (E : JEnv α π) (s : System α π) (xs : List (List (Transform α)))
    (xs_new_link : List (Transform α)) (new_link_idx : Nat) : Py (List (List (Transform α))) := do
  s._checks_time_series_of_xs xs
  let new ← broadcastSteps xs.length xs_new_link
  (xs.zip new).mapM fun x => s._overwrite_transform_of_link_then_update E x.1 x.2 new_link_idx

/-- `/repo/src/ring/sim2real/sim2real.py:209-218` the system with one free body; `p` stands for its
(unused) joint parameters. Fields that do not matter for its motion are those of the defaults. -/
noncomputable def freeSys (p : π) : System ℝ π where
  link_parents := [-1]
  links := [⟨.zero, 0, 0, compute_inertia_per_link Real.pi [] 0, .zero, .zero⟩]
  joint_params := [("default", [p])]
  link_types := ["free"]
  link_damping := [0, 0, 0, 0, 0, 0]
  link_armature := [0, 0, 0, 0, 0, 0]
  link_spring_stiffness := [0, 0, 0, 0, 0, 0]
  link_spring_zeropoint := [1, 0, 0, 0, 0, 0, 0]
  dt := 0.01
  geoms := []
  gravity := ⟨0, 0, -9.81⟩
  integration_method := "semi_implicit_euler"
  mass_mat_iters := 0
  link_names := ["free"]
  model_name := none
  omc := [none]

open Classical in
/-- `/repo/src/ring/sim2real/sim2real.py:219-223`: the poses of the free body. With the default
arguments the generator draws coordinates and performs forward kinematics
(`/repo/src/ring/algorithms/generator/base.py:367-408`); `key'` is the key that its draw function
receives. -/
noncomputable def freeMotion (E : JEnv ℝ π) (R : Rng K) (draw : generator.DrawEnv K π) (p : π)
    (key' : K) (config : jcalc.MotionConfig) : Py (List (Transform ℝ)) := do
  pyAssert (jcalc._is_feasible_config1 config)
  let r ← generator.draw_random_q E.toEnv R draw key' (freeSys p) config none
  let xs ← r.2.mapM fun q => (freeSys p).forward_kinematics_transforms E q
  let i ← (freeSys p).name_to_idx "free"
  xs.mapM fun x => pyGet x.1 i

/-- `/repo/src/ring/sim2real/sim2real.py:191-209` `randomize_to_world_pos_rot` -/
noncomputable def randomize_to_world_pos_rot (E : JEnv ℝ π) (R : Rng K)
    (draw : generator.DrawEnv K π) (p : π) (key' : K) (s : System ℝ π)
    (xs : List (List (Transform ℝ))) (config : jcalc.MotionConfig) :
    Py (List (List (Transform ℝ))) := do
  s._checks_time_series_of_xs xs
  pyAssert (s.link_parents.count (-1) = 1)
  let xs_free ← freeMotion E R draw p key' config
  let link_idx_to_world ← pyIndex s.link_parents (-1)
  s.overwriteSeq E xs xs_free link_idx_to_world

end System
end RingLib
