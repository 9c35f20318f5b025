import Verif.Model.Finalize
import Verif.Model.MotionArtifacts
import Verif.Model.Hz
import Verif.Model.Setup
import Verif.Model.Batch

/-!
# The generator as a whole: `_build_mconfig_batched_generator` and `RCMG.__init__` of
`/repo/src/ring/algorithms/generator/base.py`

The parts are in `Setup`, `MotionArtifacts`, `DrawQ`, `Hz`, `Kinematics`, `PdControl`, `Finalize` and
`Batch`. Here they are put together.

* The options of a part that is switched on are `some …`, otherwise `none`.
* Warnings are left out. `return_q_ref` of the dynamic simulation is left out.
* `jax.vmap` over the configurations is a list. A vmapped function is traced once; here it is called
  once per configuration.
* `dt` is not an array of a `System`, so replacing it by one number changes all systems of the batch.
-/

namespace RingLib
namespace generator
open System jcalc artifacts
variable {π K : Type}

/-- `imu_motion_artifacts_kwargs`, which is used for `inject_subsystems`, for
`setup_fn_randomize_damping_stiffness_factory` and for `HideInjectedBodies`,
`/repo/src/ring/algorithms/generator/motion_artifacts.py:46-55, 127-132` -/
structure ArtifactArgs where
  springs : Artifacts ℝ
  /-- `prob_rigid`, if given -/
  prob_rigid : Option ℝ := none
  all_imus_either_rigid_or_flex : Bool := false
  imus_surely_rigid : List String := []
  hide_injected_bodies : Bool := true

/-- the options of `setup_fn_randomize_damping_stiffness_factory` with their defaults,
`/repo/src/ring/algorithms/generator/motion_artifacts.py:127-132` -/
noncomputable def ArtifactArgs.rigid (a : ArtifactArgs) : RigidOpts :=
  ⟨a.prob_rigid.getD 0, a.all_imus_either_rigid_or_flex, a.imus_surely_rigid⟩

/-- The options of `_build_mconfig_batched_generator`,
`/repo/src/ring/algorithms/generator/base.py:275-303`. The field `finalize.before` is not an option. -/
structure RcmgOpts (K π : Type) where
  setup_fn : Option (K → System ℝ π → Py (System ℝ π)) := none
  finalize : FinalizeOpts K π := {}
  randomize_positions : Bool := false
  randomize_motion_artifacts : Bool := false
  randomize_joint_params : Bool := false
  /-- `randomize_hz` with `randomize_hz_kwargs["sampling_rates"]`, if this is given -/
  randomize_hz : Option (Option (List ℝ)) := none
  imu_motion_artifacts : Option ArtifactArgs := none
  dynamic_simulation : Option DynSim := none
  cor : Bool := false

/-- What the generator gets from other parts of the library: joints, random numbers, reading of
system files. -/
structure RcmgEnv (K π : Type) where
  E : JEnv ℝ π
  R : Rng K
  draw : DrawEnv K π
  /-- the entry `joint_axes` of the parameters of a joint -/
  axesOf : π → Py (Vec3 ℝ)
  qd_from_q : String → Option (List (List ℝ) → ℝ → List (List ℝ))
  txt : io.Txt ℝ
  init : io.JointInit π K
  /-- `PRNGKey(1)` of `load_sys_from_str` -/
  key1 : K
  zeroLike : π → π

/-! ## setup -/

/-- `pipe`, `/repo/src/ring/algorithms/generator/base.py:335-347` -/
noncomputable def setupPipe (V : RcmgEnv K π) (o : RcmgOpts K π) :
    List (K → System ℝ π → Py (System ℝ π)) :=
  (match o.imu_motion_artifacts with
    | some a => if o.randomize_motion_artifacts then
        [setup_fn_randomize_damping_stiffness V.E.toEnv V.R a.rigid] else []
    | none => []) ++
  (if o.randomize_positions then [_setup_fn_randomize_positions V.R] else []) ++
  (if o.randomize_joint_params then [io._init_joint_params V.init] else []) ++
  o.setup_fn.toList

/-- the loop `/repo/src/ring/algorithms/generator/base.py:349-351` -/
def setupLoop (R : Rng K) : List (K → System ℝ π → Py (System ℝ π)) → K → System ℝ π →
    Py (System ℝ π)
  | [], _, sys => .ok sys
  | f :: pipe, key, sys => do
    let sys ← f (R.split key 2 1) sys
    setupLoop R pipe (R.split key 2 0) sys

/-- `/repo/src/ring/algorithms/generator/base.py:334-354` `_setup_fn` -/
noncomputable def _setup_fn (V : RcmgEnv K π) (o : RcmgOpts K π) (key : K) (sys : System ℝ π) :
    Py (System ℝ π) := do
  let sys ← setupLoop V.R (setupPipe V o) key sys
  if o.cor then sys._replace_free_with_cor V.E.toEnv else pure sys

/-! ## finalize -/

/-- `DynamicalSimulation` as a stage, `/repo/src/ring/algorithms/generator/finalize_fns.py:216-266` -/
noncomputable def dynStage (V : RcmgEnv K π) (o : DynSim) (out : Out K π) : Py (Out K π) := do
  let r ← DynSim.call V.E V.qd_from_q o out.2.q out.2.sys
  pure (out.1, { out.2 with q := r.2.map (·.q), x := r.2.map (·.x) })

/-- `HideInjectedBodies` as a stage,
`/repo/src/ring/algorithms/generator/motion_artifacts.py:246-260` -/
noncomputable def hideStage (V : RcmgEnv K π) (out : Out K π) : Py (Out K π) := do
  let r ← HideInjectedBodies V.E.toEnv out.2.q out.2.x out.2.sys
  pure (out.1, ⟨out.2.key, r.1, r.2.1, r.2.2⟩)

/-- the first stages of `pipe`, `/repo/src/ring/algorithms/generator/base.py:357-363` -/
noncomputable def beforeStages (V : RcmgEnv K π) (o : RcmgOpts K π) :
    List (Out K π → Py (Out K π)) :=
  (o.dynamic_simulation.toList.map fun d => dynStage V d) ++
  (match o.imu_motion_artifacts with
    | some a => if a.hide_injected_bodies then [hideStage V] else []
    | none => [])

/-! ## the generator -/

/-- `/repo/src/ring/algorithms/generator/base.py:391-401`: the new key, the number of samples and the
systems with the drawn time step -/
noncomputable def hzPart (R : Rng K) (o : RcmgOpts K π) (config : List MotionConfig) (key : K)
    (syss : List (System ℝ π)) : Py (K × Option Nat × List (System ℝ π)) :=
  match o.randomize_hz with
  | none => .ok (key, none, syss)
  | some none => .error .assertion
  | some (some hzs) => do
    let N ← hzSamples hzs config
    let dt := hzDt R (R.split key 2 1) hzs
    pure (R.split key 2 0, some N.toNat, syss.map fun s => { s with dt := dt })

/-- the loop `/repo/src/ring/algorithms/generator/base.py:403-406` -/
noncomputable def drawLoop (V : RcmgEnv K π) (N : Option Nat) :
    List (System ℝ π × MotionConfig) → K → Py (K × List (List (List ℝ)))
  | [], key => .ok (key, [])
  | (s, c) :: rest, key => do
    let r ← draw_random_q V.E.toEnv V.R V.draw key s c N
    let rs ← drawLoop V N rest r.1
    pure (rs.1, r.2 :: rs.2)

/-- `jnp.stack(qs)`, `/repo/src/ring/algorithms/generator/base.py:407`: there is at least one array and
all have the same shape -/
def stackQ (qs : List (List (List ℝ))) : Py Unit :=
  match qs with
  | [] => .error .value
  | q :: qs => if qs.all fun p => p.length = q.length then .ok () else .error .value

/-- `_vmapped_context`, `/repo/src/ring/algorithms/generator/base.py:409-415` -/
noncomputable def context (V : RcmgEnv K π) (o : RcmgOpts K π) (sys_ml : System ℝ π) (key : K)
    (q : List (List ℝ)) (sys : System ℝ π) : Py (Out K π) := do
  let x ← q.mapM fun row => do
    let r ← sys.forward_kinematics_transforms V.E row
    pure r.1
  let X : Data := if o.randomize_hz.isSome then [("dt", .leaf (.num sys.dt))] else []
  _finalize_fn V.E V.R V.axesOf sys_ml { o.finalize with before := beforeStages V o }
    ((X, []), ⟨key, q, x, sys⟩)

/-- `/repo/src/ring/algorithms/generator/base.py:387-420` `_gen`; what is returned is `(Xy, extras)`
for every configuration. Without `keep_output_extras` the extras are dropped, and `output_transform`
is applied afterwards. -/
noncomputable def _gen (V : RcmgEnv K π) (o : RcmgOpts K π) (sys_ml sys : System ℝ π)
    (config : List MotionConfig) (key : K) : Py (List (Out K π)) := do
  let n := config.length
  let syss ← (List.range n).mapM fun (i : Nat) => _setup_fn V o (V.R.split key (n + 1) (i + 1)) sys
  let r ← hzPart V.R o config (V.R.split key (n + 1) 0) syss
  let qs ← drawLoop V r.2.1 (r.2.2.zip config) r.1
  stackQ qs.2
  (List.range n).mapM fun (i : Nat) => do
    let q ← pyGet qs.2 (i : Int)
    let s ← pyGet r.2.2 (i : Int)
    context V o sys_ml (V.R.split qs.1 n i) q s

/-! ## building it -/

/-- The callback of `assert_test_system`,
`/repo/src/ring/algorithms/generator/finalize_fns.py:200-212` -/
noncomputable def testLink (sys : System ℝ π) (a : String × LinkRow ℝ × List ℝ) : Py Unit := do
  let children ← sys.children a.1
  pyAssert (children.length = 0 → a.2.2.length = 0 ∨ a.2.1.inertia.mass > 0)
  pyAssert (a.2.2.length = 0 ∨ ∀ d ∈ a.2.2, d > 0)

/-- `/repo/src/ring/algorithms/generator/finalize_fns.py:196-214`
`DynamicalSimulation.assert_test_system` -/
noncomputable def assert_test_system (E : JEnv ℝ π) (sys : System ℝ π) : Py Unit := do
  let _ ← sys.scan E.toEnv (fun _ _ a => testLink sys a)
    ((argL sys.link_names).and <| (argL sys.links).and (argD sys.link_damping))
  pure ()

/-- `/repo/src/ring/algorithms/generator/base.py:314-318`: the system with the motion artifacts, and
the options of the simulation. (That `unactuated_subsystems` is not among the options already is not
modelled here: it is replaced. `CopyDicts.lean` has this, and that the caller's options are copied.) -/
noncomputable def injectArtifacts (V : RcmgEnv K π) (o : RcmgOpts K π) (sys : System ℝ π) :
    Py (System ℝ π × RcmgOpts K π) :=
  match o.imu_motion_artifacts with
  | none => .ok (sys, o)
  | some a =>
    match o.dynamic_simulation with
    | none => .error .assertion
    | some d => do
      let sys' ← inject_subsystems V.E.toEnv V.txt V.init V.key1 V.zeroLike a.springs sys
      pyAssert (a.prob_rigid.isSome → o.randomize_motion_artifacts = true)
      let d' : DynSim := { d with unactuated_links := unactuated_subsystem sys }
      pure (sys', { o with dynamic_simulation := some d' })

/-- `/repo/src/ring/algorithms/generator/base.py:275-422` `_build_mconfig_batched_generator` -/
noncomputable def _build_mconfig_batched_generator (V : RcmgEnv K π) (o : RcmgOpts K π)
    (sys_ml : System ℝ π) (config : List MotionConfig) (sys : System ℝ π) :
    Py (BatchedGen K (Out K π)) := do
  let r ← injectArtifacts V o sys
  if o.dynamic_simulation.isSome then assert_test_system V.E r.1
  pure ⟨config.length, _gen V r.2 sys_ml r.1 config⟩

open Classical in
/-- `/repo/src/ring/algorithms/generator/base.py:26-101` `RCMG.__init__`: the generators of the
systems. -/
noncomputable def RCMG (V : RcmgEnv K π) (o : RcmgOpts K π) (sys_ml : Option (System ℝ π))
    (sys : List (System ℝ π)) (config : List MotionConfig) : Py (List (BatchedGen K (Out K π))) := do
  let sys_ml ← match sys_ml with
    | some s => pure s
    | none => pyGet sys 0
  pyAssert (∀ c ∈ config, _is_feasible_config1 c)
  sys.mapM (_build_mconfig_batched_generator V o sys_ml config)

end generator
end RingLib
