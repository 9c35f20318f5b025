import Verif.Model.MotionConfig
import Verif.Model.Registry
import Verif.Model.Sensors
import Verif.Model.Setup

/-!
# Joints with random axes: `/repo/src/ring/algorithms/custom_joints/rr_joint.py`, `rr_imp_joint.py`,
`rsaddle_joint.py`

The parameters of these joints are dictionaries of arrays with three columns.
-/

namespace RingLib.jcalc
open maths

/-- the parameters of a joint: by name, the rows of an array with three columns (one row for a
vector) -/
abbrev AxisParams := Dict (List (Vec3 ℝ))

/-- `params[name][i]`; the functions below are only called with parameters that
`init_joint_params` of the same joint has made, so the defaults are not reached -/
def AxisParams.axis (params : AxisParams) (name : String) (i : Nat := 0) : Vec3 ℝ :=
  ((List.lookup name params).getD []).getD i 0

/-- signature of `rcmg_draw_fn` after the config: two keys, time step, number of steps -/
abbrev DrawFn (K : Type) := K → K → ℝ → Option Nat → Option (List (List ℝ))

variable {K ν γ : Type}

/-! ## rr -/

/-- `/repo/src/ring/algorithms/custom_joints/rr_joint.py:10-14` `_rr_transform` -/
noncomputable def _rr_transform (q : List ℝ) (params : AxisParams) : Transform ℝ :=
  let axis := params.axis "joint_axes"
  let rot := quat_rot_axis axis (q.getD 0 0)
  ⟨0, rot⟩

/-- `/repo/src/ring/algorithms/custom_joints/rr_joint.py:16-18` `_motion_fn` -/
def _rr_motion (params : AxisParams) : Motion ℝ := ⟨params.axis "joint_axes", 0⟩

/-- `/repo/src/ring/algorithms/custom_joints/rr_joint.py:20-27` `rr_joint` -/
noncomputable def rr_model (R : Rng K) : RegModel ℝ AxisParams MotionConfig (DrawFn K) where
  transform := _rr_transform
  motion := [_rr_motion]
  p_control_term := some _p_control_term_rxyz
  coordinate_vector_to_q := none
  inv_kin := none
  rcmg_draw_fn := fun config key_t key_value dt N =>
    (_draw_rxyz R config key_t key_value dt N).map column

/-- `/repo/src/ring/algorithms/custom_joints/rr_joint.py:9-29` `register_rr_joint` -/
noncomputable def register_rr_joint (R : Rng K) :
    Glob (Registry ℝ AxisParams MotionConfig (DrawFn K) ν γ) Unit :=
  register_new_joint_type "rr" (rr_model R) 1 none true

/-- `/repo/src/ring/algorithms/custom_joints/rr_joint.py:32-33` `_draw_random_joint_axis` -/
noncomputable def _draw_random_joint_axis (R : Rng K) (key : K) : AxisParams :=
  [("joint_axes", [rotate ⟨1, 0, 0⟩ (quat_random1 R key Real.pi)])]

/-! ## rr_imp -/

/-- `/repo/src/ring/algorithms/custom_joints/rr_imp_joint.py:18-23` `_rr_imp_transform` -/
noncomputable def _rr_imp_transform (q : List ℝ) (params : AxisParams) : Transform ℝ :=
  let axis_pri := params.axis "joint_axes"
  let axis_res := params.axis "residual"
  let rot_pri := quat_rot_axis axis_pri (q.getD 0 0)
  let rot_res := quat_rot_axis axis_res (q.getD 1 0)
  ⟨0, quat_mul rot_res rot_pri⟩

/-- `jnp.mean` of a vector -/
noncomputable def mean (xs : List ℝ) : ℝ := xs.sum / xs.length

/-- `/repo/src/ring/algorithms/custom_joints/rr_imp_joint.py:32-35`, scaling and centring of the
residual angle -/
noncomputable def centred (ang_max_deg : ℝ) (q_traj_res : List ℝ) : List ℝ :=
  let q_traj_res := q_traj_res.map (· * (ang_max_deg * Real.pi / 180 / Real.pi))
  q_traj_res.map (· - mean q_traj_res)

/-- `/repo/src/ring/algorithms/custom_joints/rr_imp_joint.py:25-36` `_draw_rr_imp` -/
noncomputable def _draw_rr_imp (R : Rng K) (config_res : MotionConfig) (ang_max_deg : ℝ)
    (config : MotionConfig) (key_t key_value : K) (dt : ℝ) (N : Option Nat) :
    Option (List (List ℝ)) := do
  let key_t1 := R.split key_t 2 0
  let key_t2 := R.split key_t 2 1
  let key_value1 := R.split key_value 2 0
  let key_value2 := R.split key_value 2 1
  let q_traj_pri ← _draw_rxyz R config key_t1 key_value1 dt N
  let q_traj_res ← _draw_rxyz R { config_res with T := config.T } key_t2 key_value2 dt N
  let q_traj_res := centred ang_max_deg q_traj_res
  pure (hcat (column q_traj_pri) (column q_traj_res))

/-- `/repo/src/ring/algorithms/custom_joints/rr_imp_joint.py:38-43` `_motion_fn_factory` -/
def _rr_imp_motion (whichone : String) (params : AxisParams) : Motion ℝ := ⟨params.axis whichone, 0⟩

/-- `/repo/src/ring/algorithms/custom_joints/rr_imp_joint.py:45-52` `rr_imp_joint` -/
noncomputable def rr_imp_model (R : Rng K) (config_res : MotionConfig) (ang_max_deg : ℝ) :
    RegModel ℝ AxisParams MotionConfig (DrawFn K) where
  transform := _rr_imp_transform
  motion := [_rr_imp_motion "joint_axes", _rr_imp_motion "residual"]
  p_control_term := some _p_control_term_rxyz
  coordinate_vector_to_q := none
  inv_kin := none
  rcmg_draw_fn := _draw_rr_imp R config_res ang_max_deg

/-- `/repo/src/ring/algorithms/custom_joints/rr_imp_joint.py:13-59` `register_rr_imp_joint` -/
noncomputable def register_rr_imp_joint (R : Rng K)
    (config_res : MotionConfig := { dang_max := .const 5, t_max := .const 0.4 })
    (ang_max_deg : ℝ := 7.5) (name : String := "rr_imp") :
    Glob (Registry ℝ AxisParams MotionConfig (DrawFn K) ν γ) Unit :=
  register_new_joint_type name (rr_imp_model R config_res ang_max_deg) 2 (some 2) true

/-- `/repo/src/ring/algorithms/custom_joints/rr_imp_joint.py:62-70` `_draw_random_joint_axes` -/
noncomputable def _draw_rr_imp_axes (R : Rng K) (key : K) : AxisParams :=
  let key1 := R.split key 2 0
  let key2 := R.split key 2 1
  let phi := R.uniformIn key1 0 (2 * Real.pi)
  let res_axis : Vec3 ℝ := ⟨Real.cos phi, Real.sin phi, 0⟩
  let random_rotation := quat_random1 R key2 Real.pi
  let pri_axis := rotate ⟨0, 0, 1⟩ random_rotation
  let res_axis := rotate res_axis random_rotation
  [("joint_axes", [pri_axis]), ("residual", [res_axis])]

/-! ## rsaddle -/

/-- `/repo/src/ring/algorithms/custom_joints/rsaddle_joint.py:11-16` `_transform` -/
noncomputable def _rsaddle_transform (q : List ℝ) (params : AxisParams) : Transform ℝ :=
  let rot1 := quat_rot_axis (params.axis "joint_axes" 0) (q.getD 0 0)
  let rot2 := quat_rot_axis (params.axis "joint_axes" 1) (q.getD 1 0)
  ⟨0, quat_mul rot2 rot1⟩

/-- `/repo/src/ring/algorithms/custom_joints/rsaddle_joint.py:18-23` `_motion_fn_gen` -/
def _rsaddle_motion (i : Nat) (params : AxisParams) : Motion ℝ := ⟨params.axis "joint_axes" i, 0⟩

/-- `/repo/src/ring/algorithms/custom_joints/rsaddle_joint.py:25-32` `joint_model` -/
noncomputable def rsaddle_model (R : Rng K) : RegModel ℝ AxisParams MotionConfig (DrawFn K) where
  transform := _rsaddle_transform
  motion := (List.range 2).map _rsaddle_motion
  p_control_term := some _p_control_term_rxyz
  coordinate_vector_to_q := none
  inv_kin := none
  rcmg_draw_fn := _draw_saddle R

/-- `/repo/src/ring/algorithms/custom_joints/rsaddle_joint.py:10-34` `register_rsaddle_joint` -/
noncomputable def register_rsaddle_joint (R : Rng K) :
    Glob (Registry ℝ AxisParams MotionConfig (DrawFn K) ν γ) Unit :=
  register_new_joint_type "rsaddle" (rsaddle_model R) 2 none true

/-- `/repo/src/ring/algorithms/custom_joints/rsaddle_joint.py:37-40` `_draw_random_joint_axes`: two
quaternions from one key -/
noncomputable def _draw_rsaddle_axes (R : Rng K) (key : K) : AxisParams :=
  [("joint_axes", (quat_random R key 2 Real.pi).map (rotate ⟨1, 0, 0⟩))]

end RingLib.jcalc
