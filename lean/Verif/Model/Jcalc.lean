import Verif.Model.Trig
import Verif.Model.System

/-!
# Joint models: `/repo/src/ring/algorithms/jcalc.py`

A slice of `q` is a list of numbers. The functions of the built-in joints read the entries they
need (`getD`, the default is never reached for slices of the registered width).
-/

namespace RingLib
open maths

/-- `/repo/src/ring/algorithms/jcalc.py:503-529` `JointModel`, the fields that are modelled
(random drawing, `utilities` and `init_joint_params` are not part of it). A motion axis which is a
plain `Motion` in python is the constant function here (`_to_motion`, line 1109-1114). -/
structure JointModel (α π : Type) where
  transform : List α → π → Transform α
  motion : List (π → Motion α)
  p_control_term : Option (List α → List α → List α)
  coordinate_vector_to_q : Option (List α → List α)
  inv_kin : Option (Transform α → π → Py (List α))

/-- The surroundings of the system code together with the joint registry `_joint_types`
(`/repo/src/ring/algorithms/jcalc.py:934-1050`; `none` = the key is missing). -/
structure JEnv (α π : Type) extends Env α π where
  joints : String → Option (JointModel α π)

namespace jcalc

/-- `/repo/src/ring/algorithms/jcalc.py:1053-1057` `get_joint_model`. -/
def get_joint_model {α π : Type} (E : JEnv α π) (joint_type : String) : Py (JointModel α π) :=
  match E.joints joint_type with
  | some jm => .ok jm
  | none => .error .assertion

/-- `_joint_types[joint_type]` -/
def lookup_joint {α π : Type} (E : JEnv α π) (joint_type : String) : Py (JointModel α π) :=
  match E.joints joint_type with
  | some jm => .ok jm
  | none => .error .key

/-- `/repo/src/ring/algorithms/jcalc.py:1093-1099` `_limit_scope_of_joint_params`. -/
def _limit_scope_of_joint_params {π : Type} (joint_type : String)
    (joint_params : List (String × π)) : Py π :=
  if joint_type ∈ joint_params.map (·.1) then pyDict joint_params joint_type
  else pyDict joint_params "default"

/-- `/repo/src/ring/algorithms/jcalc.py:1102-1106` `jcalc_transform`. -/
def jcalc_transform {α π : Type} (E : JEnv α π) (joint_type : String) (q : List α)
    (joint_params : List (String × π)) : Py (Transform α) := do
  let joint_params ← _limit_scope_of_joint_params joint_type joint_params
  let jm ← lookup_joint E joint_type
  pure (jm.transform q joint_params)

/-- `/repo/src/ring/algorithms/jcalc.py:1117-1125` `jcalc_motion`: the loop over the axes, `qd[dof]`
is clamped to the last entry by jax when out of range (never for a slice of the right width). -/
def jcalc_motion {α π : Type} [Ring α] (E : JEnv α π) (joint_type : String) (qd : List α)
    (joint_params : List (String × π)) : Py (Motion α) := do
  let joint_params ← _limit_scope_of_joint_params joint_type joint_params
  let jm ← lookup_joint E joint_type
  pure ((List.range jm.motion.length).foldl
    (fun m dof => match jm.motion[dof]? with
      | some ax => m + Motion.smul (qd.getD dof 0) (ax joint_params)
      | none => m) Motion.zero)

/-- `/repo/src/ring/algorithms/jcalc.py:1128-1135` `jcalc_tau`. -/
def jcalc_tau {α π : Type} [Ring α] (E : JEnv α π) (joint_type : String) (f : Force α)
    (joint_params : List (String × π)) : Py (List α) := do
  let joint_params ← _limit_scope_of_joint_params joint_type joint_params
  let jm ← lookup_joint E joint_type
  pure (jm.motion.map fun m => algebra.motion_dot (m joint_params) f)

/-! ## built-in joints -/

/-- `q[:4]` as a quaternion -/
def quatOf (q : List ℝ) : Quat ℝ := ⟨q.getD 0 0, q.getD 1 0, q.getD 2 0, q.getD 3 0⟩
/-- `q[k:k+3]` as a vector -/
def vecOf (q : List ℝ) (k : Nat) : Vec3 ℝ := ⟨q.getD k 0, q.getD (k + 1) 0, q.getD (k + 2) 0⟩
/-- entries of a quaternion as an array -/
def quatList (q : Quat ℝ) : List ℝ := [q.w, q.x, q.y, q.z]
/-- entries of a vector as an array -/
def vecList (v : Vec3 ℝ) : List ℝ := [v.x, v.y, v.z]

/-- `/repo/src/ring/algorithms/jcalc.py:532-534` -/
def _free_transform (q : List ℝ) : Transform ℝ := ⟨vecOf q 4, quatOf q⟩
/-- `/repo/src/ring/algorithms/jcalc.py:537-541` -/
noncomputable def _free_2d_transform (q : List ℝ) : Transform ℝ :=
  ⟨⟨0, q.getD 1 0, q.getD 2 0⟩, quat_rot_axis ⟨1, 0, 0⟩ (q.getD 0 0)⟩
/-- `/repo/src/ring/algorithms/jcalc.py:544-547` -/
noncomputable def _rxyz_transform (axis : Vec3 ℝ) (q : List ℝ) : Transform ℝ :=
  ⟨0, quat_rot_axis axis (q.getD 0 0)⟩
/-- `/repo/src/ring/algorithms/jcalc.py:550-552` -/
def _pxyz_transform (direction : Vec3 ℝ) (q : List ℝ) : Transform ℝ :=
  ⟨.smul (q.getD 0 0) direction, unitQuat⟩
/-- `/repo/src/ring/algorithms/jcalc.py:555-556` -/
def _frozen_transform : Transform ℝ := .zero
/-- `/repo/src/ring/algorithms/jcalc.py:559-560` -/
def _spherical_transform (q : List ℝ) : Transform ℝ := ⟨0, quatOf q⟩
/-- `/repo/src/ring/algorithms/jcalc.py:563-565` -/
noncomputable def _saddle_transform (q : List ℝ) : Transform ℝ :=
  ⟨0, euler_to_quat ⟨0, q.getD 0 0, q.getD 1 0⟩⟩
/-- `/repo/src/ring/algorithms/jcalc.py:568-569` -/
def _p3d_transform (q : List ℝ) : Transform ℝ := ⟨vecOf q 0, unitQuat⟩
/-- `/repo/src/ring/algorithms/jcalc.py:572-575` -/
def _cor_transform (q : List ℝ) : Transform ℝ :=
  algebra.transform_mul (_p3d_transform (q.drop 7)) (_free_transform (q.take 7))

/-- `/repo/src/ring/algorithms/jcalc.py:578-583`, rotations -/
def mr (a : Axis) : Motion ℝ := ⟨a.unit, 0⟩
/-- `/repo/src/ring/algorithms/jcalc.py:578-583`, translations -/
def mp (a : Axis) : Motion ℝ := ⟨0, a.unit⟩

/-- `/repo/src/ring/algorithms/jcalc.py:821` `qrel` -/
def qrel (q1 q2 : Quat ℝ) : Quat ℝ := quat_mul q1 (quat_inv q2)

/-- `/repo/src/ring/algorithms/jcalc.py:840-842` -/
noncomputable def _p_control_quaternion (q q_ref : List ℝ) : List ℝ :=
  let (axis, angle) := quat_to_rot_axis (qrel (quatOf q_ref) (quatOf q))
  vecList (.smul angle axis)
/-- `/repo/src/ring/algorithms/jcalc.py:845-848` (element-wise) -/
noncomputable def _p_control_term_rxyz (q q_ref : List ℝ) : List ℝ :=
  List.zipWith (fun a r => wrap_to_pi (r - wrap_to_pi a)) q q_ref
/-- `/repo/src/ring/algorithms/jcalc.py:851-852` -/
noncomputable def _p_control_term_pxyz_p3d (q q_ref : List ℝ) : List ℝ :=
  List.zipWith (fun a r => r - a) q q_ref
/-- `/repo/src/ring/algorithms/jcalc.py:855-856` -/
def _p_control_term_frozen (_ _ : List ℝ) : List ℝ := []
/-- `/repo/src/ring/algorithms/jcalc.py:863-869` -/
noncomputable def _p_control_term_free (q q_ref : List ℝ) : List ℝ :=
  _p_control_quaternion (q.take 4) (q_ref.take 4) ++ _p_control_term_pxyz_p3d (q.drop 4) (q_ref.drop 4)
/-- `/repo/src/ring/algorithms/jcalc.py:872-878` -/
noncomputable def _p_control_term_free_2d (q q_ref : List ℝ) : List ℝ :=
  _p_control_term_rxyz (q.take 1) (q_ref.take 1) ++ _p_control_term_pxyz_p3d (q.drop 1) (q_ref.drop 1)

/-- `/repo/src/ring/algorithms/jcalc.py:891-892` -/
noncomputable def _coordinate_vector_to_q_free_spherical_cor (q : List ℝ) : List ℝ :=
  quatList (safe_normalize4 (quatOf q)) ++ q.drop 4
/-- `/repo/src/ring/algorithms/jcalc.py:895-896` -/
noncomputable def _coordinate_vector_to_q_free_2d (q : List ℝ) : List ℝ :=
  q.set 0 (wrap_to_pi (q.getD 0 0))

/-- `/repo/src/ring/algorithms/jcalc.py:902-917` `_inv_kin_rxyz_factory`; the returned function
has two positional arguments. -/
noncomputable def _inv_kin_rxyz (a : Axis) (x : Transform ℝ) : List ℝ :=
  [-(2 * atan2 (x.rot.vec.dot a.unit) x.rot.w)]
/-- `/repo/src/ring/algorithms/jcalc.py:920-926` `_inv_kin_pxyz_factory` -/
def _inv_kin_pxyz (a : Axis) (x : Transform ℝ) : List ℝ :=
  match a with
  | .x => [x.pos.x]
  | .y => [x.pos.y]
  | .z => [x.pos.z]

/-- the letter of `rx`, `py`, … -/
def axisName : Axis → String
  | .x => "x"
  | .y => "y"
  | .z => "z"

/-- the built-in joint types, the keys of `_joint_types` -/
inductive BuiltIn | free | free_2d | frozen | spherical | p3d | cor | r (a : Axis) | p (a : Axis)
  | saddle
deriving DecidableEq

/-- their names -/
def BuiltIn.name : BuiltIn → String
  | .free => "free"
  | .free_2d => "free_2d"
  | .frozen => "frozen"
  | .spherical => "spherical"
  | .p3d => "p3d"
  | .cor => "cor"
  | .r .x => "rx"
  | .r .y => "ry"
  | .r .z => "rz"
  | .p .x => "px"
  | .p .y => "py"
  | .p .z => "pz"
  | .saddle => "saddle"

/-- `/repo/src/ring/base.py:369-385` `Q_WIDTHS` -/
def BuiltIn.q_width : BuiltIn → Nat
  | .free => 7
  | .free_2d => 3
  | .frozen => 0
  | .spherical => 4
  | .p3d => 3
  | .cor => 10
  | .r _ => 1
  | .p _ => 1
  | .saddle => 2

/-- `/repo/src/ring/base.py:386-400` `QD_WIDTHS` -/
def BuiltIn.qd_width : BuiltIn → Nat
  | .free => 6
  | .free_2d => 3
  | .frozen => 0
  | .spherical => 3
  | .p3d => 3
  | .cor => 9
  | .r _ => 1
  | .p _ => 1
  | .saddle => 2

/-- `/repo/src/ring/algorithms/jcalc.py:934-1050` `_joint_types`. `_inv_kin_free_2d` (line 929-931)
calls the two-argument function returned by `_inv_kin_rxyz_factory` with one argument, which raises
`TypeError`; `cor` and `saddle` have no `inv_kin`. -/
noncomputable def BuiltIn.model {π : Type} : BuiltIn → JointModel ℝ π
  | .free => {
      transform := fun q _ => _free_transform q
      motion := [mr .x, mr .y, mr .z, mp .x, mp .y, mp .z].map fun m _ => m
      p_control_term := some _p_control_term_free
      coordinate_vector_to_q := some _coordinate_vector_to_q_free_spherical_cor
      inv_kin := some fun x _ => .ok (quatList x.rot ++ vecList x.pos) }
  | .free_2d => {
      transform := fun q _ => _free_2d_transform q
      motion := [mr .x, mp .y, mp .z].map fun m _ => m
      p_control_term := some _p_control_term_free_2d
      coordinate_vector_to_q := some _coordinate_vector_to_q_free_2d
      inv_kin := some fun _ _ => .error .type }
  | .frozen => {
      transform := fun _ _ => _frozen_transform
      motion := []
      p_control_term := some _p_control_term_frozen
      coordinate_vector_to_q := some fun q => q
      inv_kin := some fun _ _ => .ok [] }
  | .spherical => {
      transform := fun q _ => _spherical_transform q
      motion := [mr .x, mr .y, mr .z].map fun m _ => m
      p_control_term := some _p_control_quaternion
      coordinate_vector_to_q := some _coordinate_vector_to_q_free_spherical_cor
      inv_kin := some fun x _ => .ok (quatList x.rot) }
  | .p3d => {
      transform := fun q _ => _p3d_transform q
      motion := [mp .x, mp .y, mp .z].map fun m _ => m
      p_control_term := some _p_control_term_pxyz_p3d
      coordinate_vector_to_q := some fun q => q
      inv_kin := some fun x _ => .ok (vecList x.pos) }
  | .cor => {
      transform := fun q _ => _cor_transform q
      motion := [mr .x, mr .y, mr .z, mp .x, mp .y, mp .z, mp .x, mp .y, mp .z].map fun m _ => m
      p_control_term := some _p_control_term_free
      coordinate_vector_to_q := some _coordinate_vector_to_q_free_spherical_cor
      inv_kin := none }
  | .r a => {
      transform := fun q _ => _rxyz_transform a.unit q
      motion := [fun _ => mr a]
      p_control_term := some _p_control_term_rxyz
      coordinate_vector_to_q := some fun q => q.map wrap_to_pi
      inv_kin := some fun x _ => .ok (_inv_kin_rxyz a x) }
  | .p a => {
      transform := fun q _ => _pxyz_transform a.unit q
      motion := [fun _ => mp a]
      p_control_term := some _p_control_term_pxyz_p3d
      coordinate_vector_to_q := some fun q => q
      inv_kin := some fun x _ => .ok (_inv_kin_pxyz a x) }
  | .saddle => {
      transform := fun q _ => _saddle_transform q
      motion := [mr .y, mr .z].map fun m _ => m
      p_control_term := some _p_control_term_rxyz
      coordinate_vector_to_q := some fun q => q.map wrap_to_pi
      inv_kin := none }

end jcalc
end RingLib
