import Verif.Model.Sensors
import Verif.Model.Utils
import Verif.Model.Surgery
import Verif.Model.PdControl

/-!
# Building `X` and `y`: the rest of `/repo/src/ring/algorithms/sensors.py` and
`/repo/src/ring/algorithms/generator/finalize_fns.py`

* A trajectory of poses is a list over time of lists over links, as the array of shape `(time, links)`
  in the code. Taking a link outside of the array raises here; jax returns NaN. All callers take
  indices of names.
* Normalising a vector of length zero gives zero here, NaN in the code.
* `joint_axes` builds the inner dictionaries `{"joint_axes": …}` at the end instead of from the start.
-/

namespace RingLib

namespace maths
open Classical in
/-- `/repo/src/ring/maths.py:196-209` `quat_random` with batch shape `(N,)` -/
noncomputable def quat_randomN {K : Type} (R : Rng K) (key : K) (N : Nat) (maxval : ℝ) :
    List (Quat ℝ) :=
  (List.range N).map fun t =>
    let qs := safe_normalize4
      ⟨R.normal key (N * 4) (t * 4), R.normal key (N * 4) (t * 4 + 1),
        R.normal key (N * 4) (t * 4 + 2), R.normal key (N * 4) (t * 4 + 3)⟩
    if maxval = Real.pi then qs
    else
      let aa := quat_to_rot_axis qs
      quat_rot_axis aa.1 (aa.2 * maxval / Real.pi)

/-- `jnp.deg2rad` -/
noncomputable def deg2rad (x : ℝ) : ℝ := x * Real.pi / 180

/-- `/repo/src/ring/maths.py:19-22` `unit_vectors` with a letter -/
def unit_vectors (xyz : Char) : Py (Vec3 ℝ) :=
  if xyz = 'x' then .ok ⟨1, 0, 0⟩
  else if xyz = 'y' then .ok ⟨0, 1, 0⟩
  else if xyz = 'z' then .ok ⟨0, 0, 1⟩
  else .error .key

end maths

namespace sensors
open maths System
variable {π K : Type}

/-- `xs.take(i, 1)`: one link at all times -/
def takeLink (xs : List (List (Transform ℝ))) (i : Nat) : Py (List (Transform ℝ)) :=
  xs.mapM fun row => pyGet row (i : Int)

/-- `/repo/src/ring/algorithms/sensors.py:311-325` `pose_child_to_parent`, all time steps -/
def pose_child_to_parent (s sys_xs : System ℝ π) (xs : List (List (Transform ℝ))) (a : String × Int) :
    Py (Option (String × List (Quat ℝ))) :=
  if a.2 = -1 then pure none
  else do
    let name_p ← s.idx_to_name a.2
    let i ← sys_xs.name_to_idx a.1
    let p ← sys_xs.name_to_idx name_p
    let q1 ← takeLink xs p
    let q2 ← takeLink xs i
    pure (some (a.1, List.zipWith (fun x_p x_i => quat_mul x_p.rot (quat_inv x_i.rot)) q1 q2))

/-- `/repo/src/ring/algorithms/sensors.py:283-329` `rel_pose` -/
def rel_pose (E : JEnv ℝ π) (s : System ℝ π) (xs : List (List (Transform ℝ)))
    (sys_xs : System ℝ π) : Py (Dict (List (Quat ℝ))) := do
  pyAssert (∀ row ∈ xs, row.length = sys_xs.num_links)
  let ys ← s.scan E.toEnv (fun _ _ a => pose_child_to_parent s sys_xs xs a)
    ((argL s.link_names).and (argL s.link_parents))
  pure (Dict.update [] (ys.filterMap id))

/-- The callback of `root_incl` and `root_full`,
`/repo/src/ring/algorithms/sensors.py:344-350, 369-375` -/
def root_link (f : Quat ℝ → Quat ℝ) (l_map : List (String × Idx))
    (x : List (List (Transform ℝ))) (child_to_parent : Bool) (a : String × Int) :
    Py (Option (String × List (Quat ℝ))) :=
  if a.2 ≠ -1 then pure none
  else do
    let idx ← pyDict l_map a.1
    match idx with
    | .at i => do
      let ts ← takeLink x i
      pure (some (a.1, ts.map fun t => if child_to_parent then quat_inv (f t.rot) else f t.rot))
    | .slice _ _ => .error .type

/-- `/repo/src/ring/algorithms/sensors.py:332-379`: what `root_incl` and `root_full` have in common -/
def root_orientation (f : Quat ℝ → Quat ℝ) (E : JEnv ℝ π) (s : System ℝ π)
    (x : List (List (Transform ℝ))) (sys_x : System ℝ π) (child_to_parent : Bool) :
    Py (Dict (List (Quat ℝ))) := do
  let l_map ← sys_x.idx_map E.toEnv .l
  let ys ← s.scan E.toEnv (fun _ _ a => root_link f l_map x child_to_parent a)
    ((argL s.link_names).and (argL s.link_parents))
  pure (Dict.update [] (ys.filterMap id))

/-- `/repo/src/ring/algorithms/sensors.py:332-354` `root_incl` -/
noncomputable def root_incl (E : JEnv ℝ π) (s : System ℝ π) (x : List (List (Transform ℝ)))
    (sys_x : System ℝ π) (child_to_parent : Bool := false) : Py (Dict (List (Quat ℝ))) :=
  root_orientation (fun q => (quat_project q ⟨0, 0, 1⟩).2) E s x sys_x child_to_parent

/-- `/repo/src/ring/algorithms/sensors.py:357-379` `root_full` -/
def root_full (E : JEnv ℝ π) (s : System ℝ π) (x : List (List (Transform ℝ)))
    (sys_x : System ℝ π) (child_to_parent : Bool := false) : Py (Dict (List (Quat ℝ))) :=
  root_orientation id E s x sys_x child_to_parent

/-! ## joint axes -/

open Classical in
/-- `/repo/src/ring/algorithms/sensors.py:437-444` `ensure_axis_convention` for one link -/
noncomputable def ensure_axis_convention (qs : List (Quat ℝ)) : List (Vec3 ℝ) :=
  let axis := qs.map fun q => (1 / (norm3 q.vec + 1e-6)) • q.vec
  let convention := axis.headD 0
  axis.map fun a => if norm3 (convention - a) > norm3 (convention + a) then -a else a

/-- `/repo/src/ring/algorithms/sensors.py:446-453`: the mean over time, normalised and repeated -/
noncomputable def averageAxis (axes : List (Vec3 ℝ)) : List (Vec3 ℝ) :=
  let mean := (1 / (axes.length : ℝ)) • axes.sum
  List.replicate axes.length ((1 / norm3 mean) • mean)

/-- `/repo/src/ring/algorithms/sensors.py:428-456` `_joint_axes_from_xs` -/
noncomputable def _joint_axes_from_xs (E : JEnv ℝ π) (s : System ℝ π)
    (xs : List (List (Transform ℝ))) (sys_xs : System ℝ π) : Py (Dict (List (Vec3 ℝ))) := do
  let xs ← xs.mapM fun row => s.match_xs E row sys_xs
  let transform2_rot ← xs.mapM fun row => do
    let z ← s.unzip_xs E row
    pure z.2
  let entries ← s.link_names.mapM fun name => do
    let i ← s.name_to_idx name
    let ts ← takeLink transform2_rot i
    pure (name, averageAxis (ensure_axis_convention (ts.map Transform.rot)))
  pure (Dict.update [] entries)

/-- The callback of `_joint_axes_from_sys`, `/repo/src/ring/algorithms/sensors.py:463-473`; `axesOf`
reads the entry `joint_axes` of the parameters of a joint. -/
def axis_from_link (axesOf : π → Py (Vec3 ℝ)) (a : String × String × (LinkRow ℝ × List (String × π))) :
    Py (String × Vec3 ℝ) := do
  let joint_params := a.2.2.2
  let link_type := a.2.1
  let joint_axes ←
    if link_type ∈ ["rx", "ry", "rz"] then unit_vectors ((link_type.toList).getD 1 ' ')
    else if link_type = "rr" then do
      let p ← pyDict joint_params "rr"
      axesOf p
    else if link_type.toList.take 6 = "rr_imp".toList then do
      let p ← pyDict joint_params link_type
      axesOf p
    else pure ⟨1, 0, 0⟩
  pure (a.1, joint_axes)

/-- `/repo/src/ring/algorithms/sensors.py:459-477` `_joint_axes_from_sys` -/
def _joint_axes_from_sys (E : JEnv ℝ π) (axesOf : π → Py (Vec3 ℝ)) (s : System ℝ π) (N : Nat) :
    Py (Dict (List (Vec3 ℝ))) := do
  let ys ← s.scan E.toEnv (fun _ _ a => axis_from_link axesOf a)
    ((argL s.link_names).and ((argL s.link_types).and (argL s.linkRows)))
  pure ((Dict.update [] ys).map fun x => (x.1, List.replicate N x.2))

/-- The loop of the noise, `/repo/src/ring/algorithms/sensors.py:405-411` -/
noncomputable def axesNoise (R : Rng K) (N : Nat) :
    Dict (List (Vec3 ℝ)) → K → Dict (List (Vec3 ℝ)) × K
  | [], key => ([], key)
  | (name, v) :: X, key =>
    let bias := quat_random1 R (R.split key 3 1) (deg2rad 5)
    let noise := quat_randomN R (R.split key 3 2) N (deg2rad 2)
    let dist := noise.map fun n => quat_mul n bias
    let rest := axesNoise R N X (R.split key 3 0)
    ((name, List.zipWith rotate v dist) :: rest.1, rest.2)

/-- `/repo/src/ring/algorithms/sensors.py:405-411`; there is a key if `noisy` -/
noncomputable def addAxesNoise (R : Rng K) (N : Nat) (noisy : Bool) (X : Dict (List (Vec3 ℝ)))
    (key : Option K) : Dict (List (Vec3 ℝ)) × Option K :=
  match noisy, key with
  | true, some k => ((axesNoise R N X k).1, some (axesNoise R N X k).2)
  | _, _ => (X, key)

/-- One pass of the last loop, `/repo/src/ring/algorithms/sensors.py:414-423` -/
noncomputable def axesWorldStep (R : Rng K) (N : Nat) (randomly_flip : Bool)
    (st : Dict (List (Vec3 ℝ)) × Option K) (a : String × Int) :
    Py (Dict (List (Vec3 ℝ)) × Option K) := do
  let v ← pyDict st.1 a.1
  if a.2 = -1 then pure (st.1.set a.1 (List.replicate N 0), st.2)
  else if randomly_flip then
    match st.2 with
    | none => .error .assertion
    | some key =>
      let sign : ℝ := if R.choice (R.split key 2 1) (1 / 2) then 1 else -1
      pure (st.1.set a.1 (v.map (sign • ·)), some (R.split key 2 0))
  else pure st

/-- The options of `joint_axes`. -/
structure AxesArgs where
  noisy : Bool := false
  from_sys : Bool := false
  randomly_flip : Bool := false

/-- `/repo/src/ring/algorithms/sensors.py:382-425` `joint_axes` -/
noncomputable def joint_axes (E : JEnv ℝ π) (R : Rng K) (axesOf : π → Py (Vec3 ℝ)) (s : System ℝ π)
    (xs : List (List (Transform ℝ))) (sys_xs : System ℝ π) (key : Option K) (o : AxesArgs) :
    Py (Dict (List (Vec3 ℝ))) := do
  pyAssert (key.isSome = true ∨ (o.noisy = false ∧ o.randomly_flip = false))
  let N := xs.length
  let X ← if o.from_sys then _joint_axes_from_sys E axesOf s N
    else _joint_axes_from_xs E s xs sys_xs
  let r ← (s.link_names.zip s.link_parents).foldlM (axesWorldStep R N o.randomly_flip)
    (addAxesNoise R N o.noisy X key)
  pure r.1

end sensors

namespace generator
open System sensors maths utils
variable {π K : Type}

/-- An array of `X` or `y`. -/
inductive Arr where
  | vec (v : List (Vec3 ℝ))
  | quat (q : List (Quat ℝ))
  | num (x : ℝ)

/-- `X` or `y` -/
abbrev Data := Dict (Entry Arr)

/-- `/repo/src/ring/algorithms/generator/types.py:10` `OutputExtras` -/
structure Extras (K π : Type) where
  key : K
  q : List (List ℝ)
  x : List (List (Transform ℝ))
  sys : System ℝ π

/-- `(X, y), extras` -/
abbrev Out (K π : Type) := (Data × Data) × Extras K π

/-- the user's function, `/repo/src/ring/algorithms/generator/types.py:21` -/
abbrev UserFn (K π : Type) :=
  K → List (List ℝ) → List (List (Transform ℝ)) → System ℝ π → Py (Data × Data)

/-- `/repo/src/ring/algorithms/generator/finalize_fns.py:16-26` `FinalizeFn` -/
def FinalizeFn (R : Rng K) (finalize_fn : UserFn K π) (o : Out K π) : Py (Out K π) := do
  pyAssert (o.1.1.length = o.1.2.length ∧ o.1.2.length = 0)
  let Xy ← finalize_fn (R.split o.2.key 2 1) o.2.q o.2.x o.2.sys
  pure (Xy, { o.2 with key := R.split o.2.key 2 0 })

/-- a dictionary of quaternions as a part of `y` -/
def quatData (d : Dict (List (Quat ℝ))) : Data := d.map fun x => (x.1, .leaf (.quat x.2))

/-- a dictionary of joint axes as a part of `X` -/
def axesData (d : Dict (List (Vec3 ℝ))) : Data :=
  d.map fun x => (x.1, .dict [("joint_axes", .vec x.2)])

/-- `/repo/src/ring/algorithms/generator/finalize_fns.py:53-65` `JointAxisSensor` -/
noncomputable def JointAxisSensor (E : JEnv ℝ π) (R : Rng K) (axesOf : π → Py (Vec3 ℝ))
    (s : System ℝ π) (a : AxesArgs) (o : Out K π) : Py (Out K π) := do
  let X_joint_axes ← joint_axes E R axesOf s o.2.x o.2.sys (some (R.split o.2.key 2 1)) a
  let X ← dict_union o.1.1 (axesData X_joint_axes)
  pure ((X, o.1.2), { o.2 with key := R.split o.2.key 2 0 })

/-- `/repo/src/ring/algorithms/generator/finalize_fns.py:68-76` `RelPose` -/
def RelPose (E : JEnv ℝ π) (s : System ℝ π) (o : Out K π) : Py (Out K π) := do
  let y_relpose ← rel_pose E s o.2.x o.2.sys
  let y ← dict_union o.1.2 (quatData y_relpose)
  pure ((o.1.1, y), o.2)

/-- `/repo/src/ring/algorithms/generator/finalize_fns.py:79-88` `RootIncl` -/
noncomputable def RootIncl (E : JEnv ℝ π) (s : System ℝ π) (child_to_parent : Bool) (o : Out K π) :
    Py (Out K π) := do
  let y_root_incl ← root_incl E s o.2.x o.2.sys child_to_parent
  let y ← dict_union o.1.2 (quatData y_root_incl)
  pure ((o.1.1, y), o.2)

/-- `/repo/src/ring/algorithms/generator/finalize_fns.py:91-100` `RootFull` -/
def RootFull (E : JEnv ℝ π) (s : System ℝ π) (child_to_parent : Bool) (o : Out K π) :
    Py (Out K π) := do
  let y_root_full ← root_full E s o.2.x o.2.sys child_to_parent
  let y ← dict_union o.1.2 (quatData y_root_full)
  pure ((o.1.1, y), o.2)

/-- The loop of `_imu_data`, `/repo/src/ring/algorithms/generator/finalize_fns.py:128-154` -/
noncomputable def imuLoop (R : Rng K) (xs : List (List (Transform ℝ))) (sys_xs : System ℝ π)
    (a : ImuArgs K) (inv_imu_attachment : Dict String) :
    List String → K → Dict (Dict (List (Vec3 ℝ))) → Py (Dict (Dict (List (Vec3 ℝ))))
  | [], _, X => .ok X
  | segment :: segments, key, X =>
    match inv_imu_attachment.lookup segment with
    | some imuName => do
      let i ← sys_xs.name_to_idx imuName
      let ts ← takeLink xs i
      let m ← imu R ts sys_xs.gravity sys_xs.dt { a with key := some (R.split key 2 1) }
      imuLoop R xs sys_xs a inv_imu_attachment segments (R.split key 2 0) (X.set segment m)
    | none =>
      imuLoop R xs sys_xs a inv_imu_attachment segments key
        (X.set segment [("acc", List.replicate xs.length 0), ("gyr", List.replicate xs.length 0)])

/-- `/repo/src/ring/algorithms/generator/finalize_fns.py:123-155` `_imu_data` -/
noncomputable def _imu_data (E : JEnv ℝ π) (R : Rng K) (key : K) (xs : List (List (Transform ℝ)))
    (sys_xs : System ℝ π) (a : ImuArgs K) : Py (Dict (Dict (List (Vec3 ℝ)))) := do
  let r ← make_sys_noimu E.toEnv sys_xs
  let inv_imu_attachment : Dict String := Dict.update [] (r.2.map fun x => (x.2, x.1))
  imuLoop R xs sys_xs a inv_imu_attachment r.1.link_names key []

/-- a dictionary of measurements as a part of `X` -/
def imuDataEntry (d : Dict (Dict (List (Vec3 ℝ)))) : Data :=
  d.map fun x => (x.1, .dict (x.2.map fun y => (y.1, .vec y.2)))

/-- `/repo/src/ring/algorithms/generator/finalize_fns.py:103-107` `_default_imu_kwargs` -/
noncomputable def defaultImuArgs : ImuArgs K :=
  { noisy := true, low_pass_filter_pos_f_cutoff := some 13.5, low_pass_filter_rot_cutoff := some 16 }

/-- `/repo/src/ring/algorithms/generator/finalize_fns.py:110-120` `IMU` with the options after
`update` -/
noncomputable def IMU (E : JEnv ℝ π) (R : Rng K) (a : ImuArgs K) (o : Out K π) : Py (Out K π) := do
  let X_imu ← _imu_data E R (R.split o.2.key 2 1) o.2.x o.2.sys a
  let X ← dict_union o.1.1 (imuDataEntry X_imu)
  pure ((X, o.1.2), { o.2 with key := R.split o.2.key 2 0 })

/-- The options of `_build_mconfig_batched_generator` that `_finalize_fn` looks at,
`/repo/src/ring/algorithms/generator/base.py:280-302`. The dynamic simulation and the hiding of
injected bodies are the stages `before`. -/
structure FinalizeOpts (K π : Type) where
  before : List (Out K π → Py (Out K π)) := []
  finalize_fn : Option (UserFn K π) := none
  add_X_imus : Option (ImuArgs K) := none
  add_X_jointaxes : Option AxesArgs := none
  add_y_relpose : Bool := false
  add_y_rootincl : Option Bool := none
  add_y_rootfull : Option Bool := none
  use_link_number_in_Xy : Bool := false

/-- `/repo/src/ring/algorithms/generator/base.py:305-311`: the variable `sys_noimu`, if it is bound -/
noncomputable def sysNoImu (E : JEnv ℝ π) (sys_ml : System ℝ π) (p : FinalizeOpts K π) :
    Py (Option (System ℝ π)) :=
  if p.add_X_jointaxes.isSome ∨ p.add_y_relpose = true ∨ p.add_y_rootincl.isSome then
    if sys_ml.findall_imus.length > 0 then do
      let r ← make_sys_noimu E.toEnv sys_ml
      pure (some r.1)
    else .ok (some sys_ml)
  else .ok none

/-- a stage that needs the variable `sys_noimu` -/
def withSys {β : Type} (sys_noimu : Option (System ℝ π)) (f : System ℝ π → β) : Py (List β) :=
  match sys_noimu with
  | none => .error .other
  | some s => .ok [f s]

/-- `Names2Indices(sys_noimu)` as a stage, `/repo/src/ring/algorithms/generator/finalize_fns.py:42-50` -/
def namesStage (s : System ℝ π) (o : Out K π) : Py (Out K π) := do
  let Xy ← Names2Indices s.link_names o.1.1 o.1.2
  pure (Xy, o.2)

/-- `/repo/src/ring/algorithms/generator/base.py:368-371` -/
noncomputable def axesStage (E : JEnv ℝ π) (R : Rng K) (axesOf : π → Py (Vec3 ℝ))
    (sys_noimu : Option (System ℝ π)) (p : FinalizeOpts K π) : Py (List (Out K π → Py (Out K π))) :=
  match p.add_X_jointaxes with
  | some a => withSys sys_noimu fun s => JointAxisSensor E R axesOf s a
  | none => .ok []

/-- `/repo/src/ring/algorithms/generator/base.py:372-373` -/
noncomputable def relStage (E : JEnv ℝ π) (sys_noimu : Option (System ℝ π)) (p : FinalizeOpts K π) :
    Py (List (Out K π → Py (Out K π))) :=
  if p.add_y_relpose then withSys sys_noimu fun s => RelPose E s else .ok []

/-- `/repo/src/ring/algorithms/generator/base.py:374-376` -/
noncomputable def inclStage (E : JEnv ℝ π) (sys_noimu : Option (System ℝ π)) (p : FinalizeOpts K π) :
    Py (List (Out K π → Py (Out K π))) :=
  match p.add_y_rootincl with
  | some c => do
    pyAssert (p.add_y_rootfull.isNone)
    withSys sys_noimu fun s => RootIncl E s c
  | none => .ok []

/-- `/repo/src/ring/algorithms/generator/base.py:377-379` -/
noncomputable def fullStage (E : JEnv ℝ π) (sys_noimu : Option (System ℝ π)) (p : FinalizeOpts K π) :
    Py (List (Out K π → Py (Out K π))) :=
  match p.add_y_rootfull with
  | some c => do
    pyAssert (p.add_y_rootincl.isNone)
    withSys sys_noimu fun s => RootFull E s c
  | none => .ok []

/-- `/repo/src/ring/algorithms/generator/base.py:380-381` -/
def numberStage (sys_noimu : Option (System ℝ π)) (p : FinalizeOpts K π) :
    Py (List (Out K π → Py (Out K π))) :=
  if p.use_link_number_in_Xy then withSys sys_noimu namesStage else .ok []

/-- `pipe`, `/repo/src/ring/algorithms/generator/base.py:357-381` -/
noncomputable def finalizePipe (E : JEnv ℝ π) (R : Rng K) (axesOf : π → Py (Vec3 ℝ))
    (sys_noimu : Option (System ℝ π)) (p : FinalizeOpts K π) :
    Py (List (Out K π → Py (Out K π))) := do
  let axes ← axesStage E R axesOf sys_noimu p
  let rel ← relStage E sys_noimu p
  let incl ← inclStage E sys_noimu p
  let full ← fullStage E sys_noimu p
  let names ← numberStage sys_noimu p
  pure (p.before ++ (p.finalize_fn.toList.map fun f => FinalizeFn R f) ++
    (p.add_X_imus.toList.map fun a => IMU E R a) ++ axes ++ rel ++ incl ++ full ++ names)

/-- `_finalize_fn`, `/repo/src/ring/algorithms/generator/base.py:356-385` -/
noncomputable def _finalize_fn (E : JEnv ℝ π) (R : Rng K) (axesOf : π → Py (Vec3 ℝ))
    (sys_ml : System ℝ π) (p : FinalizeOpts K π) (o : Out K π) : Py (Out K π) := do
  let s ← sysNoImu E sys_ml p
  let pipe ← finalizePipe E R axesOf s p
  pipe.foldlM (fun o f => f o) o

end generator
end RingLib
