import Verif.Model.Jcalc

/-!
# Forward and inverse kinematics, coordinates, relative poses

`/repo/src/ring/algorithms/kinematics.py`, `/repo/src/ring/sim2real/sim2real.py`,
`/repo/src/ring/base.py` (`coordinate_vector_to_q`, `State.create`) and `rel_pose`, `root_incl`,
`root_full` of `/repo/src/ring/algorithms/sensors.py`.

Time series: the python code `vmap`s over the time axis, the model describes one time step; a
recording is a list of time steps.
-/

namespace RingLib
open algebra

namespace System
variable {α π : Type}

/-- A scan whose callback mutates a local variable of the enclosing function (a dictionary, a list,
`nonlocal`): the variable travels along in the previous result that `scan` hands to the callback. -/
def scanState {O Y σ : Type} (E : Env α π) (s : System α π)
    (f : σ → IdxMap → O → Py (Y × σ)) (init : σ) (arg : ScanArg O) (reverse : Bool := false) :
    Py (List Y × σ) := do
  let ys ← s.scan E
    (fun y m o => f (match y with
      | none => init
      | some y => y.2) m o) arg reverse
  pure (ys.map (·.1), match (if reverse then ys.head? else ys.getLast?) with
    | none => init
    | some y => y.2)

/-- `sys.links[i].joint_params`: the dictionary of the parameters of one link -/
def paramsAt (s : System α π) (i : Nat) : List (String × π) :=
  s.joint_params.filterMap fun x => (x.2[i]?).map fun p => (x.1, p)

/-- `sys.links` as the array of its rows, each with its joint parameters -/
def linkRows (s : System α π) : List (LinkRow α × List (String × π)) :=
  s.links.mapIdx fun i row => (row, s.paramsAt i)

/-- `d[k] = v` -/
def dictSet {β : Type} (d : Int → Option β) (k : Int) (v : β) : Int → Option β :=
  fun j => if j = k then some v else d j

/-- `d[k]` -/
def dictGet {β : Type} (d : Int → Option β) (k : Int) : Py β :=
  match d k with
  | some v => .ok v
  | none => .error .key

/-- `/repo/src/ring/algorithms/kinematics.py:13-42` `forward_kinematics_transforms`. -/
def forward_kinematics_transforms [Ring α] (E : JEnv α π) (s : System α π) (q : List α) :
    Py (List (Transform α) × System α π) := do
  let (ys, _) ← s.scanState E.toEnv
    (fun eps_to_l _
        (x : List α × (LinkRow α × List (String × π)) × Nat × Int × String) => do
      let (q, link, link_idx, parent_idx, joint_type) := x
      let transform2 ← jcalc.jcalc_transform E joint_type q link.2
      let transform := transform_mul transform2 link.1.transform1
      let parent ← dictGet eps_to_l parent_idx
      let pose := transform_mul transform parent
      pure ((pose, { link.1 with transform := transform, transform2 := transform2 }),
        dictSet eps_to_l link_idx pose))
    (dictSet (fun _ => none) (-1) Transform.zero)
    ((argQ q).and <| (argL s.linkRows).and <| (argL (List.range s.num_links)).and <|
      (argL s.link_parents).and (argL s.link_types))
  pure (ys.map (·.1), { s with links := ys.map (·.2) })

/-- `/repo/src/ring/base.py:1026-1039` `State` -/
structure State (α : Type) where
  q : List α
  qd : List α
  x : List (Transform α)

/-- `/repo/src/ring/algorithms/kinematics.py:45-54` `forward_kinematics`. -/
def forward_kinematics [Ring α] (E : JEnv α π) (s : System α π) (state : State α) :
    Py (System α π × State α) := do
  let (x, sys) ← forward_kinematics_transforms E s state.q
  pure (sys, { state with x := x })

/-- `Transform.zero()` for the world, else `x[p]` (a jax array index, never out of range for the
parents of a well-formed system) -/
def poseOrWorld [Zero α] [One α] (x : List (Transform α)) (p : Int) : Py (Transform α) :=
  if p = -1 then .ok Transform.zero else pyGet x p

/-- `/repo/src/ring/algorithms/kinematics.py:65-81` the callback of `inverse_kinematics`. -/
def inverse_kinematics_link [Ring α] (E : JEnv α π) (x : List (Transform α))
    (a : Nat × Transform α × (LinkRow α × List (String × π)) × Int × String) : Py (List α) := do
  let x_p ← poseOrWorld x a.2.2.2.1
  let joint_params ← jcalc._limit_scope_of_joint_params a.2.2.2.2 a.2.2.1.2
  let transform_p_to_i := transform_mul a.2.1 (transform_inv x_p)
  let transform2 := transform_mul transform_p_to_i (transform_inv a.2.2.1.1.transform1)
  let jm ← jcalc.get_joint_model E a.2.2.2.2
  match jm.inv_kin with
  | none => .error .notImplemented
  | some inv_kin_link => inv_kin_link transform2 joint_params

/-- `/repo/src/ring/algorithms/kinematics.py:57-97` `inverse_kinematics`. -/
def inverse_kinematics [Ring α] (E : JEnv α π) (s : System α π) (state : State α) :
    Py (State α) := do
  let x := state.x
  let qs ← s.scan E.toEnv (fun _ _ a => inverse_kinematics_link E x a)
    ((argL (List.range s.num_links)).and <| (argL x).and <| (argL s.linkRows).and <|
      (argL s.link_parents).and (argL s.link_types))
  let q ← jnpConcatenate qs
  let n ← s.q_size E.toEnv
  pyAssert (q.length = n)
  pure { state with q := q }

/-- `/repo/src/ring/base.py:822-836` the callback of `coordinate_vector_to_q` -/
def to_q_link (E : JEnv α π) (custom_joints : String → Option (List α → List α))
    (a : String × List α) : Py (List α) := do
  let jm ← jcalc.get_joint_model E a.1
  let to_q := match custom_joints a.1 with
    | some f => some f
    | none => jm.coordinate_vector_to_q
  match to_q with
  | none => .error .notImplemented
  | some to_q => pure (to_q a.2)

/-- `/repo/src/ring/base.py:811-839` `coordinate_vector_to_q`; `custom_joints` is the dictionary of
user supplied functions. -/
def coordinate_vector_to_q (E : JEnv α π) (s : System α π) (q : List α)
    (custom_joints : String → Option (List α → List α) := fun _ => none) : Py (List α) := do
  let qs ← s.scan E.toEnv (fun _ _ a => to_q_link E custom_joints a)
    ((argL s.link_types).and (argQ q))
  jnpConcatenate qs

/-- `/repo/src/ring/base.py:1071-1076` `replace_by_unit_quat` -/
def replace_by_unit_quat [One α] (q : List α) (m : IdxMap) (a : String × Nat) :
    Py (Unit × List α) :=
  if joint_type_is_free_or_cor_or_spherical a.1 then do
    let sl ← m.q a.2
    pure ((), q.set sl.1 1)
  else pure ((), q)

/-- `/repo/src/ring/base.py:1067-1083` the `q` that `State.create` starts from -/
def State.init_q [Zero α] [One α] (E : JEnv α π) (s : System α π) : Py (List α) := do
  let n ← s.q_size E.toEnv
  let r ← s.scanState E.toEnv replace_by_unit_quat (List.replicate n 0)
    ((argL s.link_types).and (argL (List.range s.num_links)))
  pure r.2

/-- `/repo/src/ring/base.py:1041-1093` `State.create` without `key`. -/
def State.create [Field α] (E : JEnv α π) (s : System α π) (q qd : Option (List α) := none)
    (x : Option (List (Transform α)) := none) : Py (State α) := do
  let q ← match q with
    | some q => pure q
    | none => State.init_q E s
  let qd ← match qd with
    | some qd => pure qd
    | none => do
      let n ← s.qd_size E.toEnv
      pure (List.replicate n 0)
  let x := x.getD (List.replicate s.num_links Transform.zero)
  pure ⟨q, qd, x⟩

/-- `/repo/src/ring/base.py:1063-1066` `State.create` with `key`: `z` is the standard normal sample
of size `q_size`. -/
def State.create_key [Field α] (E : JEnv α π) (s : System α π) (z : List α)
    (custom_joints : String → Option (List α → List α) := fun _ => none) : Py (State α) := do
  let q ← s.coordinate_vector_to_q E z custom_joints
  State.create E s (some q)

/-! ## sim2real -/

/-- the pose relative to the parent, `/repo/src/ring/sim2real/sim2real.py:117-122` -/
def parentToLink [Ring α] (xs : List (Transform α)) (x : Nat × Int) : Py (Transform α) := do
  let x_i ← pyGet xs x.1
  if x.2 = -1 then pure x_i
  else do
    let x_p ← pyGet xs x.2
    pure (transform_mul x_i (transform_inv x_p))

/-- `/repo/src/ring/sim2real/sim2real.py:116-126` the callback of `unzip_xs` -/
def unzip_link [Ring α] (xs : List (Transform α)) (x : Nat × Int) :
    Py (Transform α × Transform α) := do
  let x_parent_to_link ← parentToLink xs x
  pure ((⟨x_parent_to_link.pos, maths.unitQuat⟩ : Transform α),
    (⟨0, x_parent_to_link.rot⟩ : Transform α))

/-- `/repo/src/ring/sim2real/sim2real.py:99-130` `unzip_xs`, one time step. -/
def unzip_xs [Ring α] (E : JEnv α π) (s : System α π) (xs : List (Transform α)) :
    Py (List (Transform α) × List (Transform α)) := do
  pyAssert (xs.length = s.num_links)
  let ys ← s.scan E.toEnv (fun _ _ a => unzip_link xs a)
    ((argL (List.range s.num_links)).and (argL s.link_parents))
  pure (ys.map (·.1), ys.map (·.2))

/-- `/repo/src/ring/sim2real/sim2real.py:155-158` the callback of `zip_xs` -/
def zip_link [Ring α] (xs_transform1 xs_transform2 : List (Transform α))
    (eps_to_l : Int → Option (Transform α)) (_ : IdxMap) (x : Nat × Int) :
    Py (Transform α × (Int → Option (Transform α))) := do
  let t2 ← pyGet xs_transform2 x.1
  let t1 ← pyGet xs_transform1 x.1
  let transform := transform_mul t2 t1
  let parent ← dictGet eps_to_l x.2
  let pose := transform_mul transform parent
  pure (pose, dictSet eps_to_l x.1 pose)

/-- `/repo/src/ring/sim2real/sim2real.py:133-162` `zip_xs`, one time step. -/
def zip_xs [Ring α] (E : JEnv α π) (s : System α π) (xs_transform1 xs_transform2 : List (Transform α)) :
    Py (List (Transform α)) := do
  pyAssert (xs_transform1.length = s.num_links)
  pyAssert (xs_transform2.length = s.num_links)
  let r ← s.scanState E.toEnv (zip_link xs_transform1 xs_transform2)
    (dictSet (fun _ => none) (-1) Transform.zero)
    ((argL (List.range s.num_links)).and (argL s.link_parents))
  pure r.1

/-- `/repo/src/ring/sim2real/sim2real.py:228-237` `_overwrite_transform_of_link_then_update`, one
time step. -/
def _overwrite_transform_of_link_then_update [Ring α] (E : JEnv α π) (s : System α π)
    (xs : List (Transform α)) (xs_new_link : Transform α) (new_link_idx : Nat) :
    Py (List (Transform α)) := do
  let (transform1, transform2) ← unzip_xs E s xs
  zip_xs E s (transform1.set new_link_idx xs_new_link)
    (transform2.set new_link_idx Transform.zero)

/-- `/repo/src/ring/sim2real/sim2real.py:171-188` `delete_to_world_pos_rot`, one time step. -/
def delete_to_world_pos_rot [Ring α] (E : JEnv α π) (s : System α π) (xs : List (Transform α)) :
    Py (List (Transform α)) := do
  pyAssert (xs.length = s.num_links)
  s.link_parents.zipIdx.foldlM
    (fun xs (x : Int × Nat) =>
      if x.1 = -1 then _overwrite_transform_of_link_then_update E s xs Transform.zero x.2
      else pure xs) xs

/-- `/repo/src/ring/sim2real/sim2real.py:52-59` the callback of `xs_from_raw`; `pos` and `quat` are
given for every entry of the dictionary. -/
def xs_from_raw_link [Ring α] (link_name_pos_rot : List (String × Transform α)) (qinv : Bool)
    (t_eps : Transform α) (link_name : String) : Py (Transform α) := do
  let t ← pyDict link_name_pos_rot link_name
  let q := if qinv then maths.quat_inv t.rot else t.rot
  pure (transform_mul ⟨t.pos, q⟩ (transform_inv t_eps))

/-- `/repo/src/ring/sim2real/sim2real.py:40-47` the frame that becomes the new world: `first` is the
dictionary at time zero. -/
def eps_transform [Ring α] (first : List (String × Transform α)) (eps_frame : Option String)
    (qinv : Bool) : Py (Transform α) :=
  match eps_frame with
  | none => pure Transform.zero
  | some name => do
    let eps ← pyDict first name
    pure ⟨eps.pos, if qinv then maths.quat_inv eps.rot else eps.rot⟩

/-- `/repo/src/ring/sim2real/sim2real.py:13-66` `xs_from_raw`, one time step: `first` is the raw data
at time zero, `link_name_pos_rot` the raw data at the time step. -/
def xs_from_raw [Ring α] (E : JEnv α π) (s : System α π)
    (first link_name_pos_rot : List (String × Transform α)) (eps_frame : Option String := none)
    (qinv : Bool := false) : Py (List (Transform α)) := do
  let t_eps ← eps_transform first eps_frame qinv
  let xs ← s.scan E.toEnv (fun _ _ a => xs_from_raw_link link_name_pos_rot qinv t_eps a)
    (argL s.link_names)
  match xs with
  | [] => .error .index
  | _ => pure xs

/-- `/repo/src/ring/sim2real/sim2real.py:69-96` `match_xs`, one time step. -/
def match_xs [Ring α] (E : JEnv α π) (s : System α π) (xs : List (Transform α))
    (sys_xs : System α π) : Py (List (Transform α)) := do
  pyAssert (xs.length = sys_xs.num_links)
  let dict ← sys_xs.link_names.mapM fun name => do
    let i ← sys_xs.name_to_idx name
    let x ← pyGet xs i
    pure (name, x)
  xs_from_raw E s dict dict

/-! ## targets -/

/-- `/repo/src/ring/algorithms/sensors.py:311-325` `pose_child_to_parent` -/
def pose_child_to_parent [Ring α] (s sys_xs : System α π) (xs : List (Transform α))
    (a : String × Int) : Py (Option (String × Quat α)) :=
  if a.2 = -1 then pure none
  else do
    let name_p ← s.idx_to_name a.2
    let i ← sys_xs.name_to_idx a.1
    let p ← sys_xs.name_to_idx name_p
    let x_p ← pyGet xs p
    let x_i ← pyGet xs i
    pure (some (a.1, maths.quat_mul x_p.rot (maths.quat_inv x_i.rot)))

/-- `/repo/src/ring/algorithms/sensors.py:283-329` `rel_pose`, one time step; the dictionary is
returned as the list of its assignments. -/
def rel_pose [Ring α] (E : JEnv α π) (s : System α π) (xs : List (Transform α))
    (sys_xs : Option (System α π) := none) : Py (List (String × Quat α)) := do
  let sys_xs := sys_xs.getD s
  pyAssert (xs.length = sys_xs.num_links)
  let ys ← s.scan E.toEnv (fun _ _ a => pose_child_to_parent s sys_xs xs a)
    ((argL s.link_names).and (argL s.link_parents))
  pure (ys.filterMap id)

/-- `/repo/src/ring/algorithms/sensors.py:344-350` (and 369-375) the callback -/
def root_link [Ring α] (f : Quat α → Quat α) (l_map : List (String × Idx))
    (x : List (Transform α)) (child_to_parent : Bool) (a : String × Int) :
    Py (Option (String × Quat α)) :=
  if a.2 ≠ -1 then pure none
  else do
    let idx ← pyDict l_map a.1
    match idx with
    | .at i => do
      let t ← pyGet x i
      let q_i := f t.rot
      pure (some (a.1, if child_to_parent then maths.quat_inv q_i else q_i))
    | .slice _ _ => .error .type

/-- `/repo/src/ring/algorithms/sensors.py:332-354` `root_incl` (with `f = quat_project(·, z)[1]`) and
`/repo/src/ring/algorithms/sensors.py:357-379` `root_full` (with `f = id`), one time step. -/
def root_orientation [Ring α] (f : Quat α → Quat α) (E : JEnv α π) (s : System α π)
    (x : List (Transform α)) (sys_x : System α π) (child_to_parent : Bool := false) :
    Py (List (String × Quat α)) := do
  let l_map ← sys_x.idx_map E.toEnv .l
  let ys ← s.scan E.toEnv (fun _ _ a => root_link f l_map x child_to_parent a)
    ((argL s.link_names).and (argL s.link_parents))
  pure (ys.filterMap id)

end System
end RingLib
