import Verif.Model.System

/-!
# Deleting and injecting subsystems

`/repo/src/ring/sys_composer/delete_sys.py` and `/repo/src/ring/sys_composer/inject_sys.py`.
-/

namespace RingLib
namespace System
variable {α π : Type}

/-- `/repo/src/ring/sys_composer/delete_sys.py:92-97` `_find_subsystem_indices`: one pass over
the parent array, appending to `subsys`. -/
def _find_subsystem_indices (parents : List Int) (k : Nat) : List Nat :=
  parents.zipIdx.foldl
    (fun subsys x => if x.1 ∈ subsys.map (fun j : Nat => (j : Int)) then subsys ++ [x.2] else subsys)
    [k]

/-- `/repo/src/ring/sys_composer/delete_sys.py:100-109` `_idx_map_and_keepers`: `keep` ascending,
and the dictionary `{-1: -1, keep[0]: 0, keep[1]: 1, ...}`. -/
def _idx_map_and_keepers (parents : List Int) (subsys : List Nat) :
    List (Int × Int) × List Nat :=
  let keep := (List.range parents.length).filter fun i => i ∉ subsys
  let idx_map := (-1, -1) :: keep.zipIdx.map fun x => ((x.1 : Int), (x.2 : Int))
  (idx_map, keep)

/-- `/repo/src/ring/sys_composer/delete_sys.py:43-44` `take`. -/
def takeKeep {β : Type} (keep : List Nat) (l : List β) : List β :=
  (l.zipIdx.filter fun x => x.2 ∈ keep).map (·.1)

/-- `/repo/src/ring/sys_composer/delete_sys.py:112-114` `_reindex_parent_array`. -/
def _reindex_parent_array (parents : List Int) (subsys : List Nat) : Py (List Int) :=
  let (idx_map, keep) := _idx_map_and_keepers parents subsys
  (takeKeep keep parents).mapM fun p => pyDict idx_map p

/-- `/repo/src/ring/sys_composer/delete_sys.py:36-89`: `delete_subsystem` for one name with
`strict=True`. The callback `filter_arrays` returns the four slices and the index; the lists
`d, a, ss, sz` are those with index in `keep`. -/
def delete_subsystem [Field α] (E : Env α π) (s : System α π) (link_name : String) :
    Py (System α π) := do
  pyAssert (link_name ∈ s.link_names)
  let k ← s.name_to_idx link_name
  let subsys := _find_subsystem_indices s.link_parents k
  let (idx_map, keep) := _idx_map_and_keepers s.link_parents subsys
  let ys ← s.scan E
    (fun _ _ (x : List α × List α × List α × List α × Nat) => pure x)
    ((argD s.link_damping).and <| (argD s.link_armature).and <|
      (argD s.link_spring_stiffness).and <| (argQ s.link_spring_zeropoint).and
        (argL (List.range s.num_links)))
  let kept := ys.filter fun x => x.2.2.2.2 ∈ keep
  let d ← jnpConcatenate (kept.map (·.1))
  let a ← jnpConcatenate (kept.map (·.2.1))
  let ss ← jnpConcatenate (kept.map (·.2.2.1))
  let sz ← jnpConcatenate (kept.map (·.2.2.2.1))
  let link_parents ← _reindex_parent_array s.link_parents subsys
  let geoms ← (s.geoms.filter fun geom => geom.link_idx ∈ keep.map fun j : Nat => (j : Int)).mapM
    fun geom => do
      let i ← pyDict idx_map geom.link_idx
      pure { geom with link_idx := i }
  parse E {
    link_parents := link_parents
    links := jaxTake s.links keep
    joint_params := s.joint_params.map fun x => (x.1, jaxTake x.2 keep)
    link_types := takeKeep keep s.link_types
    link_damping := d
    link_armature := a
    link_spring_stiffness := ss
    link_spring_zeropoint := sz
    dt := s.dt
    geoms := geoms
    gravity := s.gravity
    integration_method := s.integration_method
    mass_mat_iters := s.mass_mat_iters
    link_names := takeKeep keep s.link_names
    model_name := s.model_name
    omc := takeKeep keep s.omc }

/-- `/repo/src/ring/sys_composer/delete_sys.py:30-34`: one name, any `strict`. -/
def delete_subsystem' [Field α] (E : Env α π) (s : System α π) (link_name : String)
    (strict : Bool := true) : Py (System α π) :=
  if strict then delete_subsystem E s link_name
  else match delete_subsystem E s link_name with
    | .error .assertion => .ok s
    | r => r

/-- `/repo/src/ring/sys_composer/delete_sys.py:25-28`: a list of names. -/
def delete_subsystems [Field α] (E : Env α π) (s : System α π) (link_names : List String)
    (strict : Bool := true) : Py (System α π) :=
  link_names.foldlM (fun s ln => delete_subsystem' E s ln strict) s

/-- `/repo/src/ring/sys_composer/delete_sys.py:12-18` `make_sys_noimu`. -/
def make_sys_noimu [Field α] (E : Env α π) (s : System α π)
    (imu_link_names : Option (List String) := none) :
    Py (System α π × List (String × String)) := do
  let imu_link_names := imu_link_names.getD s.findall_imus
  let imu_attachment ← imu_link_names.mapM fun name => do
    let p ← s.parent_name name
    pure (name, p)
  let sys_noimu ← delete_subsystems E s imu_link_names
  pure (sys_noimu, imu_attachment)

/-! ## inject -/

/-- `/repo/src/ring/sys_composer/inject_sys.py:9-12` `_tree_nan_like`: the first row, made NaN and
repeated. -/
def _tree_nan_like (E : Env α π) (tree : List π) (repeats : Nat) : List π :=
  match tree with
  | [] => []
  | x :: _ => List.replicate repeats (E.nanLike x)

/-- `/repo/src/ring/sys_composer/inject_sys.py:66-84`: both `joint_params` dictionaries, each
completed by the keys of the other one. (python writes into the dictionaries of the arguments.) -/
def unionJointParams (E : Env α π) (jp1 jp2 : List (String × List π)) (n1 n2 : Nat) :
    List (String × List π) × List (String × List π) :=
  let missing1 := jp2.filter fun x => x.1 ∉ jp1.map (·.1)
  let jp1' := jp1 ++ missing1.map fun x => (x.1, _tree_nan_like E x.2 n1)
  let missing2 := jp1'.filter fun x => x.1 ∉ jp2.map (·.1)
  let jp2' := jp2 ++ missing2.map fun x => (x.1, _tree_nan_like E x.2 n2)
  (jp1', jp2')

/-- `tree_batch([a1, a2], True, "jax")` on dictionaries with the same keys: key-wise
concatenation; different keys raise. -/
def concatJointParams (jp1 jp2 : List (String × List π)) : Py (List (String × List π)) :=
  if (∀ x ∈ jp1, x.1 ∈ jp2.map (·.1)) ∧ (∀ x ∈ jp2, x.1 ∈ jp1.map (·.1)) then
    .ok (jp1.map fun x => (x.1, x.2 ++ (jp2.lookup x.1).getD []))
  else .error .value

/-- `/repo/src/ring/sys_composer/inject_sys.py:22-110` `inject_system`. -/
def inject_system [Field α] (E : Env α π) (sys sub_sys : System α π)
    (at_body : Option String := none) : Py (System α π) := do
  let new_world : Int ← match at_body with
    | none => pure (-1)
    | some b => do let i ← sys.name_to_idx b; pure (i : Int)
  let N := sys.num_links
  let new_parent : Int → Int := fun old_parent =>
    if old_parent ≠ -1 then old_parent + N else new_world
  let sub_parents := sub_sys.link_parents.map new_parent
  let sub_geoms := sub_sys.geoms.map fun geom => { geom with link_idx := new_parent geom.link_idx }
  let (jp1, jp2) :=
    unionJointParams E sys.joint_params sub_sys.joint_params sys.num_links sub_sys.num_links
  let jp ← concatJointParams jp1 jp2
  parse E {
    link_parents := sys.link_parents ++ sub_parents
    links := sys.links ++ sub_sys.links
    joint_params := jp
    link_types := sys.link_types ++ sub_sys.link_types
    link_damping := sys.link_damping ++ sub_sys.link_damping
    link_armature := sys.link_armature ++ sub_sys.link_armature
    link_spring_stiffness := sys.link_spring_stiffness ++ sub_sys.link_spring_stiffness
    link_spring_zeropoint := sys.link_spring_zeropoint ++ sub_sys.link_spring_zeropoint
    dt := sys.dt
    geoms := sys.geoms ++ sub_geoms
    gravity := sys.gravity
    integration_method := sys.integration_method
    mass_mat_iters := sys.mass_mat_iters
    link_names := sys.link_names ++ sub_sys.link_names
    model_name := sys.model_name
    omc := sys.omc ++ sub_sys.omc }

end System
end RingLib
