import Verif.Model.Morph
import Verif.Model.Kinematics

/-!
# `/repo/src/ring/sys_composer/morph_sys.py`: the morphed system

Batched transforms are lists with one entry per link, `index_set` is `List.set`.
-/

namespace RingLib
namespace morph
open System algebra
variable {α π : Type}

/-- `jnp.vstack(rows)`: at least one row is required -/
def vstack {β : Type} (rows : List β) : Py (List β) := if rows = [] then .error .value else .ok rows

/-- `/repo/src/ring/sys_composer/morph_sys.py:246`: the poses of all links in the state that
`State.create` starts from -/
def restPoses [Field α] (E : JEnv α π) (s : System α π) : Py (List (Transform α)) := do
  let state ← State.create E s
  let r ← forward_kinematics E s state
  pure r.2.x

/-- `/repo/src/ring/sys_composer/morph_sys.py:265-272`: one geometry when link `idx` gets the frame of its
new parent -/
def compensate [Ring α] (idx : Int) (x_parent_to_this_node : Transform α) (geom : Geometry α) :
    Geometry α :=
  if geom.link_idx = idx then
    { geom with transform := transform_mul geom.transform x_parent_to_this_node }
  else geom

/-- one pass of the loop `/repo/src/ring/sys_composer/morph_sys.py:253-273`; `acc` are `x_mod` and
`sys.geoms` -/
def moveUp [Ring α] (mod_geoms : Bool) (x : List (Transform α))
    (acc : List (Transform α) × List (Geometry α)) (node : Node) :
    Py (List (Transform α) × List (Geometry α)) :=
  if node.parent_changed = true ∧ node.new_parent_old_indices ≠ -1 then do
    let x_this_node ← pyGet x node.link_idx_old_indices
    let x_parent ← pyGet x node.new_parent_old_indices
    pure (acc.1.set node.link_idx_old_indices.toNat x_parent,
      if mod_geoms then acc.2.map
        (compensate node.link_idx_old_indices (transform_mul x_this_node (transform_inv x_parent)))
      else acc.2)
  else .ok acc

/-- the loop `/repo/src/ring/sys_composer/morph_sys.py:276-293` with its `break` -/
def setTransforms [Ring α] (structure_ : List Node) (x_mod : List (Transform α))
    (breakearly : Option Nat) : List Int → List (Transform α) → Py (List (Transform α))
  | [], new_transform1s => .ok new_transform1s
  | link_idx :: rest, new_transform1s => do
    let node ← pyGet structure_ link_idx
    let x_new_parent ← poseOrWorld x_mod node.new_parent_old_indices
    let x_link ← pyGet x_mod link_idx
    let t := new_transform1s.set link_idx.toNat (transform_mul x_link (transform_inv x_new_parent))
    if breakearly.map Int.ofNat = some link_idx then pure t
    else setTransforms structure_ x_mod breakearly rest t

/-- `/repo/src/ring/sys_composer/morph_sys.py:238-295` `_new_transform1` -/
def _new_transform1 [Field α] (E : JEnv α π) (s : System α π) (permutation : List Int)
    (structure_ : List Node) (mod_geoms : Bool := false) (move_cs_one_up : Bool := true)
    (breakearly : Option Nat := none) : Py (System α π × List (Transform α)) := do
  let x ← restPoses E s
  let (x_mod, geoms) ← (if move_cs_one_up then structure_ else []).foldlM (moveUp mod_geoms x)
    (x, s.geoms)
  let t ← setTransforms structure_ x_mod breakearly permutation (s.links.map (·.transform1))
  pure ({ s with geoms := geoms }, t)

/-- `/repo/src/ring/sys_composer/morph_sys.py:146-159`: the link whose position is replaced -/
def useLink (structure_ : List Node) (link_idx : Nat) : Py (Option Int) := do
  let node ← pyGet structure_ (link_idx : Int)
  if node.parent_changed = true ∧ node.new_parent_old_indices ≠ -1 then do
    let up ← pyGet structure_ node.new_parent_old_indices
    pure (if up.new_parent_old_indices ≠ -1 then some up.new_parent_old_indices else none)
  else pure (some (link_idx : Int))

/-- `/repo/src/ring/sys_composer/morph_sys.py:161-172`: `sys_mod` -/
def withPos (s : System α π) (old : List (Vec3 α)) : Option Int → Py (System α π)
  | none => .ok s
  | some use => do
    let pos ← pyGet old use
    pure { s with links := s.links.modify use.toNat fun row =>
      { row with transform1 := { row.transform1 with pos := pos } } }

/-- one pass of the loop `/repo/src/ring/sys_composer/morph_sys.py:145-179` -/
def cornerOf [Field α] (E : JEnv α π) (s : System α π) (permutation : List Int)
    (structure_ : List Node) (old : List (Vec3 α)) (link_idx : Nat) : Py (Vec3 α) := do
  let use ← useLink structure_ link_idx
  let sys_mod ← withPos s old use
  let r ← _new_transform1 E sys_mod permutation structure_ (breakearly := some link_idx)
  let t ← pyGet r.2 (link_idx : Int)
  pure t.pos

/-- `/repo/src/ring/sys_composer/morph_sys.py:143-180` `_new_pos_min_max` -/
def _new_pos_min_max [Field α] (E : JEnv α π) (s : System α π) (permutation : List Int)
    (structure_ : List Node) (old : List (Vec3 α)) : Py (List (Vec3 α)) := do
  let new ← (List.range s.num_links).mapM (cornerOf E s permutation structure_ old)
  vstack new

/-- `jnp.where(a > b, b, a)`, `/repo/src/ring/sys_composer/morph_sys.py:184-188` -/
def lower (E : Env α π) (a b : Vec3 α) : Vec3 α :=
  let f := fun a b => if E.ge b a = true then a else b
  ⟨f a.x b.x, f a.y b.y, f a.z b.z⟩

/-- `jnp.where(b < a, a, b)`, `/repo/src/ring/sys_composer/morph_sys.py:189-193` -/
def upper (E : Env α π) (a b : Vec3 α) : Vec3 α :=
  let f := fun a b => if E.ge b a = true then b else a
  ⟨f a.x b.x, f a.y b.y, f a.z b.z⟩

/-- `_permute` of a batched object, `/repo/src/ring/sys_composer/morph_sys.py:199-200` -/
def permuteArr {β : Type} (permutation : List Int) (obj : List β) : Py (List β) :=
  permutation.mapM fun i => pyGet obj i

/-- `_permute` of a list, `/repo/src/ring/sys_composer/morph_sys.py:201-202` -/
def permuteList {β : Type} (permutation : List Int) (obj : List β) : Py (List β) :=
  (List.range obj.length).mapM fun (i : Nat) => do
    let j ← pyGet permutation (i : Int)
    pyGet obj j

/-- `/repo/src/ring/sys_composer/morph_sys.py:298-315` `_permute_modify_geoms` -/
def _permute_modify_geoms (geoms : List (Geometry α)) (structure_ : List Node) :
    Py (List (Geometry α)) :=
  geoms.mapM fun geom =>
    if geom.link_idx ≠ -1 then do
      let neighbours ← pyGet structure_ geom.link_idx
      pure { geom with link_idx := neighbours.link_idx_new_indices }
    else .ok geom

/-- the entries of `joint_properties`, `/repo/src/ring/sys_composer/morph_sys.py:341-343` -/
structure JointProps (α π : Type) where
  damp : List α
  arma : List α
  stiff : List α
  zero : List α
  typ : String
  params : List (String × π)

/-- `/repo/src/ring/sys_composer/morph_sys.py:318-335` `_per_link_arrays`, zipped with the types and the
parameters of the links (`/repo/src/ring/sys_composer/morph_sys.py:340-343`; `zip` stops at the shortest) -/
def jointProperties (E : Env α π) (s : System α π) : Py (List (JointProps α π)) := do
  let arrays ← s.scan E (fun _ _ (x : List α × List α × List α × List α) => pure x)
    ((argD s.link_damping).and <| (argD s.link_armature).and <|
      (argD s.link_spring_stiffness).and (argQ s.link_spring_zeropoint))
  pure ((arrays.zip (s.link_types.zip ((List.range s.num_links).map s.paramsAt))).map fun x =>
    ⟨x.1.1, x.1.2.1, x.1.2.2.1, x.1.2.2.2, x.2.1, x.2.2⟩)

/-- `/repo/src/ring/sys_composer/morph_sys.py:347-359`: whose joint a link takes over. Without a link
that is attached to the world the loop variable keeps the last node. -/
def swapWith (structure_ : List Node) (node : Node) : Py Int :=
  if node.new_parent_old_indices = -1 then
    match (structure_.find? fun n => n.old_parent_old_indices = -1) <|> structure_.getLast? with
    | some n => .ok n.link_idx_old_indices
    | none => .error .other
  else if node.parent_changed = true then .ok node.new_parent_old_indices
  else .ok node.link_idx_old_indices

/-- `/repo/src/ring/sys_composer/morph_sys.py:338-361` `_swapped_joint_properties` -/
def _swapped_joint_properties (E : Env α π) (s : System α π) (structure_ : List Node) :
    Py (List (JointProps α π)) := do
  let joint_properties ← jointProperties E s
  structure_.mapM fun node => do
    let swap_with_node ← swapWith structure_ node
    pyGet joint_properties swap_with_node

/-- `tree_batch` of dictionaries, `/repo/src/ring/sys_composer/morph_sys.py:213-215` -/
def batchDicts (dicts : List (List (String × π))) : Py (List (String × List π)) :=
  match dicts with
  | [] => .error .index
  | d :: _ => d.mapM fun x => do
    let column ← dicts.mapM fun e => pyDict e x.1
    pure (x.1, column)

/-- the two ways to say what the new parents are -/
inductive MorphArg
  | new_parents (l : List (Int ⊕ String))
  | new_anchor (a : Nat ⊕ String)

/-- `/repo/src/ring/sys_composer/morph_sys.py:129-137`: the new parents. That exactly one of the two
arguments is given is part of the type; a number `new_anchor` is not negative. -/
def parentsFor (s : System α π) : MorphArg → Py (List (Int ⊕ String))
  | .new_parents l => .ok l
  | .new_anchor a => do
    let i ← match a with
      | .inl i => pure i
      | .inr name => s.name_to_idx name
    let l ← _autodetermine_new_parents s.link_parents i
    pure (l.map .inl)

/-- `/repo/src/ring/sys_composer/morph_sys.py:182-196`: the links with new offsets and boxes, in the old
order -/
def newLinks [Field α] (E : JEnv α π) (s : System α π) (permutation : List Int)
    (structure_ : List Node) (new_transform1 : List (Transform α)) : Py (List (LinkRow α)) := do
  let mins ← _new_pos_min_max E s permutation structure_ (s.links.map (·.pos_min))
  let maxs ← _new_pos_min_max E s permutation structure_ (s.links.map (·.pos_max))
  pure ((s.links.zip (new_transform1.zip (mins.zip maxs))).map fun x =>
    { x.1 with transform1 := x.2.1, pos_min := lower E.toEnv x.2.2.1 x.2.2.2,
               pos_max := upper E.toEnv x.2.2.1 x.2.2.2 })

/-- `/repo/src/ring/sys_composer/morph_sys.py:111-232` `morph_system` -/
def morph_system [Field α] (E : JEnv α π) (s : System α π) (arg : MorphArg) : Py (System α π) := do
  let new_parents ← parentsFor s arg
  pyAssert (new_parents.length = s.num_links)
  let (structure_, permutation, new_parent_array) ← identify_system s new_parents
  let (s, new_transform1) ← _new_transform1 E s permutation structure_ true true
  let links ← newLinks E s permutation structure_ new_transform1
  let swapped ← _swapped_joint_properties E.toEnv s structure_
  let props ← permuteList permutation swapped
  let links ← permuteArr permutation links
  let joint_params ← batchDicts (props.map (·.params))
  let damping ← jnpConcatenate (props.map (·.damp))
  let armature ← jnpConcatenate (props.map (·.arma))
  let stiffness ← jnpConcatenate (props.map (·.stiff))
  let zeropoint ← jnpConcatenate (props.map (·.zero))
  let geoms ← _permute_modify_geoms s.geoms structure_
  let names ← permuteList permutation s.link_names
  let omc ← permuteList permutation s.omc
  parse E.toEnv
    { link_parents := new_parent_array
      links := links
      joint_params := joint_params
      link_types := props.map (·.typ)
      link_damping := damping
      link_armature := armature
      link_spring_stiffness := stiffness
      link_spring_zeropoint := zeropoint
      dt := s.dt
      geoms := geoms
      gravity := s.gravity
      integration_method := s.integration_method
      mass_mat_iters := s.mass_mat_iters
      link_names := names
      model_name := s.model_name
      omc := omc }

end morph
end RingLib
