import Verif.Model.Py
import Verif.Model.Inertia

/-!
# `System`: `/repo/src/ring/base.py`

The system is a record of arrays exactly as in python.  Numbers are of a generic field `α`, the
per-link entry of a `joint_params` pytree is of an opaque type `π`.
-/

namespace RingLib

/-- Everything in the surroundings of the system code which is not decided by the system itself:
the joint registries `Q_WIDTHS` / `QD_WIDTHS` (`/repo/src/ring/base.py:369-400`, `none` = the key
is missing), `jnp.pi`, and the floating point predicates used by `parse`. -/
structure Env (α π : Type) where
  qw : String → Option Nat
  dw : String → Option Nat
  pi : α
  /-- `x >= y` -/
  ge : α → α → Bool
  /-- `jnp.allclose(jnp.linalg.norm(z[:4]), 1.0)` (`/repo/src/ring/base.py:934-936`) -/
  unit4 : List α → Bool
  /-- `arr * jnp.nan` -/
  nanLike : π → π

/-- One row of the batched `Link` (`/repo/src/ring/base.py:340-359`); the dictionary
`joint_params` is kept separately in `System.joint_params`. -/
@[ext] structure LinkRow (α : Type) where
  transform1 : Transform α
  pos_min : Vec3 α
  pos_max : Vec3 α
  inertia : Inertia α
  transform2 : Transform α
  transform : Transform α
deriving DecidableEq, Repr

/-- `/repo/src/ring/base.py:362-366` `MaxCoordOMC`. -/
@[ext] structure MaxCoordOMC (α : Type) where
  coordinate_system_name : String
  pos_marker_number : Int
  pos_marker_constant_offset : Vec3 α
deriving DecidableEq, Repr

/-- `/repo/src/ring/base.py:403-429` `System`. -/
@[ext] structure System (α π : Type) where
  link_parents : List Int
  links : List (LinkRow α)
  joint_params : List (String × List π)
  link_types : List String
  link_damping : List α
  link_armature : List α
  link_spring_stiffness : List α
  link_spring_zeropoint : List α
  dt : α
  geoms : List (Geometry α)
  gravity : Vec3 α
  integration_method : String
  mass_mat_iters : Int
  link_names : List String
  model_name : Option String
  omc : List (Option (MaxCoordOMC α))
deriving DecidableEq, Repr

namespace System
variable {α π : Type}

/-- `/repo/src/ring/base.py:431-432`. -/
def num_links (s : System α π) : Nat := s.link_parents.length

/-- `X_WIDTHS[typ]` -/
def width (w : String → Option Nat) (typ : String) : Py Nat :=
  match w typ with
  | some n => .ok n
  | none => .error .key

/-- `sum([X_WIDTHS[typ] for typ in link_types])`, the body of `q_size` and `qd_size`. -/
def sumWidths (w : String → Option Nat) : List String → Py Nat
  | [] => .ok 0
  | t :: ts => do
    let a ← width w t
    let b ← sumWidths w ts
    pure (a + b)

/-- `/repo/src/ring/base.py:434-435` `q_size`. -/
def q_size (E : Env α π) (s : System α π) : Py Nat := sumWidths E.qw s.link_types
/-- `/repo/src/ring/base.py:437-438` `qd_size`. -/
def qd_size (E : Env α π) (s : System α π) : Py Nat := sumWidths E.dw s.link_types

/-- `/repo/src/ring/base.py:440-441` `name_to_idx`. -/
def name_to_idx (s : System α π) (name : String) : Py Nat := pyIndex s.link_names name

/-- `/repo/src/ring/base.py:443-447` `idx_to_name`. -/
def idx_to_name (s : System α π) (idx : Int) (allow_world : Bool := false) : Py String :=
  if allow_world = true ∧ idx = -1 then .ok "world"
  else do
    pyAssert (0 ≤ idx)
    pyGet s.link_names idx

/-- `/repo/src/ring/base.py:460-461` `parent_name`. -/
def parent_name (s : System α π) (name : String) : Py String := do
  let i ← s.name_to_idx name
  let p ← pyGet s.link_parents i
  s.idx_to_name p

/-! ## scan (`/repo/src/ring/base.py:973-1023`) -/

/-- the letters of `in_types`; any other letter raises and is not representable here -/
inductive InType | l | q | d
deriving DecidableEq, Repr

/-- The dictionaries `q_idxs`, `qd_idxs` (python slices `start:stop`, indexed by link). -/
structure IdxMap where
  q_idxs : List (Nat × Nat)
  qd_idxs : List (Nat × Nat)

/-- `idx_map["q"](link_idx)`, `/repo/src/ring/base.py:1006`; `KeyError` for a missing link. -/
def IdxMap.q (m : IdxMap) (i : Nat) : Py (Nat × Nat) :=
  match m.q_idxs[i]? with
  | some s => .ok s
  | none => .error .key
/-- `idx_map["d"](link_idx)`, `/repo/src/ring/base.py:1007`. -/
def IdxMap.d (m : IdxMap) (i : Nat) : Py (Nat × Nat) :=
  match m.qd_idxs[i]? with
  | some s => .ok s
  | none => .error .key

/-- `arr[slice(a, b)]` for non-negative `a ≤ b`: python slicing never raises. -/
def pySlice {β : Type _} (xs : List β) (s : Nat × Nat) : List β := (xs.take s.2).drop s.1

/-- The loop `/repo/src/ring/base.py:993-1002` over `zip(range(num_links), link_types)`. -/
def buildIdxs (E : Env α π) : (q_idx qd_idx : Nat) → List String → Py IdxMap
  | _, _, [] => .ok ⟨[], []⟩
  | q_idx, qd_idx, t :: ts => do
    let wq ← width E.qw t
    let wd ← width E.dw t
    let rest ← buildIdxs E (q_idx + wq) (qd_idx + wd) ts
    pure ⟨(q_idx, q_idx + wq) :: rest.q_idxs, (qd_idx, qd_idx + wd) :: rest.qd_idxs⟩

/-- The extra arguments `*args` of `scan` together with their letters in `in_types`: `pieces`
lists letter and `len(arg)` for the length check, `get` is what `f` receives for a link.
Arguments are built with `argL`, `argQ`, `argD` and combined with `and`. -/
structure ScanArg (O : Type) where
  pieces : List (InType × Nat)
  get : IdxMap → Nat → Py O

/-- an argument with letter `l`: `f` receives `arg[link_idx]` -/
def argL {β : Type} (xs : List β) : ScanArg β := ⟨[(.l, xs.length)], fun _ i => pyGet xs i⟩
/-- an argument with letter `q`: `f` receives `arg[q_idxs[link_idx]]` -/
def argQ {β : Type} (xs : List β) : ScanArg (List β) :=
  ⟨[(.q, xs.length)], fun m i => do pure (pySlice xs (← m.q i))⟩
/-- an argument with letter `d`: `f` receives `arg[qd_idxs[link_idx]]` -/
def argD {β : Type} (xs : List β) : ScanArg (List β) :=
  ⟨[(.d, xs.length)], fun m i => do pure (pySlice xs (← m.d i))⟩
/-- two (groups of) arguments -/
def ScanArg.and {O P : Type} (a : ScanArg O) (b : ScanArg P) : ScanArg (O × P) :=
  ⟨a.pieces ++ b.pieces, fun m i => do
    let x ← a.get m i
    let y ← b.get m i
    pure (x, y)⟩

/-- The length checks `/repo/src/ring/base.py:975-990`. -/
def checkPieces (E : Env α π) (s : System α π) : List (InType × Nat) → Py Unit
  | [] => .ok ()
  | (t, B) :: ps => do
    let required_length ← match t with
      | .l => pure s.num_links
      | .q => s.q_size E
      | .d => s.qd_size E
    pyAssert (B = required_length)
    checkPieces E s ps

/-- The loop `/repo/src/ring/base.py:1013-1017`; `y` is the previous result (`None` first). -/
def scanLoop {O Y : Type} (f : Option Y → IdxMap → O → Py Y) (m : IdxMap) (arg : ScanArg O) :
    Option Y → List Nat → Py (List Y)
  | _, [] => .ok []
  | y, link_idx :: order => do
    let args_link ← arg.get m link_idx
    let y' ← f y m args_link
    let ys ← scanLoop f m arg (some y') order
    pure (y' :: ys)

/-- `/repo/src/ring/base.py:664-679, 973-1023` `System.scan` / `_scan_sys`. The final
`tree_batch` (stacking the list of results into one pytree) is the identity on the list. A
callback which appends to outer lists is modelled by returning what it appends. -/
def scan {O Y : Type} (E : Env α π) (s : System α π) (f : Option Y → IdxMap → O → Py Y)
    (arg : ScanArg O) (reverse : Bool := false) : Py (List Y) := do
  checkPieces E s arg.pieces
  let idx_map ← buildIdxs E 0 0 (s.link_types.take s.num_links)
  let order := if reverse then (List.range s.num_links).reverse else List.range s.num_links
  let ys ← scanLoop f idx_map arg none order
  pure (if reverse then ys.reverse else ys)

/-- result of `idx_map`: an integer for `l`, a slice for `q` and `d` -/
inductive Idx | at (i : Nat) | slice (start stop : Nat)
deriving DecidableEq, Repr

/-- `/repo/src/ring/base.py:449-458` `idx_map`: the dictionary is returned as the list of its
assignments in order (for unique names this is the dictionary). -/
def idx_map (E : Env α π) (s : System α π) (type : InType) : Py (List (String × Idx)) :=
  s.scan E (fun _ m (a : String × Nat) => do
    match type with
    | .l => pure (a.1, Idx.at a.2)
    | .q => do let sl ← m.q a.2; pure (a.1, Idx.slice sl.1 sl.2)
    | .d => do let sl ← m.d a.2; pure (a.1, Idx.slice sl.1 sl.2))
    ((argL s.link_names).and (argL (List.range s.num_links)))

/-! ## joint-type predicates (`/repo/src/ring/base.py:594-620`) -/

/-- `/repo/src/ring/base.py:594-606` `joint_type_simplification`. -/
def joint_type_simplification (typ : String) : String :=
  if typ.toList.take 4 = "free".toList then
    if typ = "free_2d" then "free_2d" else "free"
  else if typ.toList.take 3 = "cor".toList then "cor"
  else if typ.toList.take 9 = "spherical".toList then "spherical"
  else typ

/-- `/repo/src/ring/base.py:608-620` `joint_type_is_free_or_cor_or_spherical`. -/
def joint_type_is_free_or_cor_or_spherical (typ : String) : Bool :=
  joint_type_simplification typ = "free" ∨ joint_type_simplification typ = "cor" ∨
    joint_type_simplification typ = "spherical"

/-! ## parse -/

/-- `jnp.all(pos_max >= pos_min)` for one link -/
def posOk (E : Env α π) (l : LinkRow α) : Bool :=
  E.ge l.pos_max.x l.pos_min.x && E.ge l.pos_max.y l.pos_min.y && E.ge l.pos_max.z l.pos_min.z

/-- `/repo/src/ring/base.py:921-937` `check_dasz_unitq`. -/
def check_dasz_unitq (E : Env α π) (typ : String) (d a s z : List α) : Py Unit := do
  let q_size ← width E.qw typ
  let qd_size ← width E.dw typ
  pyAssert (d.length = a.length ∧ a.length = s.length ∧ s.length = qd_size)
  pyAssert (z.length = q_size)
  if joint_type_is_free_or_cor_or_spherical typ then
    pyAssert (E.unit4 (z.take 4) = true)

/-- `/repo/src/ring/base.py:885-950` `_parse_system`. Values are concrete (no jax tracers), so
all checks are executed. `geoms.sort(key=...)` is the stable `mergeSort`. -/
def parse [Field α] (E : Env α π) (s : System α π) : Py (System α π) := do
  pyAssert (s.link_parents.length = s.link_types.length ∧ s.link_types.length = s.links.length)
  pyAssert (s.omc.length = s.num_links)
  pyAssert (∀ name ∈ s.link_names, s.link_names.count name = 1)
  pyAssert (∀ l ∈ s.links, posOk E l = true)
  pyAssert (∀ geom ∈ s.geoms, (0 ≤ geom.link_idx ∧ geom.link_idx < s.num_links) ∨
    geom.link_idx = -1)
  let inertia ← s.scan E (fun _ _ (link_idx : Nat) =>
    pure (compute_inertia_per_link E.pi s.geoms link_idx)) (argL (List.range s.num_links))
  let s := { s with
    links := List.zipWith (fun (l : LinkRow α) it => { l with inertia := it }) s.links inertia }
  let s := { s with geoms := s.geoms.mergeSort (fun g h => g.link_idx ≤ h.link_idx) }
  let _ ← s.scan E
    (fun _ _ (x : String × String × List α × List α × List α × List α) =>
      check_dasz_unitq E x.2.1 x.2.2.1 x.2.2.2.1 x.2.2.2.2.1 x.2.2.2.2.2)
    ((argL s.link_names).and <| (argL s.link_types).and <| (argD s.link_damping).and <|
      (argD s.link_armature).and <| (argD s.link_spring_stiffness).and
        (argQ s.link_spring_zeropoint))
  pure s

/-! ## changing joint types -/

/-- The five per-link values that the joint-replacement callbacks map:
link type, armature, damping, stiffness, zeropoint. -/
structure JointVals (α : Type) where
  lt : String
  la : List α
  ld : List α
  ls : List α
  lz : List α

/-- `/repo/src/ring/base.py:842-878` `_update_sys_if_replace_joint_type`. -/
def _update_sys_if_replace_joint_type [Field α] (E : Env α π) (s : System α π)
    (logic : String → JointVals α → JointVals α) : Py (System α π) := do
  let ys ← s.scan E
    (fun _ _ (x : String × String × List α × List α × List α × List α) =>
      pure (logic x.1 ⟨x.2.1, x.2.2.1, x.2.2.2.1, x.2.2.2.2.1, x.2.2.2.2.2⟩))
    ((argL s.link_names).and <| (argL s.link_types).and <| (argD s.link_armature).and <|
      (argD s.link_damping).and <| (argD s.link_spring_stiffness).and
        (argQ s.link_spring_zeropoint))
  let la ← jnpConcatenate (ys.map (·.la))
  let ld ← jnpConcatenate (ys.map (·.ld))
  let ls ← jnpConcatenate (ys.map (·.ls))
  let lz ← jnpConcatenate (ys.map (·.lz))
  parse E { s with
    link_types := ys.map (·.lt), link_armature := la, link_damping := ld,
    link_spring_stiffness := ls, link_spring_zeropoint := lz }

/-- `/repo/src/ring/base.py:528-544` `freeze` of a single name. -/
def freeze [Field α] (E : Env α π) (s : System α π) (name : String) : Py (System α π) :=
  _update_sys_if_replace_joint_type E s fun link_name o =>
    if link_name = name then ⟨"frozen", [], [], [], []⟩ else o

/-- `/repo/src/ring/base.py:529-533` `freeze` of a list of names. -/
def freezeList [Field α] (E : Env α π) (s : System α π) (names : List String) :
    Py (System α π) := names.foldlM (freeze E) s

/-- The callback of `change_joint_type`, `/repo/src/ring/base.py:568-586`.
`nlz.at[0].set(1.0)` is `List.set 0 1` (out of range: no effect, as in jax). -/
def changeLogic [Field α] (name new_joint_type : String) (q_size qd_size : Nat)
    (new_arma new_damp new_stif new_zero : Option (List α)) (link_name : String)
    (o : JointVals α) : JointVals α :=
  if link_name = name then
    let nlz := new_zero.getD (List.replicate q_size 0)
    let nlz :=
      if new_joint_type ∈ ["spherical", "free", "cor"] ∧ new_zero = none then nlz.set 0 1 else nlz
    ⟨new_joint_type, new_arma.getD (List.replicate qd_size 0),
      new_damp.getD (List.replicate qd_size 0), new_stif.getD (List.replicate qd_size 0), nlz⟩
  else o

/-- `/repo/src/ring/base.py:552-592` `change_joint_type`, for joint types whose `JointModel` has
no `init_joint_params` (all built-in joints; for custom joints that have one the code
additionally saves and re-loads the system as XML). -/
def change_joint_type [Field α] [DecidableEq α] (E : Env α π) (s : System α π)
    (name new_joint_type : String)
    (new_arma new_damp new_stif new_zero : Option (List α) := none) : Py (System α π) := do
  let q_size ← width E.qw new_joint_type
  let qd_size ← width E.dw new_joint_type
  _update_sys_if_replace_joint_type E s
    (changeLogic name new_joint_type q_size qd_size new_arma new_damp new_stif new_zero)

/-- `/repo/src/ring/base.py:546-550` `unfreeze`. -/
def unfreeze [Field α] [DecidableEq α] (E : Env α π) (s : System α π)
    (name new_joint_type : String) : Py (System α π) := do
  let i ← s.name_to_idx name
  let t ← pyGet s.link_types i
  pyAssert (t = "frozen")
  pyAssert (new_joint_type ≠ "frozen")
  change_joint_type E s name new_joint_type

/-- The callback of `_replace_free_with_cor`, `/repo/src/ring/base.py:510-524`. -/
def corLogic (_ : String) (o : JointVals α) : JointVals α :=
  if o.lt = "free" then
    ⟨"cor", o.la ++ o.la.drop 3, o.ld ++ o.ld.drop 3, o.ls ++ o.ls.drop 3, o.lz ++ o.lz.drop 4⟩
  else o

/-- `/repo/src/ring/base.py:497-526` `_replace_free_with_cor`. -/
def _replace_free_with_cor [Field α] (E : Env α π) (s : System α π) : Py (System α π) := do
  if (s.link_parents.zip s.link_types).any
      (fun x => (x.1 = -1 ∧ x.2 ≠ "free") ∨ (x.2 = "free" ∧ x.1 ≠ -1)) then
    .error .invalidSystem
  else
    _update_sys_if_replace_joint_type E s corLogic

/-! ## queries -/

/-- `/repo/src/ring/base.py:622-624` `findall_imus` (names). -/
def findall_imus (s : System α π) : List String :=
  s.link_names.filter fun name => name.toList.take 3 = "imu".toList

/-- `/repo/src/ring/base.py:626-629` `findall_segments` (names). -/
def findall_segments (s : System α π) : List String :=
  s.link_names.filter fun name => name ∉ s.findall_imus

/-- `/repo/src/ring/base.py:634-636` `findall_bodies_to_world` (indices). -/
def findall_bodies_to_world (s : System α π) : List Nat :=
  (s.link_parents.zipIdx.filter fun x => x.1 = -1).map (·.2)

/-- `/repo/src/ring/base.py:638-641` `find_body_to_world` (index). -/
def find_body_to_world (s : System α π) : Py Nat := do
  let bodies := s.findall_bodies_to_world
  pyAssert (bodies.length = 1)
  pyGet bodies 0

/-- `/repo/src/ring/base.py:643-647` `findall_bodies_with_jointtype` (indices). -/
def findall_bodies_with_jointtype (s : System α π) (typ : String) : List Nat :=
  (s.link_types.zipIdx.filter fun x => x.1 = typ).map (·.2)

/-- `/repo/src/ring/base.py:649-653` `children` (indices). -/
def children (s : System α π) (name : String) : Py (List Nat) := do
  let p ← s.name_to_idx name
  pure ((s.link_parents.zipIdx.filter fun x => x.1 = (p : Int)).map (·.2))

/-- `/repo/src/ring/base.py:649-653` `children` with `names=True`. -/
def children_names (s : System α π) (name : String) : Py (List String) := do
  let bodies ← s.children name
  bodies.mapM fun (i : Nat) => s.idx_to_name i

/-- `/repo/src/ring/base.py:655-662` `findall_bodies_subsystem` with `names=True`. The first
argument is the remaining python recursion depth. `tree.flatten([children, grandchildren])`
lists the children first and then the sub-results. -/
def findall_bodies_subsystem (s : System α π) : Nat → String → Py (List String)
  | 0, _ => .error .recursion
  | fuel + 1, name => do
    let children ← s.children_names name
    let grandchildren ← children.mapM (findall_bodies_subsystem s fuel)
    pure (children ++ grandchildren.flatten)

/-- `/repo/src/ring/base.py:481-485` `change_link_name`. -/
def change_link_name (s : System α π) (old_name new_name : String) : Py (System α π) := do
  let old_idx ← s.name_to_idx old_name
  pure { s with link_names := s.link_names.set old_idx new_name }

/-- `/repo/src/ring/base.py:463-464, 487-495` `add_prefix_suffix` (and `add_prefix`). -/
def add_prefix_suffix (s : System α π) (pre suffix : Option String := none) : System α π :=
  { s with link_names := s.link_names.map fun name => pre.getD "" ++ name ++ suffix.getD "" }

end System
end RingLib
