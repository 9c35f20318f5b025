import Verif.Model.System

/-!
# Specification vocabulary for systems

Nothing here refers to the helper functions of the model; slices are described by sums of widths.
-/

namespace RingLib
variable {α π : Type}

/-- width of a joint type, `0` when unregistered (only used for registered types) -/
def wOf (w : String → Option Nat) (t : String) : Nat := (w t).getD 0

/-- `xs` cut into consecutive pieces of the given widths -/
def chunks {β : Type _} : List Nat → List β → List (List β)
  | [], _ => []
  | w :: ws, xs => xs.take w :: chunks ws (xs.drop w)

/-- The piece of a flat array that belongs to link `i`: it starts at the sum of the widths of the
links before `i` and has the width of link `i`. -/
def ownSlice {β : Type _} (w : String → Option Nat) (types : List String) (xs : List β) (i : Nat) :
    List β :=
  (xs.drop ((types.take i).map (wOf w)).sum).take (wOf w (types.getD i ""))

/-- All joint types of the list are registered. -/
def Env.Known (E : Env α π) (types : List String) : Prop :=
  ∀ t ∈ types, (E.qw t).isSome = true ∧ (E.dw t).isSome = true

/-- `i` is the link `k` or one of its descendants. -/
inductive Desc (parents : List Int) (k : Nat) : Nat → Prop
  | self : Desc parents k k
  | step {i p : Nat} : parents[i]? = some (p : Int) → Desc parents k p → Desc parents k i

/-- parents precede their children: `-1 ≤ parents[i] < i` -/
def Topological (parents : List Int) : Prop :=
  ∀ i (h : i < parents.length), -1 ≤ parents[i] ∧ parents[i] < i

/-- What `parse` checks (sizes, unique names, box bounds, geometry pointers, joint widths, unit
zero points). -/
structure System.Consistent (E : Env α π) (s : System α π) : Prop where
  types_len : s.link_types.length = s.link_parents.length
  links_len : s.links.length = s.link_parents.length
  omc_len : s.omc.length = s.link_parents.length
  names_len : s.link_names.length = s.link_parents.length
  names_nodup : s.link_names.Nodup
  pos_ok : ∀ l ∈ s.links, E.ge l.pos_max.x l.pos_min.x = true ∧
    E.ge l.pos_max.y l.pos_min.y = true ∧ E.ge l.pos_max.z l.pos_min.z = true
  geoms_ok : ∀ g ∈ s.geoms, -1 ≤ g.link_idx ∧ g.link_idx < s.link_parents.length
  known : E.Known s.link_types
  damping_len : s.link_damping.length = (s.link_types.map (wOf E.dw)).sum
  armature_len : s.link_armature.length = (s.link_types.map (wOf E.dw)).sum
  stiffness_len : s.link_spring_stiffness.length = (s.link_types.map (wOf E.dw)).sum
  zeropoint_len : s.link_spring_zeropoint.length = (s.link_types.map (wOf E.qw)).sum
  unit_zero : ∀ i (h : i < s.link_types.length),
    System.joint_type_is_free_or_cor_or_spherical s.link_types[i] = true →
      E.unit4 ((ownSlice E.qw s.link_types s.link_spring_zeropoint i).take 4) = true

/-- A well-formed system: consistent, topologically numbered, with per-link joint parameters, and
with the derived data (`inertia`, order of geometries) up to date. -/
structure System.WF [Field α] (E : Env α π) (s : System α π) : Prop extends
    System.Consistent E s where
  topo : Topological s.link_parents
  jp_keys : (s.joint_params.map (·.1)).Nodup
  jp_len : ∀ x ∈ s.joint_params, x.2.length = s.link_parents.length
  inertia_ok : ∀ i (h : i < s.links.length),
    s.links[i].inertia = compute_inertia_per_link E.pi s.geoms i
  geoms_sorted : s.geoms.Pairwise fun g h => g.link_idx ≤ h.link_idx

/-- A geometry without its link pointer. -/
structure GeomData (α : Type) where
  mass : α
  transform : Transform α
  shape : Shape α
  color : Option String
  edge_color : Option String
deriving DecidableEq, Repr

def Geometry.data (g : Geometry α) : GeomData α :=
  ⟨g.mass, g.transform, g.shape, g.color, g.edge_color⟩

/-- Everything that describes one link, with the parent given by name (`none` = world). -/
@[ext] structure LinkView (α π : Type) where
  parent : Option String
  type : String
  row : LinkRow α
  damping : List α
  armature : List α
  stiffness : List α
  zeropoint : List α
  joint_params : String → Option π
  omc : Option (MaxCoordOMC α)
  geoms : List (GeomData α)

/-- The name of link `p`, `none` for the world (`-1`). -/
def System.nameAt (s : System α π) (p : Int) : Option String :=
  if p < 0 then none else s.link_names[p.toNat]?

/-- The view of the link with index `i`. -/
def System.viewAt (E : Env α π) (s : System α π) (i : Nat) : Option (LinkView α π) := do
  let p ← s.link_parents[i]?
  let t ← s.link_types[i]?
  let row ← s.links[i]?
  let o ← s.omc[i]?
  pure {
    parent := s.nameAt p
    type := t
    row := row
    damping := ownSlice E.dw s.link_types s.link_damping i
    armature := ownSlice E.dw s.link_types s.link_armature i
    stiffness := ownSlice E.dw s.link_types s.link_spring_stiffness i
    zeropoint := ownSlice E.qw s.link_types s.link_spring_zeropoint i
    joint_params := fun typ => (s.joint_params.lookup typ).bind (·[i]?)
    omc := o
    geoms := (s.geoms.filter fun g => g.link_idx = (i : Int)).map Geometry.data }

/-- The view of the link called `name`. -/
def System.view (E : Env α π) (s : System α π) (name : String) : Option (LinkView α π) := do
  let i ← s.link_names.idxOf? name
  s.viewAt E i

/-- `m` names the link `name` or one of its descendants. -/
def System.IsDesc (s : System α π) (name m : String) : Prop :=
  ∃ k i, s.link_names[k]? = some name ∧ s.link_names[i]? = some m ∧ Desc s.link_parents k i

/-- The data that do not belong to links. -/
def System.globals (s : System α π) : α × Vec3 α × String × Int × Option String :=
  (s.dt, s.gravity, s.integration_method, s.mass_mat_iters, s.model_name)

/-- The geometries attached to the world. -/
def System.worldGeoms (s : System α π) : List (GeomData α) :=
  (s.geoms.filter fun g => g.link_idx = -1).map Geometry.data

/-- `s'` is `s` without exactly the links in `gone`: every other link is still there, in the same
order, and looks the same (parent by name, joint type, all numbers, geometries). -/
structure System.Removed [Field α] (E : Env α π) (s : System α π) (gone : String → Prop)
    (s' : System α π) : Prop where
  wf : s'.WF E
  mem : ∀ m, m ∈ s'.link_names ↔ m ∈ s.link_names ∧ ¬ gone m
  order : s'.link_names.Sublist s.link_names
  view : ∀ m ∈ s'.link_names, s'.view E m = s.view E m
  globals : s'.globals = s.globals
  keys : s'.joint_params.map (·.1) = s.joint_params.map (·.1)

end RingLib
