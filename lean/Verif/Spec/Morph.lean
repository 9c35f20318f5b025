import Verif.Lemmas.Tree
import Verif.Props.Reroot

/-!
# Specification vocabulary for morphing systems

Positions in the lists of parents are read with the default `0`, which is never used for links of the
system.
-/

namespace RingLib
namespace morph
open System algebra
variable {α π : Type}

/-- The coordinates of a joint in the state that `State.create` starts from: a unit quaternion and zeros, or
zeros. -/
def RestCoords [Zero α] [One α] (t : String) (q : List α) : Prop :=
  ∃ k, q = if joint_type_is_free_or_cor_or_spherical t = true then 1 :: List.replicate k 0
    else List.replicate k 0

/-- In the state that `State.create` starts from the joints do nothing; and the orientations of the
links are unit quaternions. -/
structure Resting [Field α] (E : JEnv α π) (s : System α π) : Prop where
  quat : ∀ t ∈ s.link_types, joint_type_is_free_or_cor_or_spherical t = true → 0 < wOf E.qw t
  joint : ∀ t ∈ s.link_types, ∀ jm p q, E.joints t = some jm → RestCoords t q →
    jm.transform q p = .zero
  unit : ∀ row ∈ s.links, row.transform1.rot.normSq = 1

/-- offset of a link -/
noncomputable def T1 [Zero α] [One α] (s : System α π) (i : Nat) : Transform α :=
  ((s.links[i]?).map LinkRow.transform1).getD .zero

/-- the poses of all links at rest -/
structure RestPoses [Field α] (s : System α π) (X : Nat → Transform α) : Prop where
  eq : ∀ i (h : i < s.link_parents.length),
    X i = transform_mul (T1 s i) (parentVal .zero X s.link_parents[i])
  unit : ∀ i < s.link_parents.length, (X i).rot.normSq = 1

/-- link `i` gets the frame of its new parent -/
def Moved (lam P : List Int) (i : Nat) : Prop := P.getD i 0 ≠ lam.getD i 0 ∧ P.getD i 0 ≠ -1

instance (lam P : List Int) (i : Nat) : Decidable (Moved lam P i) := by unfold Moved; infer_instance

/-- `P` reverses some connections of the tree `lam`. -/
structure Reversal (lam P : List Int) : Prop where
  len : P.length = lam.length
  topo : Topological lam
  forest : Forest P
  only : OnlyReversed lam P

/-- `r` is the first link that is attached to the world -/
structure FirstRoot (lam : List Int) (r : Nat) : Prop where
  root : lam[r]? = some (-1)
  first : ∀ i < r, lam[i]? ≠ some (-1)

/-- the link whose joint link `i` takes over; `r` is the old root -/
def owner (lam P : List Int) (r i : Nat) : Nat :=
  if P.getD i 0 = -1 then r else if P.getD i 0 ≠ lam.getD i 0 then (P.getD i 0).toNat else i

/-- The offset of link `i` in the morphed system: `T` are the old offsets, `X` the poses of the links in
the old system at rest. -/
def offset [Ring α] (lam P : List Int) (X T : Nat → Transform α) (i : Nat) : Transform α :=
  if P.getD i 0 = -1 then transform_mul (T i) (parentVal .zero X (lam.getD i 0))
  else if P.getD i 0 = lam.getD i 0 then
    if Moved lam P (P.getD i 0).toNat then
      transform_mul (T i) (transform_inv (T (P.getD (P.getD i 0).toNat 0).toNat))
    else T i
  else if P.getD (P.getD i 0).toNat 0 = -1 then .zero
  else transform_inv (T (P.getD (P.getD i 0).toNat 0).toNat)

/-- old offsets with link `u` moved to `v` -/
noncomputable def offsetsWith [Zero α] [One α] (s : System α π) (u : Nat) (v : Vec3 α) (i : Nat) : Transform α :=
  if i = u then ⟨v, (T1 s i).rot⟩ else T1 s i

/-- the link from whose box the new box of link `i` is computed -/
def hinge (lam P : List Int) (i : Nat) : Nat :=
  if Moved lam P i then (P.getD (P.getD i 0).toNat 0).toNat else i

/-- a corner of the new box of link `i` -/
noncomputable def corner [Ring α] (s : System α π) (P : List Int) (X : Nat → Transform α) (old : List (Vec3 α))
    (i : Nat) : Vec3 α :=
  (offset s.link_parents P X (offsetsWith s (hinge s.link_parents P i)
    (old.getD (hinge s.link_parents P i) 0)) i).pos


/-- Two corners of a box, sorted along every axis. -/
structure Corners (E : Env α π) (a b lo hi : Vec3 α) : Prop where
  x : E.ge hi.x lo.x = true ∧ ((lo.x = a.x ∧ hi.x = b.x) ∨ (lo.x = b.x ∧ hi.x = a.x))
  y : E.ge hi.y lo.y = true ∧ ((lo.y = a.y ∧ hi.y = b.y) ∨ (lo.y = b.y ∧ hi.y = a.y))
  z : E.ge hi.z lo.z = true ∧ ((lo.z = a.z ∧ hi.z = b.z) ∨ (lo.z = b.z ∧ hi.z = a.z))

/-- How the old frame of link `i` sits in its new frame: a link whose connection to `c` is reversed gets
the frame of `c`. -/
noncomputable def shift [Ring α] (s : System α π) (P : List Int) (i : Nat) : Transform α :=
  if Moved s.link_parents P i then transform_inv (T1 s (P.getD i 0).toNat) else .zero

/-- a geometry in a new frame -/
def GeomData.shifted [Ring α] (D : Transform α) (g : GeomData α) : GeomData α :=
  { g with transform := transform_mul g.transform D }

/-- The morphed system `s'`: the links of `s` in the order `perm`. The root of the first tree of `s` is `r`,
the poses of the links of `s` at rest are `X`. -/
structure Morphed [Field α] (E : JEnv α π) (s : System α π) (P : List Int) (r : Nat)
    (X : Nat → Transform α) (perm : List Nat) (s' : System α π) : Prop where
  wf : s'.WF E.toEnv
  jointed : s'.Jointed E
  resting : Resting E s'
  globals : s'.globals = s.globals
  worldGeoms : s'.worldGeoms = s.worldGeoms
  renumbered : Renumbered P perm s'.link_parents
  names : ∀ k i : Nat, perm[k]? = some i → s'.link_names[k]? = s.link_names[i]?
  links : ∀ k i : Nat, perm[k]? = some i → ∃ v w v', s.viewAt E.toEnv i = some v ∧
    s.viewAt E.toEnv (owner s.link_parents P r i) = some w ∧ s'.viewAt E.toEnv k = some v' ∧
    v'.parent = s.nameAt (P.getD i 0) ∧
    -- the joint
    v'.type = w.type ∧ v'.damping = w.damping ∧ v'.armature = w.armature ∧
    v'.stiffness = w.stiffness ∧ v'.zeropoint = w.zeropoint ∧ v'.joint_params = w.joint_params ∧
    -- the body
    v'.omc = v.omc ∧ v'.geoms = v.geoms.map (GeomData.shifted (shift s P i)) ∧
    -- where the joint sits
    v'.row.transform1 = offset s.link_parents P X (T1 s) i ∧
    Corners E.toEnv (corner s P X (s.links.map (·.pos_min)) i)
      (corner s P X (s.links.map (·.pos_max)) i) v'.row.pos_min v'.row.pos_max

end morph
end RingLib
