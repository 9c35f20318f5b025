import Verif.Model.System
import Verif.Model.Callbacks
import Mathlib.Data.Real.Basic
import Mathlib.Algebra.Order.Ring.Abs

/-!
# Comparison of systems, `/repo/src/ring/utils/utils.py:19-61`

Python objects are trees.  Numbers in arrays are real numbers, infinities or `NaN`; the type of an
array (`jax.Array` or `np.ndarray`, `dtype`) is not modelled.  The messages that are printed when a
difference is found are not modelled.
-/

namespace RingLib

/-- A python object as far as `tree_equal` looks at it.  An instance of a dataclass derived from
`_Base` is the name of its class and its `__dict__`. -/
inductive PVal where
  | none
  | int (i : Int)
  | float (x : Fl ℝ)
  | str (s : String)
  | arr (shape : List Nat) (data : List (Fl ℝ))
  | list (l : List PVal)
  | tuple (l : List PVal)
  | dict (d : List (String × PVal))
  | obj (cls : String) (d : List (String × PVal))

namespace utils

open Classical in
/-- one entry of `jnp.isclose(a, b)` with the default `rtol=1e-05, atol=1e-08`,
`equal_nan=False` -/
noncomputable def isclose : Fl ℝ → Fl ℝ → Bool
  | .fin x, .fin y => decide (|x - y| ≤ 1 / 10 ^ 8 + 1 / 10 ^ 5 * |y|)
  | .posInf, .posInf => true
  | .negInf, .negInf => true
  | _, _ => false

open Classical in
/-- `==` of two python floats -/
noncomputable def floatEq : Fl ℝ → Fl ℝ → Bool
  | .fin x, .fin y => decide (x = y)
  | .posInf, .posInf => true
  | .negInf, .negInf => true
  | _, _ => false

/-- The shape two shapes are broadcast to, last axis first. -/
def broadcastRev : List Nat → List Nat → Py (List Nat)
  | [], s => .ok s
  | s, [] => .ok s
  | a :: s, b :: t => do
    let n ← if a = b then .ok a else if a = 1 then .ok b else if b = 1 then .ok a
      else .error .value
    let r ← broadcastRev s t
    .ok (n :: r)

/-- Where entry number `k` of an array broadcast to the shape `t` is found in an array of shape
`s`, both last axis first. -/
def flatIdx : List Nat → List Nat → Nat → Nat
  | n :: t, m :: s, k => (if m = 1 then 0 else k % n) + m * flatIdx t s (k / n)
  | _, _, _ => 0

/-- `jnp.allclose(a, b)`: shapes that cannot be broadcast raise. -/
noncomputable def allclose (s : List Nat) (a : List (Fl ℝ)) (t : List Nat) (b : List (Fl ℝ)) :
    Py Bool := do
  let r ← broadcastRev s.reverse t.reverse
  .ok ((List.range r.prod).all fun k =>
    isclose (a.getD (flatIdx r s.reverse k) .nan) (b.getD (flatIdx r t.reverse k) .nan))

/-- `a.keys() == b.keys()` -/
def sameKeys (d e : List (String × PVal)) : Bool :=
  (d.all fun x => (e.lookup x.1).isSome) && (e.all fun x => (d.lookup x.1).isSome)

mutual
/-- `/repo/src/ring/utils/utils.py:19-34` -/
noncomputable def tree_equal : PVal → PVal → Py Bool
  | .obj c d, .obj c' e =>
    if c ≠ c' then .ok false
    else if sameKeys d e then treeEqualDict d e else .ok false
  | .dict d, .dict e => if sameKeys d e then treeEqualDict d e else .ok false
  | .tuple l, .tuple m => if l.length ≠ m.length then .ok false else treeEqualList l m
  | .list l, .list m => if l.length ≠ m.length then .ok false else treeEqualList l m
  | .arr s a, .arr t b => allclose s a t b
  | .none, .none => .ok true
  | .int i, .int j => .ok (decide (i = j))
  | .float x, .float y => .ok (floatEq x y)
  | .str s, .str t => .ok (decide (s = t))
  | _, _ => .ok false

/-- `all(tree_equal(a[k], b[k]) for k in a.keys())`, `/repo/src/ring/utils/utils.py:27` -/
noncomputable def treeEqualDict : List (String × PVal) → List (String × PVal) → Py Bool
  | [], _ => .ok true
  | (k, v) :: d, e =>
    match e.lookup k with
    | .none => .error .key
    | .some w => do
      let b ← tree_equal v w
      if b then treeEqualDict d e else .ok false

/-- `all(tree_equal(a[i], b[i]) for i in range(len(a)))`, `/repo/src/ring/utils/utils.py:31` -/
noncomputable def treeEqualList : List PVal → List PVal → Py Bool
  | [], _ => .ok true
  | _ :: _, [] => .error .index
  | v :: l, w :: m => do
    let b ← tree_equal v w
    if b then treeEqualList l m else .ok false
end

/-- `isinstance(x, Geometry)` -/
def isGeometry : PVal → Bool
  | .obj c _ => c ∈ ["Geometry", "XYZ", "Sphere", "Box", "Cylinder", "Capsule"]
  | _ => false

/-- `x.__dict__` -/
def asDict : PVal → Py (List (String × PVal))
  | .obj _ d => .ok d
  | _ => .error .attribute

/-- what `zip` iterates over -/
def asSeq : PVal → Py (List PVal)
  | .list l => .ok l
  | .tuple l => .ok l
  | _ => .error .type

mutual
/-- The loop of `_sys_compare_unsafe`, `/repo/src/ring/utils/utils.py:37-54`; the arguments are
`sys1.__dict__` (what is left of it) and `sys2.__dict__`. -/
noncomputable def compareDict : List (String × PVal) → List (String × PVal) → Py Bool
  | [], _ => .ok true
  | (k, v) :: d, e => do
    let b ← compareVal v (pyDict e k)
    if b then compareDict d e else .ok false

/-- The loop body of `_sys_compare_unsafe`, `/repo/src/ring/utils/utils.py:41-53`; the second
argument is the access `d2[key]`, which may raise. -/
noncomputable def compareVal : PVal → Py PVal → Py Bool
  | .obj _ f, w => do
    let e ← w
    let g ← asDict e
    compareDict f g
  | .list [], _ => .error .index
  | .list (x :: l), w => do
    let e ← w
    if isGeometry x then do
      let m ← asSeq e
      compareZip (x :: l) m
    else tree_equal (.list (x :: l)) e
  | v, w => do
    let e ← w
    tree_equal v e

/-- The inner loop of `_sys_compare_unsafe`, `/repo/src/ring/utils/utils.py:45-47`; `zip` stops
with the shorter list. -/
noncomputable def compareZip : List PVal → List PVal → Py Bool
  | v :: l, w :: m => do
    let d2 ← asDict w
    let b ← match v with
      | .obj _ d1 => compareDict d1 d2
      | _ => .error .attribute
    if b then compareZip l m else .ok false
  | _, _ => .ok true
end

/-- `/repo/src/ring/utils/utils.py:37-54` -/
noncomputable def _sys_compare_unsafe (sys1 sys2 : PVal) : Py Bool := do
  let d1 ← asDict sys1
  let d2 ← asDict sys2
  compareDict d1 d2

/-- `/repo/src/ring/utils/utils.py:57-61` -/
noncomputable def sys_compare (sys1 sys2 : PVal) : Py Bool := do
  let equalA ← _sys_compare_unsafe sys1 sys2
  let equalB ← tree_equal sys1 sys2
  pyAssert (equalA == equalB)
  .ok equalA

/-! ## Systems as python objects -/

/-- the entries of a vector -/
def v3 {R : Type} (v : Vec3 R) : List R := [v.x, v.y, v.z]

/-- the entries of a quaternion -/
def q4 {R : Type} (q : Quat R) : List R := [q.w, q.x, q.y, q.z]

/-- the entries of a matrix -/
def m9 {R : Type} (m : Mat3 R) : List R :=
  [m.a00, m.a01, m.a02, m.a10, m.a11, m.a12, m.a20, m.a21, m.a22]

/-- The arrays of a list of rows, stacked along a new first axis. -/
def stack {ρ : Type} (rows : List ρ) (shape : List Nat) (f : ρ → List (Fl ℝ)) : PVal :=
  .arr (rows.length :: shape) (rows.flatMap f)

/-- `Transform` (`/repo/src/ring/base.py:113-120`), the rows batched -/
def objTransform {ρ : Type} (rows : List ρ) (t : ρ → Transform (Fl ℝ)) : PVal :=
  .obj "Transform" [("pos", stack rows [3] fun r => v3 (t r).pos),
    ("rot", stack rows [4] fun r => q4 (t r).rot)]

/-- `Inertia` (`/repo/src/ring/base.py:200-207`), the rows batched -/
def objInertia {ρ : Type} (rows : List ρ) (t : ρ → Inertia (Fl ℝ)) : PVal :=
  .obj "Inertia" [("it_3x3", stack rows [3, 3] fun r => m9 (t r).it_3x3),
    ("h", stack rows [3] fun r => v3 (t r).h), ("mass", stack rows [1] fun r => [(t r).mass])]

/-- `Link` (`/repo/src/ring/base.py:340-359`), the rows batched; the parameters of the joint type
`t` are one array with `w t` entries per link. -/
def objLink (w : String → Nat) (rows : List (LinkRow (Fl ℝ)))
    (params : List (String × List (List (Fl ℝ)))) : PVal :=
  .obj "Link" [("transform1", objTransform rows (·.transform1)),
    ("pos_min", stack rows [3] fun r => v3 r.pos_min),
    ("pos_max", stack rows [3] fun r => v3 r.pos_max),
    ("joint_params", .dict (params.map fun x => (x.1, stack x.2 [w x.1] id))),
    ("inertia", objInertia rows (·.inertia)),
    ("transform2", objTransform rows (·.transform2)),
    ("transform", objTransform rows (·.transform))]

/-- the class of a geometry -/
def shapeCls {R : Type} : Shape R → String
  | .xyz _ => "XYZ"
  | .sphere _ => "Sphere"
  | .box .. => "Box"
  | .cylinder .. => "Cylinder"
  | .capsule .. => "Capsule"

/-- the own fields of the class of a geometry, `/repo/src/ring/base.py:244-335` -/
def shapeDims {R : Type} : Shape R → List (String × R)
  | .xyz size => [("size", size)]
  | .sphere radius => [("radius", radius)]
  | .box dim_x dim_y dim_z => [("dim_x", dim_x), ("dim_y", dim_y), ("dim_z", dim_z)]
  | .cylinder radius length => [("radius", radius), ("length", length)]
  | .capsule radius length => [("radius", radius), ("length", length)]

/-- a text or `None` -/
def optStr : Option String → PVal
  | none => .none
  | some s => .str s

/-- `Geometry` (`/repo/src/ring/base.py:234-335`) as loaded from a file: the numbers are arrays
(`/repo/src/ring/io/xml/from_xml.py:255`). -/
def objGeometry (g : Geometry (Fl ℝ)) : PVal :=
  .obj (shapeCls g.shape) ([("mass", .arr [] [g.mass]),
    ("transform", .obj "Transform" [("pos", .arr [3] (v3 g.transform.pos)),
      ("rot", .arr [4] (q4 g.transform.rot))]),
    ("link_idx", .int g.link_idx), ("color", optStr g.color),
    ("edge_color", optStr g.edge_color)] ++
    (shapeDims g.shape).map fun x => (x.1, .arr [] [x.2]))

/-- `MaxCoordOMC` (`/repo/src/ring/base.py:362-366`) or `None` -/
def objOMC : Option (MaxCoordOMC (Fl ℝ)) → PVal
  | none => .none
  | some m => .obj "MaxCoordOMC" [("coordinate_system_name", .str m.coordinate_system_name),
      ("pos_marker_number", .int m.pos_marker_number),
      ("pos_marker_constant_offset", .arr [3] (v3 m.pos_marker_constant_offset))]

/-- `System` (`/repo/src/ring/base.py:403-429`) -/
def objSystem (w : String → Nat) (s : System (Fl ℝ) (List (Fl ℝ))) : PVal :=
  .obj "System" [("link_parents", .list (s.link_parents.map .int)),
    ("links", objLink w s.links s.joint_params),
    ("link_types", .list (s.link_types.map .str)),
    ("link_damping", .arr [s.link_damping.length] s.link_damping),
    ("link_armature", .arr [s.link_armature.length] s.link_armature),
    ("link_spring_stiffness", .arr [s.link_spring_stiffness.length] s.link_spring_stiffness),
    ("link_spring_zeropoint", .arr [s.link_spring_zeropoint.length] s.link_spring_zeropoint),
    ("dt", .float s.dt),
    ("geoms", .list (s.geoms.map objGeometry)),
    ("gravity", .arr [3] (v3 s.gravity)),
    ("integration_method", .str s.integration_method),
    ("mass_mat_iters", .int s.mass_mat_iters),
    ("link_names", .list (s.link_names.map .str)),
    ("model_name", optStr s.model_name),
    ("omc", .list (s.omc.map objOMC))]

end utils
end RingLib
