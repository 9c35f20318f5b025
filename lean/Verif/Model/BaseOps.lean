import Verif.Model.Py
import Mathlib.Data.List.Dedup

/-!
# Arrays of spatial quantities

The methods of `_Base`, `/repo/src/ring/base.py:25-110`, and `Transform.create`, `Motion.create`,
`Force.create`.

* An array is its shape with its entries by index; a value of a subclass of `_Base` is the list of its
  arrays (`Transform` is `[pos, rot]`, `Motion` and `Force` are `[ang, vel]`).
* `tree_map` over several values requires the same number of arrays.
* Indexing by `jnp.take` outside the array gives NaN, which is the parameter `nan`; an update outside
  the array is dropped. Negative indices count from the end.
* The value in `index_set` and `index_sum` has the shape of the entry: broadcasting is not modelled. The
  index is a single integer.
* `reshape` is modelled without `-1`.
* `batch` is `tree_batch` of the library `tree_utils`, by its documentation: stack, or concatenate along
  the first axis. `flatten`, `ndim` and `batch_dim` are functions of that library and not modelled here.
-/

namespace RingLib.base

/-- an array -/
structure Arr (R : Type) where
  shape : List Nat
  get : List Nat → R

/-- a value of a subclass of `_Base`: its arrays -/
abbrev Tree (R : Type) := List (Arr R)

variable {R : Type}

/-- `tree_map` over two values -/
def treeMap2 (f : Arr R → Arr R → Py (Arr R)) (t o : Tree R) : Py (Tree R) :=
  if t.length = o.length then (t.zip o).mapM fun x => f x.1 x.2 else .error .value

/-- `tree_map` over several values -/
def treeMapN (f : List (Arr R) → Py (Arr R)) (ts : List (Tree R)) : Py (Tree R) :=
  match ts with
  | [] => .error .type
  | t :: _ =>
    if ∀ o ∈ ts, o.length = t.length then
      (List.range t.length).mapM fun c : Nat => f (ts.filterMap fun o => o[c]?)
    else .error .value

/-- an operation entry by entry on arrays of the same shape -/
def pointwise2 (f : R → R → R) (a b : Arr R) : Py (Arr R) :=
  if a.shape = b.shape then .ok ⟨a.shape, fun i => f (a.get i) (b.get i)⟩ else .error .type

/-- `/repo/src/ring/base.py:30-31` `__add__` -/
def add [Add R] (t o : Tree R) : Py (Tree R) := treeMap2 (pointwise2 (· + ·)) t o

/-- `/repo/src/ring/base.py:33-34` `__sub__` -/
def sub [Sub R] (t o : Tree R) : Py (Tree R) := treeMap2 (pointwise2 (· - ·)) t o

/-- `/repo/src/ring/base.py:36-37` `__mul__` for a number -/
def mul [Mul R] (t : Tree R) (o : R) : Tree R := t.map fun a => ⟨a.shape, fun i => a.get i * o⟩

/-- `/repo/src/ring/base.py:39-40` `__neg__` -/
def neg [Neg R] (t : Tree R) : Tree R := t.map fun a => ⟨a.shape, fun i => -a.get i⟩

/-- `/repo/src/ring/base.py:42-43` `__truediv__` for a number -/
def truediv [Div R] (t : Tree R) (o : R) : Tree R := t.map fun a => ⟨a.shape, fun i => a.get i / o⟩

/-- the position that an index means in an axis of length `n` -/
def position (n : Nat) (i : Int) : Option Nat :=
  let k := if i < 0 then i + n else i
  if 0 ≤ k ∧ k < n then some k.toNat else none

/-- `jnp.take(arr, i, axis=0)` for an integer -/
def takeOne (nan : R) (i : Int) (a : Arr R) : Py (Arr R) :=
  match a.shape with
  | [] => .error .value
  | n :: s => .ok ⟨s, fun j => match position n i with
    | some k => a.get (k :: j)
    | none => nan⟩

/-- `jnp.take(arr, idx, axis=0)` for an array of integers -/
def takeMany (nan : R) (idx : List Int) (a : Arr R) : Py (Arr R) :=
  match a.shape with
  | [] => .error .value
  | n :: s => .ok ⟨idx.length :: s, fun j => match position n (idx.getD (j.headD 0) 0) with
    | some k => a.get (k :: j.tail)
    | none => nan⟩

/-- `/repo/src/ring/base.py:54-55` `take` along the first axis, `/repo/src/ring/base.py:45-46`
`__getitem__` -/
def take (nan : R) (t : Tree R) (i : Int) : Py (Tree R) := t.mapM (takeOne nan i)

/-- `/repo/src/ring/base.py:54-55` `take` of several entries -/
def takes (nan : R) (t : Tree R) (idx : List Int) : Py (Tree R) := t.mapM (takeMany nan idx)

/-- a bound of a python slice -/
def bound (n : Nat) (b : Int) : Nat := if b < 0 then (b + n).toNat else min b.toNat n

/-- `arr[beg:end]` -/
def sliceArr (beg fin : Int) (a : Arr R) : Py (Arr R) :=
  match a.shape with
  | [] => .error .index
  | n :: s => .ok ⟨(bound n fin - bound n beg) :: s, fun j => a.get ((bound n beg + j.headD 0) :: j.tail)⟩

/-- `/repo/src/ring/base.py:51-52` `slice` -/
def slice (t : Tree R) (beg fin : Int) : Py (Tree R) := t.mapM (sliceArr beg fin)

/-- the entries of a concatenation along the first axis -/
def pickFirst [Inhabited R] : List (Arr R) → Nat → List Nat → R
  | [], _, _ => default
  | a :: l, i, j =>
    if i < a.shape.headD 0 then a.get (i :: j) else pickFirst l (i - a.shape.headD 0) j

/-- `jnp.concatenate(arrs, axis=0)` -/
def concatFirst [Inhabited R] (l : List (Arr R)) : Py (Arr R) :=
  match l with
  | [] => .error .value
  | a :: _ =>
    if a.shape ≠ [] ∧ ∀ b ∈ l, b.shape ≠ [] ∧ b.shape.tail = a.shape.tail then
      .ok ⟨(l.map fun b => b.shape.headD 0).sum :: a.shape.tail, fun j => pickFirst l (j.headD 0) j.tail⟩
    else .error .type

/-- `/repo/src/ring/base.py:63-64` `concatenate` along the first axis -/
def concatenate [Inhabited R] (t : Tree R) (others : List (Tree R)) : Py (Tree R) :=
  treeMapN concatFirst (t :: others)

/-- `arr[None]` -/
def expandFirst (a : Arr R) : Arr R := ⟨1 :: a.shape, fun j => a.get j.tail⟩

/-- `jnp.stack(arrs)` -/
def stackArr [Inhabited R] (l : List (Arr R)) : Py (Arr R) := concatFirst (l.map expandFirst)

/-- `/repo/src/ring/base.py:66-67` `batch` -/
def batch [Inhabited R] (t : Tree R) (others : List (Tree R)) (along_existing_first_axis : Bool := false) :
    Py (Tree R) :=
  if along_existing_first_axis then treeMapN concatFirst (t :: others)
  else treeMapN stackArr (t :: others)

/-- an array with the first axis and the one behind it exchanged -/
def swapAxes (a : Arr R) : Arr R :=
  match a.shape with
  | n :: m :: s => ⟨m :: n :: s, fun j => a.get (j.getD 1 0 :: j.headD 0 :: j.drop 2)⟩
  | _ => a

/-- `jnp.concatenate(arrs, axis=1)` -/
def concatSecond [Inhabited R] (l : List (Arr R)) : Py (Arr R) :=
  if ∀ a ∈ l, 2 ≤ a.shape.length then do
    let a ← concatFirst (l.map swapAxes)
    pure (swapAxes a)
  else .error .value

/-- `jnp.atleast_1d` -/
def atleast_1d (a : Arr R) : Arr R := if a.shape = [] then expandFirst a else a

/-- `jnp.atleast_2d` -/
def atleast_2d (a : Arr R) : Arr R :=
  if a.shape.length < 2 then expandFirst (atleast_1d a) else a

/-- `jnp.hstack`: along the first axis if the first array has one axis, along the second otherwise -/
def hstackArr [Inhabited R] (l : List (Arr R)) : Py (Arr R) :=
  if ((l.map atleast_1d).head?.map fun a => a.shape.length) = some 1 then concatFirst (l.map atleast_1d)
  else concatSecond (l.map atleast_1d)

/-- `/repo/src/ring/base.py:57-58` `hstack` -/
def hstack [Inhabited R] (t : Tree R) (others : List (Tree R)) : Py (Tree R) :=
  treeMapN hstackArr (t :: others)

/-- `/repo/src/ring/base.py:60-61` `vstack` -/
def vstack [Inhabited R] (t : Tree R) (others : List (Tree R)) : Py (Tree R) :=
  treeMapN (fun l => concatFirst (l.map atleast_2d)) (t :: others)

/-- `arr.at[i].set(o)` and `arr.at[i].add(o)` -/
def updateAt (f : R → R → R) (i : Int) (a o : Arr R) : Py (Arr R) :=
  match a.shape with
  | [] => .error .index
  | n :: s =>
    if o.shape = s then
      .ok ⟨n :: s, fun j => if position n i = some (j.headD 0) then f (a.get j) (o.get j.tail) else a.get j⟩
    else .error .value

/-- `/repo/src/ring/base.py:69-70` `index_set` -/
def index_set (t : Tree R) (i : Int) (o : Tree R) : Py (Tree R) :=
  treeMap2 (updateAt (fun _ y => y) i) t o

/-- `/repo/src/ring/base.py:72-73` `index_sum` -/
def index_sum [Add R] (t : Tree R) (i : Int) (o : Tree R) : Py (Tree R) :=
  treeMap2 (updateAt (fun x y => x + y) i) t o

/-- `/repo/src/ring/base.py:75-77` `T` -/
def transposeAll (t : Tree R) : Tree R := t.map fun a => ⟨a.shape.reverse, fun i => a.get i.reverse⟩

/-- the index before `jnp.squeeze`, from the one after it -/
def unsqueeze : List Nat → List Nat → List Nat
  | [], _ => []
  | n :: s, i => if n = 1 then 0 :: unsqueeze s i else i.headD 0 :: unsqueeze s i.tail

/-- `jnp.squeeze(arr)` -/
def squeezeArr (a : Arr R) : Arr R := ⟨a.shape.filter (· ≠ 1), fun i => a.get (unsqueeze a.shape i)⟩

/-- `/repo/src/ring/base.py:82-83` `squeeze` -/
def squeeze (t : Tree R) : Tree R := t.map squeezeArr

/-- `/repo/src/ring/base.py:85-86` `squeeze_1d` -/
def squeeze_1d (t : Tree R) : Tree R := t.map fun a => atleast_1d (squeezeArr a)

/-- `/repo/src/ring/base.py:97-98` `repeat` along the first axis -/
def repeatTree (t : Tree R) (repeats : Nat) : Py (Tree R) :=
  t.mapM fun a => match a.shape with
    | [] => .error .value
    | n :: s => .ok ⟨n * repeats :: s, fun j => a.get (j.headD 0 / repeats :: j.tail)⟩

/-- the index of entry number `k` in row-major order -/
def unravel : List Nat → Nat → List Nat
  | [], _ => []
  | _ :: s, k => k / s.prod :: unravel s (k % s.prod)

/-- the number of an entry in row-major order -/
def ravel : List Nat → List Nat → Nat
  | _ :: s, i :: is => i * s.prod + ravel s is
  | _, _ => 0

/-- `/repo/src/ring/base.py:48-49` `reshape`, without `-1` -/
def reshape (t : Tree R) (shape : List Nat) : Py (Tree R) :=
  t.mapM fun a => if a.shape.prod = shape.prod then
      .ok ⟨shape, fun i => a.get (unravel a.shape (ravel shape i))⟩
    else .error .type

/-- `/repo/src/ring/base.py:103-107` `shape` for an axis counted from the front -/
def shapeOf (t : Tree R) (axis : Nat := 0) : Py Nat := do
  let Bs : List Nat ← t.mapM fun a => pyGet a.shape axis
  match Bs.dedup with
  | [b] => .ok b
  | _ => .error .assertion

/-- `/repo/src/ring/base.py:109-110` `__len__` -/
def len (t : Tree R) : Py Nat := shapeOf t 0

/-- `/repo/src/ring/base.py:94-95` `__iter__` -/
def iter (_ : Tree R) : Py (List (Tree R)) := .error .notImplemented

/-- `jnp.zeros(shape + (3,))` -/
def zeros3 [Zero R] (shape : List Nat) : Arr R := ⟨shape ++ [3], fun _ => 0⟩

/-- `jnp.tile(jnp.array([1.0, 0.0, 0.0, 0.0]), shape + (1,))` -/
def unitQuats [Zero R] [One R] (shape : List Nat) : Arr R :=
  ⟨shape ++ [4], fun i => if i.getLastD 0 = 0 then 1 else 0⟩

/-- `/repo/src/ring/base.py:124-138` `Transform.create` -/
def transformCreate [Zero R] [One R] (pos rot : Option (Arr R)) : Py (Tree R) := do
  pyAssert (¬ (pos.isNone ∧ rot.isNone))
  let shape_rot := (rot.map fun a => a.shape.dropLast).getD []
  let shape_pos := (pos.map fun a => a.shape.dropLast).getD []
  let pos := pos.getD (zeros3 shape_rot)
  let rot := rot.getD (unitQuats shape_pos)
  pyAssert (pos.shape.dropLast = rot.shape.dropLast)
  pure [pos, rot]

/-- `/repo/src/ring/base.py:158-165` `Motion.create`, `/repo/src/ring/base.py:183-190` `Force.create` -/
def motionCreate [Zero R] (ang vel : Option (Arr R)) : Py (Tree R) := do
  pyAssert (¬ (ang.isNone ∧ vel.isNone))
  pure [ang.getD (zeros3 []), vel.getD (zeros3 [])]

end RingLib.base
