import Verif.Model.Py

/-!
# Copies of trees of objects

`pytree_deepcopy`, `/repo/src/ring/utils/utils.py:115-130`, which `eager_gen_from_list`
(`/repo/src/ring/algorithms/generator/base.py:254`) applies to every batch before the transform of the
user sees it, and `dict_union` (`/repo/src/ring/utils/utils.py:78-79`) to both dictionaries.

Elsewhere in the model values have no identity, and there the function is the identity. Here it is modelled
with the memory it acts on.

* The memory is a list of objects, an address is a position in it, allocation appends. Nothing is freed.
* An object has a kind, the data it holds itself (the numbers of an array) and its children with their
  keys: the positions of a list or tuple, the keys of a dictionary, the fields of a `_Base`.
* Arrays with elements of type `object` are not modelled: arrays have no children.
* `n` is the recursion limit of python.
-/

namespace RingLib.deepcopy

/-- what `isinstance` and `np.isscalar` distinguish -/
inductive Kind where
  /-- `int` (also `bool`) and `float` (also `np.float64`) -/
  | number
  /-- `jax.Array` -/
  | jax
  /-- `np.ndarray` -/
  | npArray
  /-- the other scalars of numpy, like `np.float32` or `np.int64` -/
  | npScalar
  /-- `str`, `bytes`, `complex`: scalars by `np.isscalar` without a method `copy` -/
  | text
  | list
  | tuple
  /-- an instance of a `NamedTuple` -/
  | namedTuple
  | dict
  /-- a subclass of `_Base` -/
  | base
  /-- everything else, like `None` -/
  | other
deriving DecidableEq, Repr

/-- an object in memory -/
structure Obj (D : Type) where
  kind : Kind
  data : D
  kids : List (String × Nat)

/-- the memory -/
abbrev Heap (D : Type) := List (Obj D)

variable {D : Type}

/-- a new object -/
def alloc (h : Heap D) (o : Obj D) : Heap D × Nat := (h ++ [o], h.length)

/-- the kind of what `tuple(…)` builds: a plain tuple, also from a named one -/
def rebuilt : Kind → Kind
  | .namedTuple => .tuple
  | k => k

/-- the comprehensions of `/repo/src/ring/utils/utils.py:122-126`: `f` for one child after the other -/
def copyKids (f : Heap D → Nat → Py (Heap D × Nat)) :
    Heap D → List (String × Nat) → Py (Heap D × List (String × Nat))
  | h, [] => .ok (h, [])
  | h, x :: r => do
    let s ← f h x.2
    let t ← copyKids f s.1 r
    .ok (t.1, (x.1, s.2) :: t.2)

/-- `/repo/src/ring/utils/utils.py:115-130` `pytree_deepcopy` -/
def pytree_deepcopy : Nat → Heap D → Nat → Py (Heap D × Nat)
  | 0, _, _ => .error .recursion
  | n + 1, h, a =>
    match h[a]? with
    | none => .error .other
    | some o =>
      match o.kind with
      | .number => .ok (h, a)
      | .jax => .ok (h, a)
      | .npArray => .ok (alloc h o)
      | .npScalar => .ok (alloc h o)
      | .text => .error .attribute
      | .base => .ok (h, a)
      | .other => .error .notImplemented
      | _ => do
        let s ← copyKids (pytree_deepcopy n) h o.kids
        .ok (alloc s.1 ⟨rebuilt o.kind, o.data, s.2⟩)

end RingLib.deepcopy
