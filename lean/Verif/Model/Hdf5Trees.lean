import Verif.Model.Hdf5

/-!
# Trees of arrays in several hdf5 files, `/repo/src/ring/utils/hdf5.py`

* `Verif/Model/Hdf5.lean` takes a file for the list of its rows. Here a file is a tree of datasets, each
  of which has rows or is a single number.
* Indices are lists of numbers that are not negative, along the first axis.
* `np.concatenate` also refuses rows of different shapes; this is not modelled. Where one tree has an array
  and the other one a container, `np.concatenate` is taken to refuse them.
-/

namespace RingLib
namespace hdf5
namespace Trees
variable {α β ρ : Type}

/-- a dataset: an array without axes, or the rows along the first axis -/
inductive Leaf (ρ : Type) where
  | scalar (x : ρ)
  | rows (l : List ρ)

mutual
/-- the leaves in the order of `jax.tree_util.tree_flatten`; the dictionaries here are those made by
`_lazy_tree_map`, whose keys are in order, `/repo/src/ring/utils/hdf5.py:99-101` -/
def leaves : PyTree α → List α
  | .arr a => [a]
  | .list l => leavesList l
  | .tuple l => leavesList l
  | .dict d => leavesItems d
  | .ntuple _ d => leavesItems d
  | .other => []
/-- the leaves of the members of a list -/
def leavesList : List (PyTree α) → List α
  | [] => []
  | t :: ts => leaves t ++ leavesList ts
/-- the leaves of the members of a dictionary -/
def leavesItems : List (String × PyTree α) → List α
  | [] => []
  | (_, t) :: ts => leaves t ++ leavesItems ts
end

mutual
/-- `jax.tree_map` with one tree, `/repo/src/ring/utils/hdf5.py:124` -/
def treeMap (g : α → β) : PyTree α → PyTree β
  | .arr a => .arr (g a)
  | .list l => .list (treeMapList g l)
  | .tuple l => .tuple (treeMapList g l)
  | .dict d => .dict (treeMapItems g d)
  | .ntuple n d => .ntuple n (treeMapItems g d)
  | .other => .other
/-- the members of a list -/
def treeMapList (g : α → β) : List (PyTree α) → List (PyTree β)
  | [] => []
  | t :: ts => treeMap g t :: treeMapList g ts
/-- the members of a dictionary -/
def treeMapItems (g : α → β) : List (String × PyTree α) → List (String × PyTree β)
  | [] => []
  | (k, t) :: ts => (k, treeMap g t) :: treeMapItems g ts
end

/-- `leaf.shape[0]` -/
def Leaf.length : Leaf ρ → Py Nat
  | .scalar _ => .error .index
  | .rows l => .ok l.length

/-- `/repo/src/ring/utils/hdf5.py:85-101` `load_length`: the length of the first leaf -/
def load_length (file : H5 (Leaf ρ)) : Py Nat := do
  let tree ← _lazy_tree_map .ok file
  match (leaves tree).head? with
  | none => .error .index
  | some leaf => leaf.length

/-- `func` in `_loadtree` for sorted indices: an array without axes has no axis to index,
`/repo/src/ring/utils/hdf5.py:172-178` -/
def takeLeaf (indices : List Nat) : Leaf ρ → Py (Leaf ρ)
  | .scalar _ => .error .index
  | .rows l => do
    let l ← takeRows l indices
    .ok (.rows l)

/-- `load(filepath, indices)`, `/repo/src/ring/utils/hdf5.py:34-51` and
`/repo/src/ring/utils/hdf5.py:162-180` -/
def load (file : H5 (Leaf ρ)) (indices : List Nat) : Py (PyTree (Leaf ρ)) :=
  _lazy_tree_map (takeLeaf (indices.insertionSort (· ≤ ·))) file

/-- `np.atleast_1d` -/
def atleast_1d : Leaf ρ → List ρ
  | .scalar x => [x]
  | .rows l => l

mutual
/-- `jax.tree_util.tree_map(lambda *arrs: np.concatenate(arrs, axis=0), …)` for two trees. The trees have
to have the same structure. The types of named tuples are made anew whenever a file is loaded, see
`/repo/src/ring/utils/hdf5.py:197-198`, so that those of two trees are never the same,
`/repo/src/ring/utils/hdf5.py:131`. -/
def join : PyTree (List ρ) → PyTree (List ρ) → Py (PyTree (List ρ))
  | .arr a, .arr b => .ok (.arr (a ++ b))
  | .list l, .list m => do
    let l ← joinList l m
    .ok (.list l)
  | .tuple l, .tuple m => do
    let l ← joinList l m
    .ok (.tuple l)
  | .dict d, .dict e => do
    let d ← joinItems d e
    .ok (.dict d)
  | _, _ => .error .value
/-- the members of two lists -/
def joinList : List (PyTree (List ρ)) → List (PyTree (List ρ)) → Py (List (PyTree (List ρ)))
  | [], [] => .ok []
  | t :: ts, u :: us => do
    let t ← join t u
    let ts ← joinList ts us
    .ok (t :: ts)
  | _, _ => .error .value
/-- the members of two dictionaries -/
def joinItems : List (String × PyTree (List ρ)) → List (String × PyTree (List ρ)) →
    Py (List (String × PyTree (List ρ)))
  | [], [] => .ok []
  | (k, t) :: ts, (m, u) :: us =>
    if k = m then do
      let t ← join t u
      let ts ← joinItems ts us
      .ok ((k, t) :: ts)
    else .error .value
  | _, _ => .error .value
end

/-- `/repo/src/ring/utils/hdf5.py:122-131` `_tree_concat` -/
def _tree_concat (trees : List (PyTree (Leaf ρ))) : Py (PyTree (List ρ)) :=
  match trees.map (treeMap atleast_1d) with
  | [] => .ok (.list [])
  | t :: ts => ts.foldlM join t

/-- what is loaded from the file with number `x.2`, given the file every index belongs to and where the
files start, `/repo/src/ring/utils/hdf5.py:68-72` -/
def part (bel start : Nat → Nat) (s : List Nat) (x : β × Nat) : Option (β × List Nat) :=
  let indices_fp := (s.filter fun t => bel t = x.2).map fun t => t - start x.2
  if indices_fp = [] then none else some (x.1, indices_fp)

/-- `/repo/src/ring/utils/hdf5.py:58-77` `load_from_multiple` -/
def load_from_multiple (files : List (H5 (Leaf ρ))) (indices : List Nat) : Py (PyTree (List ρ)) := do
  pyAssert (1 < files.length)
  let lengths ← files.mapM load_length
  let borders := cumsum lengths
  let indices := indices.insertionSort (· ≤ ·)
  let last ← match indices.getLast? with
    | some last => .ok last
    | none => .error .index
  pyAssert (last < borders.getLast?.getD 0)
  let parts := files.zipIdx.filterMap
    (part (belongsTo borders) (fun i => (0 :: borders).getD i 0) indices)
  let trees ← parts.mapM fun x => load x.1 x.2
  _tree_concat trees

end Trees
end hdf5
end RingLib
