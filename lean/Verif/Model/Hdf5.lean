import Verif.Model.Files
import Mathlib.Data.List.Sort

/-!
# Saving and loading trees, `/repo/src/ring/utils/hdf5.py`

* An hdf5 file is a tree of named groups and datasets. `h5py` lists the members of a group in the order
  of their names.
* Names are single components: keys of dictionaries contain no slash and are not empty.
* The dtype of arrays and what `jax.device_get` does to leaves are not modelled.
-/

namespace RingLib
namespace hdf5
variable {α ρ : Type}

/-- a python tree of arrays; `other` is anything else -/
inductive PyTree (α : Type) where
  | arr (a : α)
  | list (l : List (PyTree α))
  | tuple (l : List (PyTree α))
  | dict (d : List (String × PyTree α))
  | ntuple (name : String) (fields : List (String × PyTree α))
  | other

/-- the content of an hdf5 file; a group carries the attribute `type` -/
inductive H5 (α : Type) where
  | dataset (a : α)
  | group (type : String) (items : List (String × H5 α))

mutual
/-- `/repo/src/ring/utils/hdf5.py:139-159` `_savetree` -/
def _savetree : PyTree α → Py (H5 α)
  | .arr a => .ok (.dataset a)
  | .list l => do
    let items ← saveSeq 0 l
    .ok (.group "list" items)
  | .tuple l => do
    let items ← saveSeq 0 l
    .ok (.group "tuple" items)
  | .dict d => do
    let items ← saveDict d
    .ok (.group "dict" items)
  | .ntuple name fields => do
    let items ← saveDict fields
    .ok (.group name items)
  | .other => .error .value

/-- the members of a list or tuple from number `k` on,
`/repo/src/ring/utils/hdf5.py:152-154` -/
def saveSeq : Nat → List (PyTree α) → Py (List (String × H5 α))
  | _, [] => .ok []
  | k, t :: ts => do
    let h ← _savetree t
    let hs ← saveSeq (k + 1) ts
    .ok (("arr" ++ toString k, h) :: hs)

/-- the members of a dictionary or named tuple,
`/repo/src/ring/utils/hdf5.py:149-151, 155-157` -/
def saveDict : List (String × PyTree α) → Py (List (String × H5 α))
  | [] => .ok []
  | (k, t) :: ts => do
    let h ← _savetree t
    let hs ← saveDict ts
    .ok ((k, h) :: hs)
end

/-- the members of a group in the order in which `h5py` lists them -/
def byName {β : Type} (items : List (String × β)) : List (String × β) :=
  items.insertionSort fun x y => x.1 ≤ y.1

/-- what a group is turned into, given its members in the order of their names,
`/repo/src/ring/utils/hdf5.py:191-198` -/
def ofGroup (type : String) (items : List (String × PyTree α)) : PyTree α :=
  if type = "dict" then .dict items
  else if type = "list" then .list (items.map Prod.snd)
  else if type = "tuple" then .tuple (items.map Prod.snd)
  else .ntuple type items

mutual
/-- `/repo/src/ring/utils/hdf5.py:183-198` `_lazy_tree_map` -/
def _lazy_tree_map (func : α → Py α) : H5 α → Py (PyTree α)
  | .dataset a => do
    let a ← func a
    .ok (.arr a)
  | .group type items => do
    let items ← mapItems func items
    .ok (ofGroup type (byName items))

/-- the members of a group (the order in which they are visited makes no difference),
`/repo/src/ring/utils/hdf5.py:189` -/
def mapItems (func : α → Py α) : List (String × H5 α) → Py (List (String × PyTree α))
  | [] => .ok []
  | (k, h) :: hs => do
    let t ← _lazy_tree_map func h
    let ts ← mapItems func hs
    .ok ((k, t) :: ts)
end

/-! ## files -/

/-- the content of an hdf5 file on disk: the group `pytree`, or nothing if writing was interrupted -/
abbrev Content (α : Type) := Option (H5 α)

/-- `/repo/src/ring/utils/hdf5.py:104-119` `_parse_path` -/
def _parse_path {γ : Type} (fs : FS γ) (path : FPath) (extension : String) (file_exists_ok : Bool) :
    Py FPath := do
  let path ← path.with_suffix (utils.dotted extension)
  if file_exists_ok = false ∧ fs.exists? path = true then .error .fileExists else .ok path

/-- `/repo/src/ring/utils/hdf5.py:20-31` `save`; a file is created before the tree is looked at -/
def save (fs : FS (Content α)) (filepath : FPath) (tree : PyTree α) (overwrite : Bool) :
    Py Unit × FS (Content α) :=
  match _parse_path fs filepath "h5" overwrite with
  | .error e => (.error e, fs)
  | .ok filepath =>
    match fs.write filepath none with
    | (.error e, fs) => (.error e, fs)
    | (.ok _, fs) =>
      match _savetree tree with
      | .error e => (.error e, fs)
      | .ok h => (.ok (), fs.set filepath (.file (some h)))

/-- `/repo/src/ring/utils/hdf5.py:34-51` `load` without indices -/
def load (fs : FS (Content α)) (filepath : FPath) : Py (PyTree α) := do
  let filepath ← _parse_path fs filepath "h5" true
  match fs filepath with
  | some (.file (some h)) => _lazy_tree_map .ok h
  | _ => .error .other

/-! ## several files -/

/-- `leaf[indices]` for sorted indices along the first axis: `h5py` refuses repeated and out of range
indices, `/repo/src/ring/utils/hdf5.py:167-178`. -/
def takeRows (rows : List ρ) (indices : List Nat) : Py (List ρ) :=
  if ¬ indices.Pairwise (· < ·) then .error .type
  else indices.mapM fun i => match rows[i]? with
    | some x => .ok x
    | none => .error .index

/-- `load(filepath, indices)` for a list of indices, `/repo/src/ring/utils/hdf5.py:34-51` and
`/repo/src/ring/utils/hdf5.py:162-180`; the tree of arrays is the list of its rows. -/
def loadRows (rows : List ρ) (indices : List Nat) : Py (List ρ) :=
  takeRows rows (indices.insertionSort (· ≤ ·))

/-- `np.cumsum` -/
def cumsum (l : List Nat) : List Nat := (l.scanl (· + ·) 0).tail

/-- `np.searchsorted(borders - 1, index)` -/
def belongsTo (borders : List Nat) (index : Nat) : Nat :=
  borders.countP fun b : Nat => (b : Int) - 1 < index

/-- `/repo/src/ring/utils/hdf5.py:58-77` `load_from_multiple`; a file is the list of its rows, and
indices are not negative. -/
def load_from_multiple (files : List (List ρ)) (indices : List Nat) : Py (List ρ) := do
  pyAssert (1 < files.length)
  let borders := cumsum (files.map List.length)
  let indices := indices.insertionSort (· ≤ ·)
  let last ← match indices.getLast? with
    | some last => .ok last
    | none => .error .index
  pyAssert (last < borders.getLast?.getD 0)
  let parts := files.zipIdx.filterMap fun x =>
    let indices_fp := (indices.filter fun t => belongsTo borders t = x.2).map
      fun t => t - (0 :: borders).getD x.2 0
    if indices_fp = [] then none else some (x.1, indices_fp)
  let trees ← parts.mapM fun x => loadRows x.1 x.2
  .ok trees.flatten

end hdf5
end RingLib
