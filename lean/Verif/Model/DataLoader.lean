import Verif.Model.Files
import Verif.Model.Batch

/-!
# Datasets of pickle files

`/repo/src/ring/utils/dataloader.py` and `/repo/src/ring/utils/dataloader_torch.py`.

* `os.listdir` gives the names in a folder in any order; the names are a parameter.
* `torch.utils.data.DataLoader` is modelled by what it documents: it goes through the dataset in order
  or in a random order that is new for every epoch, and makes batches of it. Worker processes and
  prefetching are not modelled. The collated batch is the list of its elements.
* `np.random.default_rng()` takes its seed from the operating system; the `k`-th one is `entropy k`.
* `pickle_load` creates no folder, as the folder of a listed file exists; the file system is therefore
  only read.
-/

namespace RingLib.dataloader
open utils

variable {γ β ω : Type}

/-- `/repo/src/ring/utils/dataloader.py:67-69` `_Dataset.listdir`; `names` is `os.listdir(path)` -/
def listdir (fs : FS γ) (path : FPath) (names : List String) : Py (List FPath) :=
  names.mapM fun file => (parse_path fs path [⟨false, [file]⟩] none true true false).1

/-- `/repo/src/ring/utils/dataloader.py:47-56` the attributes of a `_Dataset` -/
structure Dataset where
  files : List (List FPath)
  P : Nat
  N : Nat

/-- `/repo/src/ring/utils/dataloader.py:48-56` `_Dataset.__init__`; every path comes with the names in
it. -/
def Dataset.init (fs : FS γ) (paths : List (FPath × List String)) : Py Dataset := do
  let files ← paths.mapM fun p => listdir fs p.1 p.2
  let Ns := (files.map List.length).dedup
  pyAssert (Ns.length = 1)
  pure ⟨files, files.length, Ns.headD 0⟩

/-- a transform of elements with a random number generator -/
abbrev Transform (γ ω : Type) := List γ → ω → List γ

/-- `/repo/src/ring/utils/dataloader.py:79-82` `TransformTransform.__call__` -/
def transformTransform (transform : Option (Transform γ ω)) (element : List γ) (rng : ω) : List γ :=
  match transform with
  | none => element
  | some transform => transform element rng

/-- `/repo/src/ring/utils/dataloader.py:61-65` `_Dataset.__getitem__`, before the transform -/
def Dataset.load (ds : Dataset) (fs : FS γ) (idx : Nat) : Py (List γ) :=
  (List.range ds.P).mapM fun p : Nat => do
    let files ← pyGet ds.files p
    let file ← pyGet files idx
    (pickle_load fs file).1

/-- `/repo/src/ring/utils/dataloader.py:61-65` `_Dataset.__getitem__` with a `TransformTransform` -/
def Dataset.get (ds : Dataset) (fs : FS γ) (transform : Option (Transform γ ω)) (idx : Nat) (rng : ω) :
    Py (List γ) := do
  let element ← ds.load fs idx
  pure (transformTransform transform element rng)

/-! ## torch -/

/-- the batches of indices that a `DataLoader` makes from an order of the dataset -/
def batches (batch_size : Nat) (drop_last : Bool) (order : List Nat) : List (List Nat) :=
  (List.range (if drop_last then order.length / batch_size
    else (order.length + batch_size - 1) / batch_size)).map fun i =>
      (order.drop (i * batch_size)).take batch_size

/-- the `DataLoader` and its iterator: `dl`, `dl_iter`, and how many random number generators were
made -/
structure TorchState where
  epoch : Nat
  rest : List (List Nat)
  draws : Nat

/-- the arguments of the `DataLoader`; `perm e` is the random order of epoch `e` -/
structure TorchArgs where
  N : Nat
  batch_size : Nat
  shuffle : Bool := true
  drop_last : Bool := false
  perm : Nat → List Nat

/-- the order of epoch `e` -/
def TorchArgs.order (A : TorchArgs) (e : Nat) : List Nat :=
  if A.shuffle then A.perm e else List.range A.N

/-- `iter(dl)` for epoch `e` -/
def TorchArgs.iter (A : TorchArgs) (e : Nat) : List (List Nat) :=
  batches A.batch_size A.drop_last (A.order e)

/-- `DataLoader(…)` and the first `iter(dl)`, `/repo/src/ring/utils/dataloader.py:96-103`,
`/repo/src/ring/utils/dataloader_torch.py:42-49`; an empty dataset cannot be shuffled. -/
def torchInit (A : TorchArgs) : Py TorchState :=
  if A.batch_size = 0 then .error .value
  else if A.shuffle = true ∧ A.N = 0 then .error .value
  else .ok ⟨0, A.iter 0, 0⟩

/-- load the elements of a batch, each with a new random number generator -/
def loadBatch (get : Nat → ω → Py β) (entropy : Nat → ω) : Nat → List Nat → Py (List β)
  | _, [] => .ok []
  | k, idx :: rest => do
    let element ← get idx (entropy k)
    let elements ← loadBatch get entropy (k + 1) rest
    pure (element :: elements)

/-- `/repo/src/ring/utils/dataloader.py:108-114`, `/repo/src/ring/utils/dataloader_torch.py:54-60`: one
call of the generator. If the iterator is exhausted, a new one is made; if that has no batch either,
`StopIteration` is raised. -/
def torchStep (A : TorchArgs) (get : Nat → ω → Py β) (entropy : Nat → ω) (st : TorchState) :
    Py (List β × TorchState) :=
  let st := if st.rest = [] then { st with epoch := st.epoch + 1, rest := A.iter (st.epoch + 1) }
    else st
  match st.rest with
  | [] => .error .other
  | batch :: rest => do
    let elements ← loadBatch get entropy st.draws batch
    pure (elements, { st with rest := rest, draws := st.draws + batch.length })

/-- the first `n` batches that the generator hands out -/
def torchRun (A : TorchArgs) (get : Nat → ω → Py β) (entropy : Nat → ω) :
    Nat → TorchState → Py (List (List β) × TorchState)
  | 0, st => .ok ([], st)
  | n + 1, st => do
    let r ← torchStep A get entropy st
    let rs ← torchRun A get entropy n r.2
    pure (r.1 :: rs.1, rs.2)

/-- `/repo/src/ring/utils/dataloader.py:85-116` `pytorch_generator`: the dataset, the arguments and the
first state -/
def pytorch_generator (fs : FS γ) (paths : List (FPath × List String)) (batch_size : Nat)
    (shuffle : Bool := true) (drop_last : Bool := false) (perm : Nat → List Nat) :
    Py (Dataset × TorchArgs × TorchState) := do
  let ds ← Dataset.init fs paths
  let A : TorchArgs := ⟨ds.N, batch_size, shuffle, drop_last, perm⟩
  let st ← torchInit A
  pure (ds, A, st)

/-- `/repo/src/ring/utils/dataloader_torch.py:13-30` `FolderOfPickleFilesDataset`: the files -/
def folderDataset (fs : FS γ) (path : FPath) (names : List String) : Py (List FPath) :=
  listdir fs path names

/-- `/repo/src/ring/utils/dataloader_torch.py:22-26` `FolderOfPickleFilesDataset.__getitem__` -/
def folderGet (fs : FS γ) (files : List FPath) (transform : Option (γ → γ)) (idx : Nat) : Py γ := do
  let file ← pyGet files idx
  let element ← (pickle_load fs file).1
  pure (match transform with
    | none => element
    | some transform => transform element)

/-! ## the other backends -/

/-- `/repo/src/ring/utils/dataloader.py:119-132` `eager_generator`: the data that is handed to
`eager_gen_from_list` -/
def eager_data (fs : FS γ) (paths : List (FPath × List String)) (transform : Option (Transform γ ω))
    (entropy : Nat → ω) : Py (List (List γ)) := do
  let ds ← Dataset.init fs paths
  (List.range ds.N).mapM fun i => ds.get fs transform i (entropy i)

/-- `/repo/src/ring/utils/dataloader.py:119-132` `eager_generator` -/
def eager_generator (fs : FS γ) (paths : List (FPath × List String)) (batch_size : Nat)
    (transform : Option (Transform γ ω)) (entropy : Nat → ω) :
    Py (generator.EagerState (List γ) × Nat) := do
  let data ← eager_data fs paths transform entropy
  generator.eager_gen_from_list data batch_size

/-- `/repo/src/ring/utils/dataloader.py:142-143` `_Transform.random_map` of `pygrain_generator`; `rng`
is derived from the seed. -/
def random_map (transform : Option (Transform γ ω)) (element : List γ) (rng : ω) : Py (List γ) :=
  match transform with
  | none => .error .type
  | some transform => .ok (transform element rng)

/-- the backends of `make_generator` -/
inductive Backend | grain | torch | eager
deriving DecidableEq

/-- `/repo/src/ring/utils/dataloader.py:16-41` `make_generator`: which backend is used -/
def backendOf (backend : String := "eager") : Py Backend :=
  if backend = "grain" then .ok .grain
  else if backend = "torch" then .ok .torch
  else if backend = "eager" then .ok .eager
  else .error .notImplemented

end RingLib.dataloader
