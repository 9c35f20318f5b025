import Verif.Model.Batch
import Verif.Model.Files

/-!
# The exports of a generator

`/repo/src/ring/algorithms/generator/base.py`: the same sequences as a folder of files, as one file and
as an eager generator.

Simplifications: the key is that of the seed; a batched tree is the list of its rows; progress bars and
warnings are not modelled.
-/

namespace RingLib
namespace generator
open utils
variable {K β : Type}

/-- The lists of sequences the callback is called with, in order: the two calls shared by `to_list` and
`to_folder`, `/repo/src/ring/algorithms/generator/base.py:178-184, 212-213`. -/
def callbackCalls (M : Machine) (split : K → Nat → Nat → K) (gens : List (BatchedGen K β))
    (n_mconfigs : Nat) (sizes : Sizes) (key : K) : Py (List (List β)) := do
  let r ← _generators_ncalls M split gens n_mconfigs sizes
  generators_eager split r.1 r.2 key

/-- The calls of the callback of `to_folder`, `/repo/src/ring/algorithms/generator/base.py:200-210`. The
numbers drawn in call `c` are `choice c`; `i` is carried from one call to the next. `none` stands for a
loop without end. -/
noncomputable def folderCalls (isnan : β → Bool) (choice : Nat → Nat → Nat → Nat) (path : FPath)
    (overwrite : Bool) (file_prefix : String) (save_fn : FS β → β → FPath → Py Unit × FS β) :
    FS β → Nat → Nat → List (List β) → Option (Py Nat × FS β)
  | fs, _, i, [] => some (.ok i, fs)
  | fs, c, i, data :: calls =>
    match utils.replace_elements_w_nans isnan (choice c) data none with
    | none => none
    | some (.error e) => some (.error e, fs)
    | some (.ok data) =>
      match toFolderLoop path overwrite file_prefix save_fn fs i data with
      | (.error e, fs) => some (.error e, fs)
      | (.ok i, fs) =>
        folderCalls isnan choice path overwrite file_prefix save_fn fs (c + 1) i calls

/-- `/repo/src/ring/algorithms/generator/base.py:187-213` `RCMG.to_folder` with its generators. The
callback runs between the calls of the generators; here a call of a generator that raises is taken to
do so before anything is written. -/
noncomputable def to_folder_of (isnan : β → Bool) (choice : Nat → Nat → Nat → Nat) (M : Machine)
    (split : K → Nat → Nat → K) (gens : List (BatchedGen K β)) (n_mconfigs : Nat) (sizes : Sizes)
    (key : K) (path : FPath) (overwrite : Bool) (file_prefix : String)
    (save_fn : FS β → β → FPath → Py Unit × FS β) (fs : FS β) : Option (Py Nat × FS β) :=
  match callbackCalls M split gens n_mconfigs sizes key with
  | .error e => some (.error e, fs)
  | .ok calls => folderCalls isnan choice path overwrite file_prefix save_fn fs 0 0 calls

/-- `/repo/src/ring/algorithms/generator/base.py:215-223` `RCMG.to_pickle`; `tree_batch` of an empty list
raises. -/
def to_pickle (M : Machine) (split : K → Nat → Nat → K) (gens : List (BatchedGen K β))
    (n_mconfigs : Nat) (sizes : Sizes) (key : K) (path : FPath) (overwrite : Bool)
    (fs : FS (List β)) : Py Unit × FS (List β) :=
  match to_list M split gens n_mconfigs sizes key with
  | .error e => (.error e, fs)
  | .ok [] => (.error .index, fs)
  | .ok (d :: data) => utils.pickle_save fs (d :: data) path overwrite

/-- `/repo/src/ring/algorithms/generator/base.py:225-235` `RCMG.to_eager_gen`: the state the generator
starts with and the number of its batches -/
def to_eager_gen (M : Machine) (split : K → Nat → Nat → K) (gens : List (BatchedGen K β))
    (n_mconfigs : Nat) (sizes : Sizes) (key : K) (batchsize : Nat) : Py (EagerState β × Nat) := do
  let data ← to_list M split gens n_mconfigs sizes key
  pyAssert (data.length ≥ batchsize)
  eager_gen_from_list data batchsize

end generator
end RingLib
