import Verif.Model.Py
import Verif.Model.Random

/-!
# Normalization of inputs

`/repo/src/ring/utils/normalizer.py`.

* A batched array is a list of sequences, a sequence a list of time steps, a time step a list of
  features; a tree of arrays is the list of its leaves. The check `tree_ndim(X) == 3` is in the type.
* `tree_utils` is an external library: `tree_shape` is the size of the first axis of the first leaf,
  `tree_batch(…, True, …)` concatenates along the first axis, and `tree_slice` takes the first entries
  and fails if there are not enough.
* Numbers are exact; `jnp.std` is the square root of the mean squared deviation.
-/

namespace RingLib.normalizer

/-- an array of batch, time and features -/
abbrev Arr3 := List (List (List ℝ))

/-- all values of feature `f`, over batch and time -/
noncomputable def channel (arr : Arr3) (f : Nat) : List ℝ := arr.flatMap fun s => s.map (·.getD f 0)

/-- size of the last axis -/
def features (arr : Arr3) : Nat := ((arr.headD []).headD []).length

/-- the mean of a list -/
noncomputable def avg (l : List ℝ) : ℝ := l.sum / l.length

/-- `jnp.mean(arr, axis=(0, 1))`, `/repo/src/ring/utils/normalizer.py:44` -/
noncomputable def mean (arr : Arr3) : List ℝ :=
  (List.range (features arr)).map fun f => avg (channel arr f)

/-- `jnp.std(arr, axis=(0, 1))`, `/repo/src/ring/utils/normalizer.py:45` -/
noncomputable def std (arr : Arr3) : List ℝ :=
  (List.range (features arr)).map fun f =>
    √(avg ((channel arr f).map fun x => (x - avg (channel arr f)) ^ 2))

/-- `/repo/src/ring/utils/normalizer.py:33-35`: the batches of the generator, every call with a new
key -/
def draws {K : Type} (R : Rng K) (generator : K → List Arr3) : Nat → K → List (List Arr3)
  | 0, _ => []
  | n + 1, key => generator (R.split key 2 1) :: draws R generator n (R.split key 2 0)

/-- `tree_utils.tree_batch(Xs, True, "jax")`, `/repo/src/ring/utils/normalizer.py:36` -/
def concat : List (List Arr3) → Py (List Arr3)
  | [] => .error .index
  | X :: Xs => .ok ((List.range X.length).map fun j => ((X :: Xs).map (·.getD j [])).flatten)

/-- `jax.random.permutation(KEY_PERMUTATION, arr)`, `/repo/src/ring/utils/normalizer.py:40` -/
def permute {K : Type} (R : Rng K) (key : K) (arr : Arr3) : Arr3 :=
  (List.range arr.length).map fun j => arr.getD (R.perm key arr.length j) []

/-- `tree_utils.tree_slice(Xs, start=0, slice_size=…)`, `/repo/src/ring/utils/normalizer.py:41` -/
def slice (size : Nat) (arr : Arr3) : Py Arr3 :=
  if arr.length < size then .error .type else .ok (arr.take size)

/-- `/repo/src/ring/utils/normalizer.py:25-41`: the sequences from which the statistics are taken -/
def sample {K : Type} (R : Rng K) (KEY KEY_PERMUTATION : K) (generator : K → List Arr3)
    (approx_with_large_batchsize : Nat := 512) : Py (List Arr3) := do
  let X := generator KEY
  let bs := (X.headD []).length
  if bs = 0 then .error .zeroDivision
  else
    let number_of_gen_calls := (approx_with_large_batchsize + bs - 1) / bs
    let Xs ← concat (draws R generator number_of_gen_calls KEY)
    let Xs := Xs.map (permute R KEY_PERMUTATION)
    Xs.mapM (slice approx_with_large_batchsize)

/-- `/repo/src/ring/utils/normalizer.py:51` -/
noncomputable def eps : ℝ := 1e-8

/-- `/repo/src/ring/utils/normalizer.py:53-54`: `(a - b) / (c + eps)` for one array; `b` and `c` are
broadcast over batch and time. -/
noncomputable def normArr (m s : List ℝ) (a : Arr3) : Arr3 :=
  a.map fun seq => seq.map fun x =>
    (List.range x.length).map fun f => (x.getD f 0 - m.getD f 0) / (s.getD f 0 + eps)

/-- `/repo/src/ring/utils/normalizer.py:17-56` `make_normalizer_from_generator`; trees of another
structure are refused by `jax.tree_map`. -/
noncomputable def make_normalizer_from_generator {K : Type} (R : Rng K) (KEY KEY_PERMUTATION : K)
    (generator : K → List Arr3) (approx_with_large_batchsize : Nat := 512) :
    Py (List Arr3 → Py (List Arr3)) := do
  let Xs ← sample R KEY KEY_PERMUTATION generator approx_with_large_batchsize
  let means := Xs.map mean
  let stds := Xs.map std
  pure fun X => if X.length = Xs.length then
      .ok (List.zipWith (fun a bc => normArr bc.1 bc.2 a) X (means.zip stds))
    else .error .value

end RingLib.normalizer
