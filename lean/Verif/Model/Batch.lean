import Verif.Model.Py
import Verif.Model.Random

/-!
# Sizes and batches

`/repo/src/ring/utils/batchsize.py`, `primes` and `gcd` of `/repo/src/ring/utils/utils.py`,
`/repo/src/ring/algorithms/generator/batch.py` and the size arithmetic of `RCMG` in
`/repo/src/ring/algorithms/generator/base.py`.

* Sizes are natural numbers; a negative size is rejected by the first assertion it meets and is not
  represented.
* `int(a / b)` is exact division rounded down.
* A tree of arrays with a common leading axis is the list of its entries along that axis (one list
  for all leaves, since `tree_map` treats every leaf alike).
* jit, vmap and pmap only change how, not what, is computed.
-/

namespace RingLib
namespace utils

/-! ## primes and gcd -/

/-- The inner loop of `primes`, `/repo/src/ring/utils/utils.py:173-175`; `none` if the fuel runs
out. -/
def primesInner : Nat → Nat → Nat → List Nat → Option (Nat × List Nat)
  | 0, _, _, _ => none
  | fuel + 1, d, n, primfac =>
    if n % d = 0 then primesInner fuel d (n / d) (primfac ++ [d]) else some (n, primfac)

/-- The outer loop of `primes` and what follows it, `/repo/src/ring/utils/utils.py:172-179`. -/
def primesOuter : Nat → Nat → Nat → List Nat → Option (List Nat)
  | 0, _, _, _ => none
  | fuel + 1, d, n, primfac =>
    if d * d ≤ n then
      match primesInner fuel d n primfac with
      | none => none
      | some (n, primfac) => primesOuter fuel (d + 1) n primfac
    else some (if n > 1 then primfac ++ [n] else primfac)

/-- `/repo/src/ring/utils/utils.py:168-179` `primes`; that the fuel suffices is
`primesOuter_isSome`. -/
def primes (n : Nat) : List Nat := (primesOuter (2 * n + 2) 2 n []).getD []

/-- `/repo/src/ring/utils/utils.py:182-185` `gcd` -/
def gcd (a b : Nat) : Nat :=
  if h : b = 0 then a else gcd b (a % b)
termination_by b
decreasing_by exact Nat.mod_lt _ (Nat.pos_of_ne_zero h)

/-! ## batchsize.py -/

/-- the machine: number of local devices and the two values of `batchsize_thresholds` -/
structure Machine where
  n_devices : Nat
  vmap_size_min : Nat
  eager_threshold : Nat

/-- `/repo/src/ring/utils/batchsize.py:7-19` `batchsize_thresholds` -/
def batchsize_thresholds (backend : String) : Py (Nat × Nat) :=
  if backend = "cpu" then .ok (1, 4)
  else if backend = "gpu" then .ok (8, 32)
  else .error .other

/-- `/repo/src/ring/utils/batchsize.py:22-35` `distribute_batchsize` -/
def distribute_batchsize (M : Machine) (batchsize : Nat) : Py (Nat × Nat) := do
  if batchsize ≤ M.vmap_size_min then return (1, batchsize)
  else
    pyAssert (batchsize % M.n_devices = 0)
    let vmap_size := batchsize / M.n_devices
    if vmap_size = 0 then .error .zeroDivision
    else return (batchsize / vmap_size, vmap_size)

/-- `arr.reshape((a, b))` of an array of shape `(n,)`, shapes after the first axis being kept -/
def reshape2 {β : Type} (arr : List β) (a b : Nat) : Py (List (List β)) :=
  if arr.length = a * b then
    .ok ((List.range a).map fun i : Nat => (arr.drop (i * b)).take b)
  else .error .type

/-- `/repo/src/ring/utils/batchsize.py:53-63` `expand_batchsize` -/
def expand_batchsize {β : Type} (tree : List β) (pmap_size vmap_size : Nat) :
    Py (List (List β)) := reshape2 tree pmap_size vmap_size

/-- `/repo/src/ring/utils/batchsize.py:38-50` `merge_batchsize`, without `third_dim_also` -/
def merge_batchsize {β : Type} (tree : List (List β)) (pmap_size vmap_size : Nat) : Py (List β) :=
  if tree.flatten.length = pmap_size * vmap_size then .ok tree.flatten else .error .type

/-- `/repo/src/ring/utils/batchsize.py:38-50` `merge_batchsize` with `third_dim_also`; `dim2` is
`arr.shape[2]`. -/
def merge_batchsize3 {β : Type} (tree : List (List (List β))) (pmap_size vmap_size dim2 : Nat) :
    Py (List β) :=
  if tree.flatten.flatten.length = pmap_size * vmap_size * dim2 then .ok tree.flatten.flatten
  else .error .type

end utils

namespace generator
open utils

/-! ## batch.py -/

/-- `/repo/src/ring/algorithms/generator/batch.py:13-17` `_build_batch_matrix` -/
def _build_batch_matrix (batchsizes : List Nat) : List Nat :=
  batchsizes.zipIdx.foldl (fun arr il => arr ++ List.replicate il.1 il.2) []

/-- A batched generator: the static length of the leading axis of what it returns, and what it
returns for a key. -/
structure BatchedGen (K β : Type) where
  size : Nat
  run : K → Py (List β)

/-- `jax.lax.switch(which_gen, generators, key)` -/
def switch {K β : Type} (generators : List (BatchedGen K β)) (which_gen : Nat) (key : K) :
    Py (List β) :=
  match generators[min which_gen (generators.length - 1)]? with
  | some g => g.run key
  | none => .error .value

/-- one row of `_generator(pmap_vmap_keys, batch_arr)`,
`/repo/src/ring/algorithms/generator/batch.py:39-42` -/
def switchRow {K β : Type} (generators : List (BatchedGen K β)) (row : List K × List Nat) :
    Py (List (List β)) :=
  (row.1.zip row.2).mapM fun x => switch generators x.2 x.1

/-- The generator returned by `generators_lazy`,
`/repo/src/ring/algorithms/generator/batch.py:44-50`. -/
def lazyRun {K β : Type} (split : K → Nat → Nat → K) (generators : List (BatchedGen K β))
    (batch_arr : List (List Nat)) (bs_total pmap vmap dim2 : Nat) (key : K) : Py (List β) := do
  let pmap_vmap_keys ← reshape2 ((List.range bs_total).map fun i : Nat => split key bs_total i)
    pmap vmap
  let data ← (pmap_vmap_keys.zip batch_arr).mapM (switchRow generators)
  merge_batchsize3 data pmap vmap dim2

/-- `/repo/src/ring/algorithms/generator/batch.py:20-52` `generators_lazy`. `switch` needs at least
one branch and branches of equal shape; an empty batch array has no integer dtype. -/
def generators_lazy {K β : Type} (M : Machine) (split : K → Nat → Nat → K)
    (generators : List (BatchedGen K β)) (repeats : List Nat) : Py (BatchedGen K β) := do
  let batch_arr := _build_batch_matrix repeats
  let bs_total := batch_arr.length
  let pv ← distribute_batchsize M bs_total
  let batch_arr2 ← reshape2 batch_arr pv.1 pv.2
  match generators with
  | [] => .error .value
  | g :: gs =>
    if bs_total = 0 ∨ ¬ gs.all (·.size = g.size) then .error .type
    else pure ⟨bs_total * g.size, lazyRun split (g :: gs) batch_arr2 bs_total pv.1 pv.2 g.size⟩

/-- One generator of the loop of `generators_eager`,
`/repo/src/ring/algorithms/generator/batch.py:70-86`; the state is the key and the samples handed to
the callback so far, one list per call. -/
def eagerCalls {K β : Type} (split : K → Nat → Nat → K) (gen : BatchedGen K β) :
    Nat → K × List (List β) → Py (K × List (List β))
  | 0, st => pure st
  | n + 1, st => do
    let sample ← gen.run (split st.1 2 1)
    eagerCalls split gen n (split st.1 2 0, st.2 ++ [sample])

/-- `/repo/src/ring/algorithms/generator/batch.py:55-86` `generators_eager`; `key` is
`PRNGKey(seed)`. Returns the lists the callback is called with, in order. -/
def generators_eager {K β : Type} (split : K → Nat → Nat → K) (generators : List (BatchedGen K β))
    (n_calls : List Nat) (key : K) : Py (List (List β)) := do
  let r ← (generators.zip n_calls).foldlM (fun st x => eagerCalls split x.1 x.2 st) (key, [])
  pure r.2

/-! ## RCMG -/

/-- `sizes: int | list[int]` -/
inductive Sizes
  | int (size : Nat)
  | list (sizes : List Nat)

/-- `/repo/src/ring/algorithms/generator/base.py:103-132` `RCMG._compute_repeats` of an instance with
`n_gens` generators and `n_mconfigs` motion configurations -/
def _compute_repeats (n_mconfigs n_gens : Nat) (sizes : Sizes) : Py (List Nat) := do
  let size_of_generators := List.replicate n_gens n_mconfigs
  let S := size_of_generators.sum
  let L := size_of_generators.length
  match sizes with
  | .int size =>
    if S = 0 then .error .zeroDivision
    else
      pyAssert (size / S > 0)
      pyAssert (size % S = 0)
      pure (List.replicate L (size / S))
  | .list sizes =>
    sizes.forM fun size => pyAssert (n_mconfigs ∈ primes size)
    pyAssert (sizes.length = n_gens)
    let repeats := List.zipWith (· / ·) sizes size_of_generators
    pyAssert (0 ∉ repeats)
    pure repeats

/-- The loop of `RCMG._number_of_executions_required`,
`/repo/src/ring/algorithms/generator/base.py:146-149`; running out of primes is `StopIteration`. -/
def executionsLoop (eager_threshold : Nat) : List Nat → Nat → ℚ → Py Nat
  | [], n_calls, vmap => if vmap > eager_threshold then .error .other else .ok n_calls
  | prime :: primes, n_calls, vmap =>
    if vmap > eager_threshold then
      executionsLoop eager_threshold primes (n_calls * prime) (vmap / prime)
    else .ok n_calls

/-- `/repo/src/ring/algorithms/generator/base.py:140-151` `RCMG._number_of_executions_required` -/
def _number_of_executions_required (M : Machine) (size : Nat) : Py Nat := do
  let pv ← distribute_batchsize M size
  executionsLoop M.eager_threshold (primes pv.2) 1 pv.2

/-- One pass of the loop of `RCMG._generators_ncalls`,
`/repo/src/ring/algorithms/generator/base.py:160-164`: number of calls and reduced repeat. -/
def ncall (M : Machine) (n_mconfigs repeat_ : Nat) : Py (Nat × Nat) := do
  let n_call ← _number_of_executions_required M (repeat_ * n_mconfigs)
  let g := utils.gcd n_call repeat_
  if g = 0 then .error .zeroDivision else pure (g, repeat_ / g)

/-- `/repo/src/ring/algorithms/generator/base.py:153-173` `RCMG._generators_ncalls` -/
def _generators_ncalls {K β : Type} (M : Machine) (split : K → Nat → Nat → K)
    (gens : List (BatchedGen K β)) (n_mconfigs : Nat) (sizes : Sizes) :
    Py (List (BatchedGen K β) × List Nat) := do
  let repeats ← _compute_repeats n_mconfigs gens.length sizes
  let rs ← repeats.mapM (ncall M n_mconfigs)
  let gens ← (gens.zip rs).mapM fun x => generators_lazy M split [x.1] [x.2.2]
  pure (gens, rs.map (·.1))

/-- `/repo/src/ring/algorithms/generator/base.py:134-137` `RCMG.to_lazy_gen` -/
def to_lazy_gen {K β : Type} (M : Machine) (split : K → Nat → Nat → K)
    (gens : List (BatchedGen K β)) (n_mconfigs : Nat) (sizes : Sizes) : Py (BatchedGen K β) := do
  let repeats ← _compute_repeats n_mconfigs gens.length sizes
  generators_lazy M split gens repeats

/-- `/repo/src/ring/algorithms/generator/base.py:175-185` `RCMG.to_list` -/
def to_list {K β : Type} (M : Machine) (split : K → Nat → Nat → K)
    (gens : List (BatchedGen K β)) (n_mconfigs : Nat) (sizes : Sizes) (key : K) : Py (List β) := do
  let r ← _generators_ncalls M split gens n_mconfigs sizes
  let calls ← generators_eager split r.1 r.2 key
  pure calls.flatten

/-! ## eager generators -/

/-- the state captured by the generator of `eager_gen_from_list`: `data`, `i`, and how often `data`
was shuffled -/
structure EagerState (β : Type) where
  data : List β
  i : Nat
  shuffles : Nat

/-- `/repo/src/ring/algorithms/generator/base.py:247-259`, one call of the generator made by
`eager_gen_from_list`. `shuf k` is what the `k`-th `random.shuffle` does. `tree_batch` of an empty
list raises. The returned batch is the list of its rows; `transform` is applied by the caller of the
model. -/
def eagerStep {β : Type} (shuf : Nat → List β → List β) (shuffle : Bool) (batchsize n_batches : Nat)
    (st : EagerState β) : Py (List β × EagerState β) :=
  let st := if shuffle = true ∧ st.i = 0 then
    { st with data := shuf st.shuffles st.data, shuffles := st.shuffles + 1 } else st
  let start := st.i * batchsize
  let stop := (st.i + 1) * batchsize
  let batch := (st.data.take stop).drop start
  if batch = [] then .error .index
  else if n_batches = 0 then .error .zeroDivision
  else .ok (batch, { st with i := (st.i + 1) % n_batches })

/-- `/repo/src/ring/algorithms/generator/base.py:238-245`: the state with which
`eager_gen_from_list` starts, and the number of batches -/
def eager_gen_from_list {β : Type} (data : List β) (batchsize : Nat) : Py (EagerState β × Nat) :=
  if batchsize = 0 then .error .zeroDivision else .ok (⟨data, 0, 0⟩, data.length / batchsize)

/-- the first `n` batches handed out -/
def eagerRun {β : Type} (shuf : Nat → List β → List β) (shuffle : Bool) (batchsize n_batches : Nat) :
    Nat → EagerState β → Py (List (List β) × EagerState β)
  | 0, st => .ok ([], st)
  | n + 1, st => do
    let r ← eagerStep shuf shuffle batchsize n_batches st
    let rs ← eagerRun shuf shuffle batchsize n_batches n r.2
    pure (r.1 :: rs.1, rs.2)

end generator
end RingLib
