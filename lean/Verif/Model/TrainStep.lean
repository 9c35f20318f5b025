import Verif.Model.Batch
import Verif.Model.Utils
import Mathlib.Analysis.Calculus.Gradient.Basic

/-!
# The training step and the evaluation of a filter

`_build_step_fn`, `_build_eval_fn` and `_arr_to_dict` of `/repo/src/ring/ml/train.py`.

* Numbers are real numbers, parameters a vector of a real Hilbert space; `jax.value_and_grad` is the
  gradient of mathematics, `stop_gradient` has no effect on values, and gradients do not flow through the
  initial state of a chunk because it is an argument of the differentiated function.
* A batch is the list of its sequences, a sequence the list of its time steps.
* The filter, the loss and the optimizer are parameters. The filter is given whole batches and may raise.
* The array returned by `metric_fn` has the same shape for all sequences; `metric` is the mean of its
  entries.
* `tree_utils.tree_split` is `jnp.split`: it raises unless the number of sections divides the length.
* `pmap` raises if the leading axes differ; `pmean` is the mean over the devices.
* A static index beyond the end of a jax array is clamped.
-/

namespace RingLib.ml
open utils

variable {V S ξ η ψ O F : Type}

/-- `jnp.mean` of a list of numbers -/
noncomputable def meanR (l : List ℝ) : ℝ := l.sum / l.length

/-- What the training step calls. -/
structure TrainEnv (V S ξ η ψ O : Type) where
  machine : Machine
  /-- `filter.apply(params=params, state=state, X=X, y=y)` -/
  apply : V → List S → List (List ξ) → List (List η) → Py (List (List ψ) × List S)
  /-- `filter.init(B, X)[1]` -/
  init : List (List ξ) → List S
  /-- the mean of `metric_fn(q, qhat)` for one sequence -/
  metric : List η → List ψ → ℝ
  /-- `optimizer.update(grads, opt_state, params)` -/
  update : V → O → V → V × O
  tbp : Nat

/-- `loss_fn` without its gradient, `/repo/src/ring/ml/train.py:47-53` -/
noncomputable def deviceLoss (env : TrainEnv V S ξ η ψ O) (params : V) (state : List S)
    (X : List (List ξ)) (y : List (List η)) : Py (ℝ × List S) := do
  let r ← env.apply params state X y
  .ok (meanR (List.zipWith env.metric y r.1), r.2)

/-- the number that is differentiated; shapes, and so exceptions, do not depend on the parameters -/
def lossValue : Py (ℝ × List S) → ℝ
  | .ok r => r.1
  | .error _ => 0

variable [NormedAddCommGroup V] [InnerProductSpace ℝ V] [CompleteSpace V]

/-- `loss_fn` with `jax.value_and_grad(has_aux=True)`, `/repo/src/ring/ml/train.py:46-53` -/
noncomputable def valueAndGrad (env : TrainEnv V S ξ η ψ O) (params : V) (state : List S)
    (X : List (List ξ)) (y : List (List η)) : Py ((ℝ × List S) × V) := do
  let r ← deviceLoss env params state X y
  .ok (r, gradient (fun p => lossValue (deviceLoss env p state X y)) params)

/-- `pmapped_loss_fn`, `/repo/src/ring/ml/train.py:55-64`; the leading axis is that of the devices -/
noncomputable def pmappedLoss (env : TrainEnv V S ξ η ψ O) (params : V) (state : List (List S))
    (X : List (List (List ξ))) (y : List (List (List η))) : Py ((ℝ × List (List S)) × V) :=
  if state.length = X.length ∧ X.length = y.length then do
    let rs ← (state.zip (X.zip y)).mapM fun d => valueAndGrad env params d.1 d.2.1 d.2.2
    .ok ((meanR (rs.map fun r => r.1.1), rs.map fun r => r.1.2),
      (rs.length : ℝ)⁻¹ • (rs.map fun r => r.2).sum)
  else .error .value

/-- `tree_utils.tree_split((X, y), n, axis=-3)` of sequences of length `T`,
`/repo/src/ring/ml/train.py:87-89` -/
def splitTime (n T : Nat) (X : List (List (List ξ))) (y : List (List (List η))) :
    Py (List (List (List (List ξ)) × List (List (List η)))) :=
  if n = 0 then .error .zeroDivision
  else if T % n ≠ 0 then .error .value
  else .ok ((List.range n).map fun k : Nat =>
    (X.map fun d => d.map fun s => (s.drop (k * (T / n))).take (T / n),
     y.map fun d => d.map fun s => (s.drop (k * (T / n))).take (T / n)))

/-- The loop of `step_fn`, `/repo/src/ring/ml/train.py:86-93`; `loss` is the variable of that name. -/
noncomputable def stepLoop (env : TrainEnv V S ξ η ψ O) :
    List (List (List (List ξ)) × List (List (List η))) → List (List S) → V → O → Option ℝ → List V →
    Py (V × O × ℝ × List V)
  | [], _, params, opt_state, loss, debug_grads =>
    match loss with
    | none => .error .other
    | some loss => .ok (params, opt_state, loss, debug_grads)
  | (X_tbp, y_tbp) :: rest, state, params, opt_state, _, debug_grads => do
    let r ← pmappedLoss env params state X_tbp y_tbp
    let u := env.update r.2 opt_state params
    stepLoop env rest r.1.2 (params + u.1) u.2 (some r.1.1) (debug_grads ++ [r.2])

/-- `step_fn`, `/repo/src/ring/ml/train.py:72-95`; `initial_state` is the variable of the enclosing
function, returned together with the result. -/
noncomputable def step_fn (env : TrainEnv V S ξ η ψ O) (initial_state : Option (List (List S)))
    (params : V) (opt_state : O) (X : List (List ξ)) (y : List (List η)) :
    Py ((V × O × ℝ × List V) × Option (List (List S))) := do
  let B := X.length
  let T := (X.headD []).length
  let pv ← distribute_batchsize env.machine B
  let initial_state ← match initial_state with
    | none => expand_batchsize (env.init X) pv.1 pv.2
    | some s => .ok s
  let X ← expand_batchsize X pv.1 pv.2
  let y ← expand_batchsize y pv.1 pv.2
  let chunks ← splitTime (T / env.tbp) T X y
  let r ← stepLoop env chunks initial_state params opt_state none []
  .ok (r, some initial_state)

/-! ## Evaluation -/

/-- `/repo/src/ring/ml/ml_utils.py:343-344` `_unknown_link_names` -/
def _unknown_link_names (N : Nat) : List String := (List.range N).map fun i => "link" ++ toString i

/-- `/repo/src/ring/ml/train.py:246-253` `_arr_to_dict`: an array of sequences of time steps of links;
`N` is its third axis. -/
def _arr_to_dict [Inhabited F] (N : Nat) (y : List (List (List F)))
    (link_names : Option (List String)) : Dict (List (List F)) :=
  ((link_names.getD (_unknown_link_names N)).zipIdx).foldl
    (fun d x => d.set x.1 (y.map fun seq => seq.map fun row => row.getD (min x.2 (N - 1)) default)) []

/-- `pipe` of `eval_fn` for one link, `/repo/src/ring/ml/train.py:275`: `reduce_fn` of the array of the
metric over sequences and time -/
def pipe (metric_fn : F → F → ℝ) (reduce_fn : List (List ℝ) → ℝ) (q qhat : List (List F)) : ℝ :=
  reduce_fn (List.zipWith (List.zipWith metric_fn) q qhat)

/-- `pmapped_eval_fn` for one metric and one link, `/repo/src/ring/ml/train.py:280-284`: the mean over
the devices -/
noncomputable def pmappedEval (metric_fn : F → F → ℝ) (reduce_fn : List (List ℝ) → ℝ)
    (q qhat : List (List (List F))) : ℝ :=
  meanR (List.zipWith (pipe metric_fn reduce_fn) q qhat)

end RingLib.ml
