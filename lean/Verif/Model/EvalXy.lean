import Verif.Model.Callbacks
import Verif.Model.TrainStep

/-!
# Evaluation on data held out

`_build_eval_fn2` and `EvalXyTrainingLoopCallback.__init__` of `/repo/src/ring/ml/callbacks.py`.

* An array is the list of its sequences, a sequence the list of its time steps, a time step the list of
  its links. All sequences, time steps and links are of the same shape; `N` is the number of links of `y`.
* The filter is a parameter; it is given the sequences of one device and may raise.
* A metric gets the sequences of one link of the truth and of the estimate and returns a number. (That it
  does not return an array is an assertion of the code.)
* `vmap` over links raises if the estimate has another number of links.
* `metric_name not in values` cannot be false, as the names are the keys of a dictionary; the assertion is
  modelled.
-/

namespace RingLib.ml
open utils

variable {P ξ η ψ : Type}

/-- link `i` of all sequences, the index being clamped: what `vmap(…, in_axes=2)` hands to the metric -/
def linkColumn {F : Type} [Inhabited F] (i : Nat) (y : List (List (List F))) : List (List F) :=
  y.map fun seq => seq.map fun row => row.getD i default

/-- `{name: value[i] for i, name in enumerate(link_names)}`, `/repo/src/ring/ml/callbacks.py:57`; an index
beyond the end is clamped. -/
noncomputable def namedValues (link_names : List String) (value : List ℝ) : Dict (Metric ℝ) :=
  link_names.zipIdx.foldl
    (fun d x => d.set x.1 (.leaf (value.getD (min x.2 (value.length - 1)) 0))) []

/-- `jax.vmap(metric_fn, in_axes=(2, 2))(y_4d, yhat)`, `/repo/src/ring/ml/callbacks.py:55` -/
def vmapLinks [Inhabited η] [Inhabited ψ] (metric_fn : List (List η) → List (List ψ) → ℝ) (N : Nat)
    (y : List (List (List η))) (yhat : List (List (List ψ))) : Py (List ℝ) :=
  if ∀ seq ∈ yhat, ∀ row ∈ seq, row.length = N then
    .ok ((List.range N).map fun i => metric_fn (linkColumn i y) (linkColumn i yhat))
  else .error .value

/-- one pass of the loop over the metrics, `/repo/src/ring/ml/callbacks.py:51-58` -/
noncomputable def metricStep [Inhabited η] [Inhabited ψ] (N : Nat) (link_names : List String)
    (y : List (List (List η))) (yhat : List (List (List ψ))) (values : Dict (Metric ℝ))
    (metric : String × (List (List η) → List (List ψ) → ℝ)) : Py (Dict (Metric ℝ)) := do
  pyAssert (metric.1 ∉ values.keys)
  let value ← vmapLinks metric.2 N y yhat
  pure (values.set metric.1 (.node (namedValues link_names value)))

/-- `eval_fn`, `/repo/src/ring/ml/callbacks.py:46-59`; the first axis of `X` and `y` is that of the
devices. -/
noncomputable def evalFn2 [Inhabited η] [Inhabited ψ]
    (apply : P → List (List (List ξ)) → List (List (List η)) → Py (List (List (List ψ))))
    (eval_metrices : List (String × (List (List η) → List (List ψ) → ℝ)))
    (X : List (List (List (List ξ)))) (y : List (List (List (List η)))) (y_4d : List (List (List η)))
    (p v N : Nat) (link_names : List String) (params : P) : Py (Metric ℝ) := do
  let yhat ← (X.zip y).mapM fun d => apply params d.1 d.2
  let yhat ← merge_batchsize yhat p v
  let values ← eval_metrices.foldlM (metricStep N link_names y_4d yhat) []
  pure (.node values)

/-- `/repo/src/ring/ml/callbacks.py:26-61` `_build_eval_fn2`: what the returned function returns -/
noncomputable def _build_eval_fn2 [Inhabited η] [Inhabited ψ]
    (apply : P → List (List (List ξ)) → List (List (List η)) → Py (List (List (List ψ))))
    (eval_metrices : List (String × (List (List η) → List (List ψ) → ℝ)))
    (X : List (List (List (List ξ)))) (y : List (List (List (List η)))) (p v N : Nat)
    (link_names : Option (List String)) : Py (P → Py (Metric ℝ)) := do
  let y_4d ← merge_batchsize y p v
  pure (evalFn2 apply eval_metrices X y y_4d p v N (link_names.getD (_unknown_link_names N)))

/-- `/repo/src/ring/ml/callbacks.py:65-93` `EvalXyTrainingLoopCallback.__init__` for batched arrays -/
noncomputable def evalXyInit [Inhabited η] [Inhabited ψ] (M : Machine)
    (apply : P → List (List (List ξ)) → List (List (List η)) → Py (List (List (List ψ))))
    (eval_metrices : List (String × (List (List η) → List (List ψ) → ℝ)))
    (X : List (List (List ξ))) (y : List (List (List η))) (N : Nat)
    (link_names : Option (List String)) : Py (P → Py (Metric ℝ)) := do
  let pv ← distribute_batchsize M X.length
  let X ← expand_batchsize X pv.1 pv.2
  let y ← expand_batchsize y pv.1 pv.2
  _build_eval_fn2 apply eval_metrices X y pv.1 pv.2 N link_names

/-- the same for arrays that are not batched, `/repo/src/ring/ml/callbacks.py:80-81` -/
noncomputable def evalXyInit3 [Inhabited η] [Inhabited ψ] (M : Machine)
    (apply : P → List (List (List ξ)) → List (List (List η)) → Py (List (List (List ψ))))
    (eval_metrices : List (String × (List (List η) → List (List ψ) → ℝ)))
    (X : List (List ξ)) (y : List (List η)) (N : Nat)
    (link_names : Option (List String)) : Py (P → Py (Metric ℝ)) :=
  evalXyInit M apply eval_metrices [X] [y] N link_names

end RingLib.ml
