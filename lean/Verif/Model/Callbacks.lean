import Verif.Model.Utils
import Mathlib.Algebra.Order.Field.Basic

/-!
# Callbacks of the training loop that store parameters and metrics

`/repo/src/ring/ml/callbacks.py` and `_flatten_dict` of `/repo/src/ring/ml/ml_utils.py`.

* Values are exact numbers of an ordered field.  Where `NaN` and infinities matter they are the
  extra elements of `Fl`.
* The value of a stored parameter set is a number, never `NaN` (python's sort is unspecified when a
  `NaN` takes part).
* Loggers, warnings, printing and the upload of files are not modelled.
-/

namespace RingLib

/-- A floating point number: an exact number, an infinity or `NaN` (rounding and overflow are not
modelled). -/
inductive Fl (R : Type) where
  | fin (x : R)
  | posInf
  | negInf
  | nan
deriving DecidableEq

namespace Fl
variable {R : Type}

/-- `np.isnan(x) or np.isinf(x)` -/
def notFinite : Fl R → Bool
  | fin _ => false
  | _ => true

/-- `np.isnan(x)` -/
def isNan : Fl R → Bool
  | nan => true
  | _ => false

/-- `x ** 2` -/
def sq [Mul R] : Fl R → Fl R
  | fin x => fin (x * x)
  | posInf => posInf
  | negInf => posInf
  | nan => nan

/-- `x + y` -/
def add [Add R] : Fl R → Fl R → Fl R
  | fin x, fin y => fin (x + y)
  | nan, _ => nan
  | _, nan => nan
  | posInf, negInf => nan
  | negInf, posInf => nan
  | posInf, _ => posInf
  | _, posInf => posInf
  | negInf, _ => negInf
  | _, negInf => negInf

/-- `jnp.sum` -/
def sum [Add R] [Zero R] (l : List (Fl R)) : Fl R := l.foldl add (fin 0)

/-- `x < y`; comparisons with `NaN` are false -/
def lt [LT R] [DecidableLT R] : Fl R → Fl R → Bool
  | fin x, fin y => decide (x < y)
  | fin _, posInf => true
  | negInf, fin _ => true
  | negInf, posInf => true
  | _, _ => false

end Fl

namespace ml

/-! ## The queue of parameter sets -/

/-- `/repo/src/ring/ml/callbacks.py:153-156` `QueueElement`. -/
structure QueueElement (R P : Type) where
  value : R
  params : P
  episode : Nat

variable {R P : Type}

/-- `self._storage.sort(key=lambda ele: ele.value)`, a stable sort,
`/repo/src/ring/ml/callbacks.py:176-177`. -/
def Queue.sort [LinearOrder R] (l : List (QueueElement R P)) : List (QueueElement R P) :=
  l.mergeSort fun a b => decide (a.value ≤ b.value)

/-- `/repo/src/ring/ml/callbacks.py:167-177` `Queue.insert`; the queue is its storage. -/
def Queue.insert [LinearOrder R] (maxlen : Nat) (storage : List (QueueElement R P))
    (ele : QueueElement R P) : Py (List (QueueElement R P)) :=
  if storage.length < maxlen then .ok (Queue.sort (storage ++ [ele]))
  else match storage.getLast? with
    | none => .error .index
    | some last =>
      if ele.value < last.value then .ok (Queue.sort (storage.dropLast ++ [ele]))
      else .ok storage

/-! ## Metrics -/

/-- An arbitrarily nested dictionary of numbers (`NestedDict`,
`/repo/src/ring/ml/ml_utils.py:18-19`). -/
inductive Metric (β : Type) where
  | leaf (x : β)
  | node (d : List (String × Metric β))

/-- `/repo/src/ring/ml/callbacks.py:183-187` `_zoom_into_metrices`: indexing a number and
converting a dictionary to a number raise `TypeError`. -/
def _zoom_into_metrices {β : Type} : Metric β → List String → Py β
  | .leaf x, [] => .ok x
  | .node _, [] => .error .type
  | .leaf _, _ :: _ => .error .type
  | .node d, key :: rest =>
    match d.lookup key with
    | none => .error .key
    | some m => _zoom_into_metrices m rest

/-! ## Saving parameters -/

/-- The attributes of `SaveParamsTrainingLoopCallback` that decide what is stored,
`/repo/src/ring/ml/callbacks.py:191-207`. -/
structure SaveParams (R P : Type) where
  last_n_params : Nat
  track_metrices : Option (List (List String))
  eval_every : Nat
  queue : List (QueueElement R P)
  value : R

/-- `/repo/src/ring/ml/callbacks.py:191-207` `SaveParamsTrainingLoopCallback.__init__`. -/
def SaveParams.init [Zero R] (last_n_params : Nat := 1)
    (track_metrices : Option (List (List String)) := none) (eval_every : Nat := 5) :
    SaveParams R P :=
  ⟨last_n_params, track_metrices, eval_every, [], 0⟩

/-- The mean of the tracked metrics, `/repo/src/ring/ml/callbacks.py:224-229`. -/
def meanTracked [Field R] (metrices : Metric R) (track : List (List String)) : Py R := do
  let xs ← track.mapM (_zoom_into_metrices metrices)
  if xs.length = 0 then .error .zeroDivision else .ok (xs.foldl (· + ·) 0 / (xs.length : R))

/-- The value given to the parameters of an episode if metrics are tracked,
`/repo/src/ring/ml/callbacks.py:223-233`. -/
def trackedValue [Field R] (eval_every : Nat) (i_episode : Nat) (metrices : Metric R)
    (track : List (List String)) : Py R :=
  if eval_every = 0 then .error .zeroDivision
  else if i_episode % eval_every = 0 then meanTracked metrices track
  else .ok (10 ^ 16)

/-- `/repo/src/ring/ml/callbacks.py:209-238`
`SaveParamsTrainingLoopCallback.after_training_step`. -/
def SaveParams.after_training_step [Field R] [LinearOrder R] (c : SaveParams R P)
    (i_episode : Nat) (metrices : Metric R) (params : P) : Py (SaveParams R P) :=
  match c.track_metrices with
  | none => do
    let q ← Queue.insert c.last_n_params c.queue ⟨c.value - 1, params, i_episode⟩
    .ok { c with queue := q, value := c.value - 1 }
  | some track => do
    let value ← trackedValue c.eval_every i_episode metrices track
    let q ← Queue.insert c.last_n_params c.queue ⟨value, params, i_episode⟩
    .ok { c with queue := q }

/-- The callback called for a number of consecutive episodes. -/
def SaveParams.run [Field R] [LinearOrder R] (c : SaveParams R P) (i : Nat) :
    List (Metric R × P) → Py (SaveParams R P)
  | [] => .ok c
  | x :: rest => do
    let c ← c.after_training_step i x.1 x.2
    SaveParams.run c (i + 1) rest

/-! ## Averaging and evaluating metrics -/

/-- The loop of `AverageMetricesTLCB`, `/repo/src/ring/ml/callbacks.py:133-147`, with the running
sum and the running number. -/
def averageLoop [Add R] (metrices : Metric (Fl R)) :
    List (List String) → R → Nat → Py (R × Nat)
  | [], value, N => .ok (value, N)
  | zoom_in :: rest, value, N =>
    match _zoom_into_metrices metrices zoom_in with
    | .error e => .error e
    | .ok (.fin x) => averageLoop metrices rest (value + x) (N + 1)
    | .ok _ => averageLoop metrices rest value N

/-- `/repo/src/ring/ml/callbacks.py:123-150` `AverageMetricesTLCB.after_training_step`: the
metrics of the episode afterwards. -/
def averageMetrices [Field R] (zoom_ins : List (List String)) (name : String)
    (d : Dict (Metric (Fl R))) : Py (Dict (Metric (Fl R))) := do
  let r ← averageLoop (.node d) zoom_ins 0 0
  if 0 < r.2 then .ok (d.set name (.leaf (.fin (r.1 / (r.2 : R))))) else .ok d

/-- `/repo/src/ring/ml/callbacks.py:95-115` `EvalXyTrainingLoopCallback.after_training_step`;
`last_metrices` is missing until the first evaluation.  `eval_every` is `none` for `-1`. -/
def evalXy {β : Type} (eval_fn : P → Metric β) (metric_identifier : String)
    (eval_every : Option Nat) (last_metrices : Option (Metric β)) (i_episode : Nat)
    (d : Dict (Metric β)) (params : P) : Py (Option (Metric β) × Dict (Metric β)) :=
  match eval_every with
  | none => .ok (last_metrices, d)
  | some 0 => .error .zeroDivision
  | some (k + 1) => do
    let last := if i_episode % (k + 1) = 0 then some (eval_fn params) else last_metrices
    pyAssert (metric_identifier ∉ d.keys)
    match last with
    | none => .error .attribute
    | some m => .ok (some m, d.set metric_identifier m)

/-- The callback called for consecutive episodes: the metrics afterwards. -/
def evalXyRun {β : Type} (eval_fn : P → Metric β) (metric_identifier : String)
    (eval_every : Option Nat) : Option (Metric β) → Nat → List (Dict (Metric β) × P) →
    Py (List (Dict (Metric β)))
  | _, _, [] => .ok []
  | last, i, x :: rest => do
    let r ← evalXy eval_fn metric_identifier eval_every last i x.1 x.2
    let ds ← evalXyRun eval_fn metric_identifier eval_every r.1 (i + 1) rest
    .ok (r.2 :: ds)

/-! ## Flattening -/

mutual
/-- The items collected by `_flatten_dict`, `/repo/src/ring/ml/ml_utils.py:179-188`; the result of
the recursive call is a dictionary, so that later items replace earlier ones of the same name. -/
def flattenItems {β : Type} (sep : String) : List (String × Metric β) → String → List (String × β)
  | [], _ => []
  | x :: rest, parent_key => flattenItem sep x parent_key ++ flattenItems sep rest parent_key

/-- One pass of the loop of `_flatten_dict`, `/repo/src/ring/ml/ml_utils.py:181-187`. -/
def flattenItem {β : Type} (sep : String) : String × Metric β → String → List (String × β)
  | (k, .leaf v), parent_key => [(if parent_key ≠ "" then parent_key ++ sep ++ k else k, v)]
  | (k, .node d), parent_key =>
    Dict.update [] (flattenItems sep d (if parent_key ≠ "" then parent_key ++ sep ++ k else k))
end

/-- `/repo/src/ring/ml/ml_utils.py:179-188` `_flatten_dict`. -/
def _flatten_dict {β : Type} (d : Dict (Metric β)) (parent_key : String := "")
    (sep : String := "_") : Dict β :=
  Dict.update [] (flattenItems sep d parent_key)

/-- `/repo/src/ring/ml/ml_utils.py:160-176` `_flatten_convert_filter_nested_dict`; metrics that are
strings are not modelled. -/
def _flatten_convert_filter_nested_dict (metrices : Dict (Metric (Fl R)))
    (filter_nan_inf : Bool := true) : Dict (Fl R) :=
  if filter_nan_inf then (_flatten_dict metrices).filter fun x => x.2.notFinite = false
  else _flatten_dict metrices

end ml
end RingLib
