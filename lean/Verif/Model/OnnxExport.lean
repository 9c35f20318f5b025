import Mathlib.Data.Real.Basic
import Mathlib.Algebra.Order.Group.Abs
import Verif.Model.System

/-!
# Exported models and their validation

`save_model_tf` and `to_onnx` of `/repo/src/ring/ml/ml_utils.py`. The converters (`jax2tf`, `tf2onnx`) are parameters:
whatever they make is what is validated. `sor4onnx.rename` is taken to rename every input (output) of exactly the given
name, and `InferenceSession` to reject a model with two inputs of one name. Arrays hold numbers (no NaN).
-/

namespace RingLib
namespace ml
open System

/-- a numpy array: its shape, and its entries by index -/
structure NdArr where
  shape : List Nat
  val : List Nat → ℝ

/-- all indices of a shape -/
def indices : List Nat → List (List Nat)
  | [] => [[]]
  | n :: s => (List.range n).flatMap fun i => (indices s).map (i :: ·)

/-- the broadcast shape of two shapes (all reversed); `none`: `ValueError` -/
def bdim : List Nat → List Nat → Option (List Nat)
  | [], t => some t
  | s, [] => some s
  | x :: s, y :: t =>
    if x = y ∨ y = 1 then (bdim s t).map (x :: ·)
    else if x = 1 then (bdim s t).map (y :: ·)
    else none

/-- the entry of an array at an index of the broadcast shape -/
def NdArr.bget (a : NdArr) (idx : List Nat) : ℝ :=
  a.val (List.zipWith (fun d i => if d = 1 then 0 else i) a.shape (idx.drop (idx.length - a.shape.length)))

/-- the entries at the given indices are close, with the tolerances of
`/repo/src/ring/ml/ml_utils.py:240` and `337` -/
def Close (a b : NdArr) (is : List (List Nat)) : Prop :=
  ∀ idx ∈ is, |a.bget idx - b.bget idx| ≤ 1e-5 + 1e-5 * |b.bget idx|

/-- `np.allclose(a, b, atol=1e-5, rtol=1e-5)` -/
noncomputable def allclose (a b : NdArr) : Py Bool :=
  match bdim a.shape.reverse b.shape.reverse with
  | none => .error .value
  | some r => .ok (@decide (Close a b (indices r.reverse)) (Classical.propDecidable _))

/-- `/repo/src/ring/ml/ml_utils.py:236-243`: the validation of `save_model_tf`: the leaves of the outputs of the function
and of the loaded model. `tree_map` raises if the trees differ; a differing number of leaves stands for this. -/
noncomputable def save_model_tf_validate (output_jax output_tf : List NdArr) : Py Unit :=
  if output_jax.length ≠ output_tf.length then .error .value
  else do
    let _ ← (output_jax.zip output_tf).mapM fun x => allclose x.1 x.2
    pure ()

/-- what a function returns: a tuple of arrays or an array -/
inductive JaxOut where
  | tuple (l : List NdArr)
  | array (a : NdArr)

/-- `for o in output`: the arrays of a tuple, the rows of an array -/
def JaxOut.elements : JaxOut → Py (List NdArr)
  | .tuple l => .ok l
  | .array ⟨[], _⟩ => .error .type
  | .array ⟨n :: s, v⟩ => .ok ((List.range n).map fun i => ⟨s, fun idx => v (i :: idx)⟩)

/-- the outputs of the exported model: always a list of arrays -/
def JaxOut.leaves : JaxOut → List NdArr
  | .tuple l => l
  | .array a => [a]

/-- a stored model: names of its inputs and outputs, and what it computes -/
structure OnnxModel where
  inputs : List String
  outputs : List String
  compute : List NdArr → List NdArr

/-- `rename([old_name, new_name], None, model, None, mode)` on the names -/
def rename (old_name new_name : String) (names : List String) : List String :=
  names.map fun n => if n = old_name then new_name else n

/-- `/repo/src/ring/ml/ml_utils.py:315-316` and `321-322` the loop over the names -/
def renameAll (old_names new_names names : List String) : List String :=
  (old_names.zip new_names).foldl (fun ns x => rename x.1 x.2 ns) names

/-- `/repo/src/ring/ml/ml_utils.py:312-322` the names of the inputs or outputs after the renaming -/
def renamed (names : List String) (new : Option (List String)) : Py (List String) :=
  match new with
  | none => .ok names
  | some new => do
    pyAssert (names.length = new.length)
    pure (renameAll names new names)

/-- `for o1, o2 in zip(output_jax, output_onnx): assert np.allclose(…)`,
`/repo/src/ring/ml/ml_utils.py:336-337` -/
noncomputable def compareOutputs : List (NdArr × NdArr) → Py Unit
  | [] => .ok ()
  | x :: xs => do
    let b ← allclose x.1 x.2
    pyAssert (b = true)
    compareOutputs xs

/-- the arrays that a dict gives for the names -/
def feedArgs (feed : List (String × NdArr)) : List String → Py (List NdArr)
  | [] => .ok []
  | n :: ns => match feed.lookup n with
    | none => .error .value
    | some a => (feedArgs feed ns).map (a :: ·)

/-- `session.run(None, feed)` of an `InferenceSession` on the stored model, `/repo/src/ring/ml/ml_utils.py:330-334` -/
def OnnxModel.session_run (m : OnnxModel) (feed : List (String × NdArr)) : Py (List NdArr) :=
  if ¬ m.inputs.Nodup then .error .other
  else (feedArgs feed m.inputs).map m.compute

/-- `/repo/src/ring/ml/ml_utils.py:326-340` the validation of `to_onnx` -/
noncomputable def validateOnnx (fn : List NdArr → JaxOut) (m : OnnxModel) (args : List NdArr)
    (out_args_names : Option (List String)) : Py Unit := do
  let output_jax := fn args
  let output_onnx ← m.session_run (m.inputs.zip args)
  let os ← output_jax.elements
  compareOutputs (os.zip output_onnx)
  match out_args_names with
  | none => pure ()
  | some names => pyAssert (m.outputs = names)

/-- `/repo/src/ring/ml/ml_utils.py:246-340` `to_onnx`; `converted` is what `tf2onnx` makes of the function. The second
component is the model that the file holds afterwards. -/
noncomputable def to_onnx (fn : List NdArr → JaxOut) (converted : OnnxModel) (args : List NdArr)
    (in_args_names out_args_names : Option (List String)) (validate : Bool) : Py Unit × OnnxModel :=
  match renamed converted.inputs in_args_names with
  | .error e => (.error e, converted)
  | .ok inputs =>
    match renamed converted.outputs out_args_names with
    | .error e => (.error e, converted)
    | .ok outputs =>
      let m : OnnxModel := { converted with inputs := inputs, outputs := outputs }
      (if validate then validateOnnx fn m args out_args_names else .ok (), m)

end ml
end RingLib
