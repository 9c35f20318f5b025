import Mathlib.Analysis.SpecialFunctions.Exp
import Mathlib.Analysis.SpecialFunctions.Trigonometric.DerivHyp
import Verif.Model.Ringnet
import Verif.Model.Files

/-!
# Recurrent cells and the network RNNO

The class `LSTM` and `RING._load_params` of `/repo/src/ring/ml/ringnet.py`, and `/repo/src/ring/ml/rnno_v1.py`.

* `hk.Linear` and `hk.GRU` are arbitrary functions; the theorems hold for all of them, hence for all weights.
  `hk.Linear(n)` returns `n` numbers.
* The cell gets vectors (rank 1), as in the networks of the library; states have the right length.
-/

namespace RingLib.ml
open Real

/-- `jax.nn.sigmoid` -/
noncomputable def sigmoid (x : ℝ) : ℝ := 1 / (1 + exp (-x))

/-- `/repo/src/ring/ml/ringnet.py:181-196` `LSTM.__call__` -/
noncomputable def LSTM (hidden_size : Nat) (linear : List ℝ → List ℝ) (inputs prev_state : List ℝ) :
    List ℝ × List ℝ :=
  let prev_state_h := prev_state.take hidden_size
  let prev_state_c := prev_state.drop hidden_size
  let x_and_h := inputs ++ prev_state_h
  let gated := linear x_and_h
  let i := gated.take hidden_size
  let g := (gated.drop hidden_size).take hidden_size
  let f := (gated.drop (2 * hidden_size)).take hidden_size
  let o := (gated.drop (3 * hidden_size)).take hidden_size
  let f := f.map fun x => sigmoid (x + 1)
  let c := List.zipWith (· + ·) (List.zipWith (· * ·) f prev_state_c)
    (List.zipWith (· * ·) (i.map sigmoid) (g.map tanh))
  let h := List.zipWith (· * ·) (o.map sigmoid) (c.map tanh)
  (h, h ++ c)

/-- `celltype`, `/repo/src/ring/ml/rnno_v1.py:23-30`: the kind of the cell and the factor between the number of units
and the size of the state -/
def cellFactor (celltype : String) : Py Nat :=
  if celltype = "gru" then .ok 1
  else if celltype = "lstm" then .ok 2
  else .error .notImplemented

/-- The functions inside the network: the cells, the layer norm (the identity without it) and the activation
after a cell, the linear layers and their activation, the last linear layer.  `V`: vectors, `Y`: outputs. -/
structure RnnoWeights (V Y : Type) where
  /-- `_cell(n_units)`, `/repo/src/ring/ml/rnno_v1.py:40` -/
  cells : List (V → V → V × V)
  /-- `/repo/src/ring/ml/rnno_v1.py:43-44` -/
  layernorm : V → V
  /-- `/repo/src/ring/ml/rnno_v1.py:45` -/
  act_fn_rnn : V → V
  /-- `hk.Linear(n_units)`, `/repo/src/ring/ml/rnno_v1.py:48` -/
  linear : List (V → V)
  /-- `/repo/src/ring/ml/rnno_v1.py:49` -/
  act_fn_linear : V → V
  /-- `hk.Linear(output_dim)`, `/repo/src/ring/ml/rnno_v1.py:51` -/
  out : V → Y

variable {V Y : Type}

/-- `hk.dynamic_unroll` of a cell over a sequence -/
def unrollCell (cell : V → V → V × V) : List V → V → List V × V
  | [], state => ([], state)
  | x :: xs, state =>
    let r := cell x state
    let rest := unrollCell cell xs r.2
    (r.1 :: rest.1, rest.2)

/-- The loop over the recurrent layers, `/repo/src/ring/ml/rnno_v1.py:38-45`; layer `i` has the state `rnn_i`. -/
def rnnLayers (w : RnnoWeights V Y) : List (V → V → V × V) → List V → List V → List V × List V
  | cell :: cells, X, s :: ss =>
    let r := unrollCell cell X s
    let rest := rnnLayers w cells (r.1.map fun x => w.act_fn_rnn (w.layernorm x)) ss
    (rest.1, r.2 :: rest.2)
  | _, X, _ => (X, [])

/-- The loop over the linear layers, `/repo/src/ring/ml/rnno_v1.py:47-49`. -/
def linearLayers (w : RnnoWeights V Y) (X : List V) : List V :=
  w.linear.foldl (fun X lin => X.map fun x => w.act_fn_linear (lin x)) X

/-- `assert X.shape[-2] == 1; X = X[..., 0, :]`, `/repo/src/ring/ml/rnno_v1.py:35-36` -/
def oneBody (X : List (List V)) : Py (List V) :=
  X.mapM fun
    | [x] => .ok x
    | _ => .error .assertion

/-- `/repo/src/ring/ml/rnno_v1.py:32-52` `forward_fn`: from features of all times and states to outputs of all times
and the next states. -/
def rnno_v1_forward (w : RnnoWeights V Y) (X : List (List V)) (state : List V) :
    Py (List (List Y) × List V) := do
  let X ← oneBody X
  let r := rnnLayers w w.cells X state
  let X := linearLayers w r.1
  .ok (X.map fun x => [w.out x], r.2)

/-- What `params` may be in `RING(params=…)`; `dict`: parameters. -/
inductive ParamsArg (P : Type) where
  | path (p : FPath)
  | dict (d : P)
  | none
  | other

/-- `/repo/src/ring/ml/ringnet.py:276-280` `RING._load_params` -/
def _load_params {P : Type} (fs : FS P) : ParamsArg P → Py (Option P)
  | .path p => (utils.pickle_load fs p).1.map some
  | .dict d => .ok (some d)
  | .none => .ok none
  | .other => .error .assertion

end RingLib.ml
