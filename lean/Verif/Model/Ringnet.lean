import Verif.Model.Py
import Mathlib.Algebra.BigOperators.Group.List.Basic

/-!
# The RING network

`/repo/src/ring/ml/ringnet.py`.

* The networks inside (message, recurrent cells, layer norm, output, output transform) are arbitrary
  functions, collected in `RingWeights`; the theorems hold for all of them, hence for all weights.
* An array with leading axis "body" is the list of its rows.
* Messages are elements of a commutative additive monoid (vectors of numbers).
-/

namespace RingLib.ml

/-- The functions inside the network.  `X`: features of a body, `M`: messages, `V`: vectors inside
the recurrent cells, `Y`: outputs. -/
structure RingWeights (X M V Y : Type) where
  /-- `send_msg`, `/repo/src/ring/ml/ringnet.py:103-105` -/
  send_msg : V → M
  /-- `[:hidden_state_dim]`, `/repo/src/ring/ml/ringnet.py:41` -/
  hidden : V → V
  /-- `tree_utils.batch_concat_acme((local_input, msg[p], mailbox[i]))`,
  `/repo/src/ring/ml/ringnet.py:60-63` -/
  concat : X → M → M → V
  /-- `self.cells`, `/repo/src/ring/ml/ringnet.py:157`; every cell maps input and state to output
  and next state -/
  cells : List (V → V → V × V)
  /-- the layer norm after the `i`-th cell (the identity without layer norm),
  `/repo/src/ring/ml/ringnet.py:168-171` -/
  layernorm : Nat → V → V
  /-- `send_output`, `/repo/src/ring/ml/ringnet.py:114` -/
  send_output : V → Y
  /-- `output_transform`, `/repo/src/ring/ml/ringnet.py:93-98` -/
  output_transform : Y → Y

variable {X M V Y : Type}

/-- The loop of `StackedRNNCell.__call__`, `/repo/src/ring/ml/ringnet.py:161-173`; cell `i` gets the
`i`-th row of the state.  A missing row cannot occur for states of the right shape and ends the
loop. -/
def stackedLoop (w : RingWeights X M V Y) : Nat → List (V → V → V × V) → V → List V → V × List V
  | i, c :: cs, output, s :: ss =>
    let r := c output s
    let rest := stackedLoop w (i + 1) cs (w.layernorm i r.1) ss
    (rest.1, r.2 :: rest.2)
  | _, _, output, _ => (output, [])

/-- `/repo/src/ring/ml/ringnet.py:161-173` `StackedRNNCell.__call__`. -/
def inner_cell (w : RingWeights X M V Y) (x : V) (state : List V) : V × List V :=
  stackedLoop w 0 w.cells x state

/-- `msg[p]` for a python integer: negative numbers count from the end, `jax` clamps what is out of
range. -/
def jnpGet [Zero M] (l : List M) (p : Int) : M :=
  let j := if p < 0 then p + l.length else p
  (l[min j.toNat (l.length - 1)]?).getD 0

/-- The message a body sends, computed from the state of its last cell,
`/repo/src/ring/ml/ringnet.py:39-45`; the state of a network without cells is empty. -/
def message [Zero M] (w : RingWeights X M V Y) (state : List V) : M :=
  match state.getLast? with
  | some v => w.send_msg (w.hidden v)
  | none => 0

/-- `accumulate_message`, `/repo/src/ring/ml/ringnet.py:47-55`: the sum of the messages of the bodies
whose parent is `link`. -/
def accumulate_message [AddCommMonoid M] (lam : List Int) (msg : List M) (link : Nat) : M :=
  (List.zipWith (fun p m => if p = (link : Int) then m else 0) lam msg).sum

/-- `/repo/src/ring/ml/ringnet.py:35-74` `_rnno_cell_apply_fn`: one time step, from the features and
the states of the bodies to their outputs and next states. -/
def _rnno_cell_apply_fn [AddCommMonoid M] (w : RingWeights X M V Y) (lam : List Int)
    (inputs : List X) (prev_state : List (List V)) : List Y × List (List V) :=
  let msg := prev_state.map (message w) ++ [0]
  let mailbox := (List.range lam.length).map (accumulate_message lam msg.dropLast)
  let stacked_cell_input := List.zipWith (fun xp mb => w.concat xp.1 (jnpGet msg xp.2) mb)
    (List.zip inputs lam) mailbox
  let r := List.zipWith (inner_cell w) stacked_cell_input prev_state
  (r.map fun o => w.output_transform (w.send_output o.1), r.map Prod.snd)

/-- `hk.dynamic_unroll` of the cell, `/repo/src/ring/ml/ringnet.py:125-137`: outputs for all times
and the final state. -/
def unroll [AddCommMonoid M] (w : RingWeights X M V Y) (lam : List Int) :
    List (List X) → List (List V) → List (List Y) × List (List V)
  | [], state => ([], state)
  | x :: xs, state =>
    let r := _rnno_cell_apply_fn w lam x state
    let rest := unroll w lam xs r.2
    (r.1 :: rest.1, rest.2)

end RingLib.ml
