import Verif.Model.Filters
import Verif.Model.Utils

/-!
# The functions that put filters together

`ring.RING`, `/repo/src/ring/__init__.py:23-114`, and `ring.ml.RNNO`, `/repo/src/ring/ml/__init__.py:19-57`.

* The network is given by its functions `forward` and `init`; loading parameters is the function `load` from the name
  of the file.
* The value of a keyword argument is a truth value or a number; for RNNO it is arbitrary.
* Names and the argument `quiet` are left out; of a warning the printed sampling rate is kept.
-/

namespace RingLib.ml

variable {P : Type}

/-- value of a keyword argument -/
inductive KwVal where
  | bool (b : Bool)
  | num (x : ℝ)

open Classical in
/-- `if value:` -/
noncomputable def KwVal.truthy : KwVal → Bool
  | .bool b => b
  | .num x => decide (x ≠ 0)

/-- the value used as a number -/
noncomputable def KwVal.toNum : KwVal → ℝ
  | .bool b => if b then 1 else 0
  | .num x => x

/-- `/repo/src/ring/ml/__init__.py:16` `_LPF_CUTOFF_FREQ` -/
noncomputable def _LPF_CUTOFF_FREQ : ℝ := 10

/-- `config`, `/repo/src/ring/__init__.py:76-81` -/
noncomputable def ringConfig (kwargs : Dict KwVal) : Dict KwVal :=
  Dict.update [("use_100Hz_RING", .bool true), ("use_lpf", .bool true), ("lpf_cutoff_freq", .num _LPF_CUTOFF_FREQ)]
    kwargs

open Classical in
/-- The warning, `/repo/src/ring/__init__.py:83-87`: the rates printed. -/
noncomputable def rateWarning (Ts : Option ℝ) : Py (List ℝ) :=
  match Ts with
  | none => .ok []
  | some Ts =>
    if Ts > 1 / 40 ∨ Ts < 1 / 200 then
      if Ts = 0 then .error .zeroDivision else .ok [1 / Ts]
    else .ok []

open Classical in
/-- The set of parameters and `add_Ts`, `/repo/src/ring/__init__.py:89-98` -/
noncomputable def ringParams (Ts : Option ℝ) (use_100Hz_RING : Bool) : String × Bool :=
  if Ts = some 0.01 ∧ use_100Hz_RING = true then ("ml/params/0x1d76628065a71e0f.pickle", false)
  else ("ml/params/0x13e3518065c21cd8.pickle", true)

/-- the network: `forward` and `init` of `ml.RING` -/
structure Net (P : Type) where
  forward : List Int → P → Tree → NDArr → NDArr × Tree
  init : List Int → NDArr → P × Tree

/-- `ml.RING(params=…, lam=…)` -/
def Net.ring (net : Net P) (params : Option P) (lam : Option (List Int)) : RING P :=
  ⟨net.forward, net.init, params, lam⟩

/-- the wrappers, `/repo/src/ring/__init__.py:103-114` -/
noncomputable def ringWrap (Ts : Option ℝ) (use_lpf : Bool) (cutoff : ℝ) (add_Ts : Bool) (f : Filter P) : Filter P :=
  let f := ScaleX _default_factors f
  let f := if use_lpf then LPF cutoff (Ts.map (1 / ·)) true f else f
  let f := GroundTruthHeading f
  if add_Ts then AddTs Ts f else f

/-- `/repo/src/ring/__init__.py:23-114` `ring.RING`: the filter and the rates warned about. -/
noncomputable def ringFactory (net : Net P) (load : String → Py P) (lam : Option (List Int)) (Ts : Option ℝ)
    (kwargs : Dict KwVal) : Py (Filter P × List ℝ) := do
  let config := ringConfig kwargs
  let warned ← rateWarning Ts
  let use_100Hz ← pyDict config "use_100Hz_RING"
  let choice := ringParams Ts use_100Hz.truthy
  let params ← load choice.1
  let use_lpf ← pyDict config "use_lpf"
  let cutoff ← pyDict config "lpf_cutoff_freq"
  .ok (ringWrap Ts use_lpf.truthy cutoff.toNum choice.2 (net.ring (some params) lam).filter, warned)

/-! ## RNNO -/

/-- Arguments of `ml.RING` set by `RNNO`, `/repo/src/ring/ml/__init__.py:33-44`; `ν` embeds numbers, truth values and
the factory into the values of keyword arguments. -/
structure KwEmbed (A : Type) where
  nat : Nat → A
  bool : Bool → A
  rnno_v1_forward_factory : A

/-- `kwargs` after `/repo/src/ring/ml/__init__.py:29-44` -/
def rnnoKwargs {A : Type} (ν : KwEmbed A) (output_dim : Nat) (v1 : Bool) (kwargs : Dict A) : Py (Dict A) := do
  pyAssert ("message_dim" ∉ kwargs.keys)
  pyAssert ("link_output_normalize" ∉ kwargs.keys)
  pyAssert ("link_output_dim" ∉ kwargs.keys)
  if v1 then
    .ok (kwargs.update [("forward_factory", ν.rnno_v1_forward_factory), ("output_dim", ν.nat output_dim)])
  else
    .ok (kwargs.update [("message_dim", ν.nat 0), ("link_output_normalize", ν.bool false),
      ("link_output_dim", ν.nat output_dim)])

/-- the wrappers, `/repo/src/ring/ml/__init__.py:50-57` -/
noncomputable def rnnoWrap (return_quats eval scale_X : Bool) (samp_freq : Option ℝ) (f : Filter P) : Filter P :=
  let f := NoGraph return_quats f
  let f := if scale_X then ScaleX _default_factors f else f
  let f := if eval && return_quats then LPF _LPF_CUTOFF_FREQ samp_freq true f else f
  if return_quats then GroundTruthHeading f else f

/-- `/repo/src/ring/ml/__init__.py:19-57` `RNNO`; `ringClass` is `ml.RING(params=params, **kwargs)`. -/
noncomputable def RNNO {A : Type} (ν : KwEmbed A) (ringClass : Option P → Dict A → Py (RING P)) (output_dim : Nat)
    (return_quats : Bool := false) (params : Option P := none) (eval : Bool := true) (samp_freq : Option ℝ := none)
    (v1 : Bool := false) (scale_X : Bool := true) (kwargs : Dict A := []) : Py (Filter P) := do
  let kwargs ← rnnoKwargs ν output_dim v1 kwargs
  let ringnet ← ringClass params kwargs
  .ok (rnnoWrap return_quats eval scale_X samp_freq ringnet.filter)

end RingLib.ml
