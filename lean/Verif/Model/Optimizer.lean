import Verif.Model.Callbacks

/-!
# Skipping large updates

`/repo/src/ring/ml/optimizer.py`.

* A pytree of arrays is the list of its leaves, a leaf the list of its numbers (`Fl`: exact numbers,
  infinities and `NaN`).
* The wrapped optimizer and the noise (`optax.add_noise`) are arbitrary functions with an arbitrary
  state.  `make_optimizer` is in `MakeOptimizer`.
-/

namespace RingLib.ml

/-- The leaves of a pytree of arrays. -/
abbrev Leaves (R : Type) := List (List (Fl R))

/-- The `update` function of an `optax` transformation with state `σ`. -/
abbrev GradTransform (R σ : Type) := Leaves R → σ → Leaves R → Leaves R × σ

variable {R σ ν : Type}

/-- `/repo/src/ring/ml/optimizer.py:67-71` `SkipIfLargeUpdatesState`. -/
structure SkipIfLargeUpdatesState (σ ν : Type) where
  toolarge_count : Nat
  count : Nat
  inner_state : σ
  add_noise_state : ν

/-- `optax` `numerics.safe_int32_increment`: does not overflow
(used in `/repo/src/ring/ml/optimizer.py:115` and `:148`). -/
def safe_int32_increment (count : Nat) : Nat := if count < 2147483647 then count + 1 else 2147483647

/-- `/repo/src/ring/ml/optimizer.py:74-79` `_condition_not_toolarge`. -/
def _condition_not_toolarge [Semiring R] [LinearOrder R] (updates : Leaves R) (max_norm_sq : R) :
    Bool :=
  (Fl.sum (updates.map fun p => Fl.sum (p.map Fl.sq))).lt (.fin max_norm_sq)

/-- The `init` function returned by `skip_large_update`, `/repo/src/ring/ml/optimizer.py:101-107`. -/
def skipInit (inner_state : σ) (add_noise_state : ν) : SkipIfLargeUpdatesState σ ν :=
  ⟨0, 0, inner_state, add_noise_state⟩

/-- `do_update`, `/repo/src/ring/ml/optimizer.py:118-122`. -/
def do_update (inner : GradTransform R σ) (updates : Leaves R)
    (state : SkipIfLargeUpdatesState σ ν) (params : Leaves R) : Leaves R × σ × ν :=
  let r := inner updates state.inner_state params
  (r.1, r.2, state.add_noise_state)

/-- `reject_update`, `/repo/src/ring/ml/optimizer.py:124-134`. -/
def reject_update [Zero R] (noise : GradTransform R ν) (disturb_if_skip : Bool)
    (updates : Leaves R) (state : SkipIfLargeUpdatesState σ ν) (params : Leaves R) :
    Leaves R × σ × ν :=
  if disturb_if_skip then
    let r := noise updates state.add_noise_state params
    (r.1, state.inner_state, r.2)
  else (updates.map fun p => p.map fun _ => .fin 0, state.inner_state, state.add_noise_state)

/-- The `update` function returned by `skip_large_update`,
`/repo/src/ring/ml/optimizer.py:109-151`. -/
def skipUpdate [Semiring R] [LinearOrder R] (inner : GradTransform R σ) (noise : GradTransform R ν)
    (max_norm_sq : R) (max_consecutive_toolarge warmup : Nat) (disturb_if_skip : Bool)
    (updates : Leaves R) (state : SkipIfLargeUpdatesState σ ν) (params : Leaves R) :
    Leaves R × SkipIfLargeUpdatesState σ ν :=
  let not_toolarge := _condition_not_toolarge updates max_norm_sq
  let toolarge_count :=
    if not_toolarge = true then 0 else safe_int32_increment state.toolarge_count
  let r :=
    if (not_toolarge = true ∨ toolarge_count > max_consecutive_toolarge) ∨ state.count < warmup then
      do_update inner updates state params
    else reject_update noise disturb_if_skip updates state params
  (r.1, ⟨toolarge_count, safe_int32_increment state.count, r.2.1, r.2.2⟩)

/-- `/repo/src/ring/ml/optimizer.py:82-153` `skip_large_update`: the `update` function. -/
def skip_large_update [Semiring R] [LinearOrder R] (inner : GradTransform R σ)
    (noise : GradTransform R ν) (max_norm_sq : R) (max_consecutive_toolarge : Nat)
    (warmup : Nat := 0) (disturb_if_skip : Bool := false) (disturb_adaptive : Bool := false) :
    Py (Leaves R → SkipIfLargeUpdatesState σ ν → Leaves R →
      Leaves R × SkipIfLargeUpdatesState σ ν) :=
  if disturb_adaptive then .error .notImplemented
  else .ok (skipUpdate inner noise max_norm_sq max_consecutive_toolarge warmup disturb_if_skip)

/-- `optax.apply_updates`: elementwise sum (used in `/repo/src/ring/ml/train.py:69`). -/
def apply_updates [Add R] (params updates : Leaves R) : Leaves R :=
  List.zipWith (List.zipWith Fl.add) params updates

/-- `apply_grads`, `/repo/src/ring/ml/train.py:67-70`, for an optimizer given by its update
function: the parameters and the state of the optimizer afterwards. -/
def apply_grads [Add R] {τ : Type} (update : Leaves R → τ → Leaves R → Leaves R × τ)
    (grads params : Leaves R) (opt_state : τ) : Leaves R × τ :=
  let r := update grads opt_state params
  (apply_updates params r.1, r.2)

/-- `apply_grads` for one gradient after the other. -/
def trainOn [Add R] {τ : Type} (update : Leaves R → τ → Leaves R → Leaves R × τ) :
    List (Leaves R) → Leaves R × τ → Leaves R × τ
  | [], s => s
  | g :: gs, s => trainOn update gs (apply_grads update g s.1 s.2)

end RingLib.ml
