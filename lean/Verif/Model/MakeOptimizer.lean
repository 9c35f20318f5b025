import Verif.Model.Optimizer
import Mathlib.Analysis.SpecialFunctions.Trigonometric.Basic

/-!
# The optimizer of the training

`/repo/src/ring/ml/optimizer.py:14-64` `make_optimizer`, with the parts of `optax` that it puts together.

* The numbers of steps are natural numbers; `int(steps / 2)` is the quotient without remainder (exact as long as
  `steps` is below `2 ** 53`).
* `optax.adaptive_grad_clip` is an arbitrary function of its bound, the gradient and the parameters.
* The inner optimizer is, like all optimizers of `optax` that take a schedule, an arbitrary transformation followed by
  the multiplication with minus the learning rate, which counts its calls.
* Transformations without state leave out their state.
* Infinities and `NaN` follow the rules of floating point numbers.
-/

namespace RingLib

namespace Fl

/-- `c * x` for a finite `c` -/
noncomputable def scale (c : ℝ) : Fl ℝ → Fl ℝ
  | fin x => fin (c * x)
  | posInf => if 0 < c then posInf else if c < 0 then negInf else nan
  | negInf => if 0 < c then negInf else if c < 0 then posInf else nan
  | nan => nan

/-- `x / y` (zeros have no sign) -/
noncomputable def div : Fl ℝ → Fl ℝ → Fl ℝ
  | nan, _ => nan
  | _, nan => nan
  | fin x, fin y =>
    if y = 0 then (if 0 < x then posInf else if x < 0 then negInf else nan) else fin (x / y)
  | fin _, posInf => fin 0
  | fin _, negInf => fin 0
  | posInf, fin y => if 0 ≤ y then posInf else negInf
  | negInf, fin y => if 0 ≤ y then negInf else posInf
  | posInf, _ => nan
  | negInf, _ => nan

/-- `sqrt(x)` -/
noncomputable def sqrt : Fl ℝ → Fl ℝ
  | fin x => if x < 0 then nan else fin (Real.sqrt x)
  | posInf => posInf
  | negInf => nan
  | nan => nan

end Fl

namespace ml

/-! ## Schedules of the learning rate -/

/-- `optax.cosine_decay_schedule` (used in `/repo/src/ring/ml/optimizer.py:32`, `:33` and `:38`). -/
noncomputable def cosine_decay_schedule (init_value : ℝ) (decay_steps : Nat) (alpha : ℝ := 0) : Py (Nat → ℝ) :=
  if ¬ decay_steps > 0 then .error .value
  else .ok fun count =>
    let count := min count decay_steps
    let cosine_decay := 0.5 * (1 + Real.cos (Real.pi * count / decay_steps))
    let decayed := (1 - alpha) * cosine_decay + alpha
    init_value * decayed

/-- `optax.join_schedules` of two schedules (used in `/repo/src/ring/ml/optimizer.py:30-36`). -/
def join_schedules (first second : Nat → ℝ) (boundary : Nat) : Nat → ℝ := fun step =>
  if step < boundary then first step else second (step - boundary)

/-- the schedule of `/repo/src/ring/ml/optimizer.py:27-38` -/
noncomputable def schedule (lr : ℝ) (n_episodes n_steps_per_episode : Nat) (cos_decay_twice : Bool) :
    Py (Nat → ℝ) :=
  let steps := n_steps_per_episode * n_episodes
  if cos_decay_twice then do
    let half_steps := steps / 2
    let first ← cosine_decay_schedule lr half_steps 1e-2
    let second ← cosine_decay_schedule (lr * 1e-2) half_steps
    return join_schedules first second half_steps
  else cosine_decay_schedule lr steps 1e-7

/-! ## Transformations of the gradient -/

/-- `optax.scale_by_learning_rate(c, flip_sign=False)` (used in `/repo/src/ring/ml/optimizer.py:42`). -/
noncomputable def scale_grads (c : ℝ) (g : Leaves ℝ) : Leaves ℝ := g.map fun p => p.map (Fl.scale c)

/-- `optax.global_norm` -/
noncomputable def global_norm (g : Leaves ℝ) : Fl ℝ := (Fl.sum (g.map fun p => Fl.sum (p.map Fl.sq))).sqrt

open Classical in
/-- `optax.clip_by_global_norm` (used in `/repo/src/ring/ml/optimizer.py:52`). -/
noncomputable def clip_by_global_norm (max_norm : ℝ) (g : Leaves ℝ) : Leaves ℝ :=
  if (global_norm g).lt (.fin max_norm) then g
  else g.map fun p => p.map fun t => Fl.scale max_norm (t.div (global_norm g))

/-- the first three elements of the chain, `/repo/src/ring/ml/optimizer.py:41-55`; `agc` is `optax.adaptive_grad_clip` -/
noncomputable def preprocess (agc : ℝ → Leaves ℝ → Leaves ℝ → Leaves ℝ) (scale adap_clip glob_clip : Option ℝ)
    (g params : Leaves ℝ) : Leaves ℝ :=
  let g := match scale with
    | some c => scale_grads c g
    | none => g
  let g := match adap_clip with
    | some c => agc c g params
    | none => g
  match glob_clip with
  | some c => clip_by_global_norm c g
  | none => g

/-- An optimizer of `optax` with the learning rate given by a schedule: `direction`, then
`optax.scale_by_learning_rate(schedule)` (as `inner_opt` in `/repo/src/ring/ml/optimizer.py:56`). -/
noncomputable def byLearningRate {σ : Type} (direction : GradTransform ℝ σ) (rate : Nat → ℝ) :
    GradTransform ℝ (σ × Nat) := fun g s p =>
  let r := direction g s.1 p
  (r.1.map fun l => l.map (Fl.scale (-rate s.2)), r.2, safe_int32_increment s.2)

/-- `optax.chain(…)`, `/repo/src/ring/ml/optimizer.py:40-57` -/
def chained {τ : Type} (pre : Leaves ℝ → Leaves ℝ → Leaves ℝ) (inner : GradTransform ℝ τ) : GradTransform ℝ τ :=
  fun g s p => inner (pre g p) s p

/-- the keyword arguments of `make_optimizer` with their defaults, `/repo/src/ring/ml/optimizer.py:15-25` -/
structure OptimizerArgs where
  lr : ℝ
  n_episodes : Nat
  n_steps_per_episode : Nat := 6
  adap_clip : Option ℝ := some 0.1
  glob_clip : Option ℝ := some 0.2
  skip_large_update_max_normsq : ℝ := 100
  skip_large_update_warmup : Nat := 300
  cos_decay_twice : Bool := false
  scale_grads : Option ℝ := none

open Classical in
/-- `/repo/src/ring/ml/optimizer.py:14-64` `make_optimizer`: the `update` function. -/
noncomputable def make_optimizer {σ ν : Type} (agc : ℝ → Leaves ℝ → Leaves ℝ → Leaves ℝ)
    (direction : GradTransform ℝ σ) (noise : GradTransform ℝ ν) (a : OptimizerArgs) :
    Py (Leaves ℝ → SkipIfLargeUpdatesState (σ × Nat) ν → Leaves ℝ →
      Leaves ℝ × SkipIfLargeUpdatesState (σ × Nat) ν) := do
  let rate ← schedule a.lr a.n_episodes a.n_steps_per_episode a.cos_decay_twice
  let optimizer := chained (preprocess agc a.scale_grads a.adap_clip a.glob_clip) (byLearningRate direction rate)
  skip_large_update optimizer noise a.skip_large_update_max_normsq (6 * 25) a.skip_large_update_warmup

end ml
end RingLib
