import Mathlib.Analysis.SpecialFunctions.Trigonometric.Basic
import Mathlib.Data.Int.Log
import Mathlib.Algebra.Order.Floor.Ring
import Verif.Model.Trig

/-!
# Random trajectories: `/repo/src/ring/algorithms/_random.py`

* A PRNG key is an element of an abstract type `K`; `Rng` says how keys are split and what is drawn
  from them. Nothing is known about the draws except that `random.uniform` lies in `[0, 1)`
  (`Rng.Ok`).
* `random.uniform(key, minval, maxval)` is jax's `max(minval, u * (maxval - minval) + minval)`.
* `float | TimeDependentFloat` is a function of time (`_to_float`, line 14-17); constants are constant
  functions.
* `jax.lax.while_loop` gives `none` when the loop does not end.
* Writing outside of an array with `dynamic_update_slice_in_dim`, reading with
  `dynamic_index_in_dim` or a traced index, clamps the index, as jax does.
-/

namespace RingLib
open Real

/-- jax's PRNG -/
structure Rng (K : Type) where
  /-- `random.split(key, n)[j]` -/
  split : K → Nat → Nat → K
  /-- `random.uniform(key)` -/
  uniform : K → ℝ
  /-- entry `j` of `random.uniform(key, (n,))` -/
  uniformN : K → Nat → Nat → ℝ
  /-- `random.choice(key, [a, b], p=[p, 1-p])` picks `a` -/
  choice : K → ℝ → Bool
  /-- `random.randint(key, (), lo, hi)` -/
  randint : K → Nat → Nat → Nat
  /-- `random.permutation(key, n)`, entry `j` -/
  perm : K → Nat → Nat → Nat
  /-- entry `j` of `random.normal(key, shape)` with `n` entries in total, counted in row major
  order -/
  normal : K → Nat → Nat → ℝ := fun _ _ _ => 0

/-- What is known of the draws. -/
structure Rng.Ok {K : Type} (R : Rng K) : Prop where
  uniform : ∀ k, 0 ≤ R.uniform k ∧ R.uniform k < 1
  uniformN : ∀ k n j, 0 ≤ R.uniformN k n j ∧ R.uniformN k n j < 1
  randint : ∀ k lo hi, lo < hi → lo ≤ R.randint k lo hi ∧ R.randint k lo hi < hi
  perm_lt : ∀ k n j, j < n → R.perm k n j < n
  perm_inj : ∀ k n i j, i < n → j < n → R.perm k n i = R.perm k n j → i = j

/-- scale a draw to an interval, as `jax.random.uniform` does -/
noncomputable def scaleU (u minval maxval : ℝ) : ℝ := max minval (u * (maxval - minval) + minval)

/-- `random.uniform(key, minval=…, maxval=…)` -/
noncomputable def Rng.uniformIn {K : Type} (R : Rng K) (k : K) (minval maxval : ℝ) : ℝ :=
  scaleU (R.uniform k) minval maxval

open Classical in
/-- `jax.lax.while_loop`; `none` when it does not end -/
noncomputable def whileLoop {σ : Type} (cond : σ → Prop) (body : σ → σ) (s : σ) : Option σ :=
  if h : ∃ n, ¬ cond (body^[n] s) then some (body^[Nat.find h] s) else none

/-- reading a jax array: negative indices count from the end, others are clamped -/
def jaxIdx (n : Nat) (i : Int) : Nat :=
  (min (max (if i < 0 then i + n else i) 0) ((n : Int) - 1)).toNat

/-- `a[i]` with a traced index -/
def jaxGet {β : Type} (d : β) (a : List β) (i : Int) : β := a.getD (jaxIdx a.length i) d

/-- `jax.lax.dynamic_update_slice_in_dim(a, [x], start_index=i, axis=0)` -/
def jaxSet {β : Type} (a : List β) (i : Nat) (x : β) : List β := a.set (min i (a.length - 1)) x

namespace random

/-! ## interpolation -/

/-- `jnp.searchsorted(xp, x, side="right")` of an array in increasing order: how many entries are
`≤ x` -/
noncomputable def searchsorted_right (xp : List ℝ) (x : ℝ) : Nat := by
  classical exact xp.countP fun y => y ≤ x

/-- `jnp.clip(jnp.searchsorted(xp, x, side="right"), 1, len(xp) - 1)` -/
noncomputable def interval (xp : List ℝ) (x : ℝ) : Int :=
  min (max (searchsorted_right xp x : Int) 1) ((xp.length : Int) - 1)

/-- `/repo/src/ring/algorithms/_random.py:355-357` `cos_interpolate` -/
noncomputable def cos_interpolate (x1 x2 alpha : ℝ) : ℝ :=
  (x1 + x2) / 2 + (x1 - x2) / 2 * cos (alpha * π)

/-- `/repo/src/ring/algorithms/_random.py:350-361` `cosInterpolate`, one query point -/
noncomputable def cosInterpolate (x : ℝ) (xp fp : List ℝ) : ℝ :=
  let i := interval xp x
  let dx := jaxGet 0 xp i - jaxGet 0 xp (i - 1)
  let alpha := (x - jaxGet 0 xp (i - 1)) / dx
  let f := if dx = 0 then jaxGet 0 fp i
    else cos_interpolate (jaxGet 0 fp (i - 1)) (jaxGet 0 fp i) alpha
  if x > jaxGet 0 xp (-1) then jaxGet 0 fp (-1) else f

/-- `/repo/src/ring/algorithms/_random.py:364-368` `_biject_alpha` -/
noncomputable def _biject_alpha (alpha : ℝ) (cdf : List ℝ) : ℝ :=
  let cdf_dx : ℝ := 1 / ((cdf.length : ℝ) - 1)
  let left_idx : Int := ⌊alpha / cdf_dx⌋
  let a := (alpha - left_idx * cdf_dx) / cdf_dx
  (1 - a) * jaxGet 0 cdf left_idx + a * jaxGet 0 cdf (left_idx + 1)

/-- `jnp.cumsum` -/
def cumsum {β : Type} [Add β] [Zero β] (l : List β) : List β :=
  (List.range l.length).map fun i => (l.take (i + 1)).foldl (· + ·) 0

/-- `cumsum` followed by division by the last entry -/
noncomputable def normalised_cumsum (samples : List ℝ) : List ℝ :=
  let montonous := cumsum samples
  montonous.map fun x => x / jaxGet 0 montonous (-1)

variable {K : Type} (R : Rng K)

/-- `/repo/src/ring/algorithms/_random.py:371-404` `_generate_cdf`; `none` is the assertion
`dy_max >= dy_min` -/
noncomputable def _generate_cdf (cdf_bins_min : Nat) (cdf_bins_max : Option Nat) (key : K) :
    Option (List ℝ) :=
  match cdf_bins_max with
  | none =>
    let samples := (List.range cdf_bins_min).map fun j =>
      scaleU (R.uniformN key cdf_bins_min j) 1e-6 1
    some (normalised_cumsum (0 :: samples))
  | some dy_max =>
    if dy_max < cdf_bins_min then none
    else
      let consume := R.split key 2 1
      let key := R.split key 2 0
      let cdf_bins := R.randint consume cdf_bins_min (dy_max + 1)
      let mask : List Nat := (List.range dy_max).map fun j => if j < cdf_bins then 1 else 0
      let consume := R.split key 2 1
      let key := R.split key 2 0
      let mask : List Nat := (List.range dy_max).map fun j => mask.getD (R.perm consume dy_max j) 0
      let dy := (List.range dy_max).map fun j => scaleU (R.uniformN key dy_max j) 1e-6 1
      let dy := (cumsum mask).map fun c => jaxGet 0 dy ((c : Int) - 1)
      some (normalised_cumsum (0 :: dy))

/-- `method` of `interpolate`; any other string raises `NotImplementedError` -/
inductive InterpMethod | cosine | linear
deriving DecidableEq

/-- `/repo/src/ring/algorithms/_random.py:424-431` `two_point_interp` -/
noncomputable def two_point_interp (method : InterpMethod) (x1 x2 alpha : ℝ) : ℝ :=
  match method with
  | .cosine => (x1 + x2) / 2 + (x1 - x2) / 2 * cos (alpha * π)
  | .linear => (1 - alpha) * x1 + alpha * x2

/-- `/repo/src/ring/algorithms/_random.py:407-439` `interpolate`, one query point -/
noncomputable def interpolate (cdf_bins_min : Nat) (cdf_bins_max : Option Nat)
    (method : InterpMethod) (x : ℝ) (xp fp : List ℝ) (key : K) : Option ℝ := do
  let i := interval xp x
  let dx := jaxGet 0 xp i - jaxGet 0 xp (i - 1)
  let alpha := (x - jaxGet 0 xp (i - 1)) / dx
  -- key, *consume = split(key, len(xp) + 1)
  let consume := R.split key (xp.length + 1) (jaxIdx xp.length (i - 1) + 1)
  let cdf ← _generate_cdf R cdf_bins_min cdf_bins_max consume
  let alpha := _biject_alpha alpha cdf
  let f := if dx = 0 then jaxGet 0 fp i
    else two_point_interp method (jaxGet 0 fp (i - 1)) (jaxGet 0 fp i) alpha
  pure (if x > jaxGet 0 xp (-1) then jaxGet 0 fp (-1) else f)

/-- the times at which the trajectory is resampled, `jnp.arange(T, step=Ts)` or
`jnp.arange(N) * Ts` -/
noncomputable def sample_times (T Ts : ℝ) (N : Option Nat) : List ℝ :=
  (List.range (N.getD ⌈T / Ts⌉.toNat)).map fun k : Nat => (k : ℝ) * Ts

/-- the last part of both functions: resample (`/repo/src/ring/algorithms/_random.py:95-111`,
`/repo/src/ring/algorithms/_random.py:218-238`) -/
noncomputable def resample (randomized_interpolation : Bool) (cdf_bins_min : Nat)
    (cdf_bins_max : Option Nat) (method : InterpMethod) (T Ts : ℝ) (N : Option Nat)
    (ANG : List (ℝ × ℝ)) (consume : K) : Option (List ℝ) :=
  if randomized_interpolation then
    (sample_times T Ts N).mapM fun t => interpolate R cdf_bins_min cdf_bins_max method t
      (ANG.map (·.1)) (ANG.map (·.2)) consume
  else some ((sample_times T Ts N).map fun t => cosInterpolate t (ANG.map (·.1)) (ANG.map (·.2)))

/-! ## angles -/

/-- `range_of_motion_method`; any other string raises `NotImplementedError` -/
inductive RomMethod | coinflip | uniform | sigmoid (scale : ℝ)

/-- `/repo/src/ring/algorithms/_random.py:283-303` probability of going up -/
noncomputable def rom_prob (method : RomMethod) (prev_phi : ℝ) : ℝ :=
  match method with
  | .coinflip => 1 / 2
  | .uniform => 1 / 2 * (1 - prev_phi / π)
  | .sigmoid scale =>
    let hardcut := π - 0.01
    if prev_phi > hardcut then 0
    else if prev_phi < -hardcut then 1 else 1 / (1 + Real.exp (-(-scale * prev_phi)))

/-- `/repo/src/ring/algorithms/_random.py:255-256` -/
noncomputable def _clip_to_pi (phi : ℝ) : ℝ := min (max phi (-π)) π

/-- the arguments of `_resolve_range_of_motion` other than keys and the previous angle -/
structure RomArgs where
  range_of_motion : Bool
  range_of_motion_method : RomMethod
  rom_lower : ℝ
  rom_upper : ℝ
  dang_min : ℝ
  dang_max : ℝ
  delta_ang_min : ℝ
  delta_ang_max : ℝ
  t_min : ℝ
  t_max : ℝ
  max_iter : Nat

/-- `/repo/src/ring/algorithms/_random.py:280-318` `_next_phi` -/
noncomputable def _next_phi (A : RomArgs) (prev_phi : ℝ) (key : K) (dt : ℝ) : ℝ :=
  let method := if A.range_of_motion then A.range_of_motion_method else .coinflip
  let consume := R.split key 2 1
  let key := R.split key 2 0
  let sign : ℝ := if R.choice consume (rom_prob method prev_phi) then 1 else -1
  let lower := prev_phi + sign * A.dang_min * dt
  let upper := prev_phi + sign * A.dang_max * dt
  let lower' := if A.range_of_motion then _clip_to_pi lower else lower
  let upper' := if A.range_of_motion then _clip_to_pi upper else upper
  -- sort, then clip to the range of motion
  let lower := max (min lower' upper') A.rom_lower
  let upper := min (max lower' upper') A.rom_upper
  let consume := R.split key 2 1
  R.uniformIn consume lower upper

/-- loop state of `_resolve_range_of_motion` -/
structure RomVal (K : Type) where
  key_t : K
  key_ang : K
  dt : ℝ
  next_phi : ℝ
  i : Nat

/-- `/repo/src/ring/algorithms/_random.py:320-329` `body_fn` -/
noncomputable def rom_body (A : RomArgs) (prev_phi : ℝ) (val : RomVal K) : RomVal K :=
  let consume_t := R.split val.key_t 2 1
  let dt := R.uniformIn consume_t A.t_min A.t_max
  let consume_ang := R.split val.key_ang 2 1
  ⟨R.split val.key_t 2 0, R.split val.key_ang 2 0, dt, _next_phi R A prev_phi consume_ang dt,
    val.i + 1⟩

/-- `/repo/src/ring/algorithms/_random.py:331-343` `cond_fn` -/
def rom_cond (A : RomArgs) (prev_phi : ℝ) (val : RomVal K) : Prop :=
  let delta_phi := |val.next_phi - prev_phi|
  let cond_delta_ang := delta_phi ≥ A.delta_ang_min ∧ delta_phi ≤ A.delta_ang_max
  let dang := delta_phi / val.dt
  let cond_dang := dang ≥ A.dang_min ∧ dang ≤ A.dang_max
  val.i = 0 ∨ ¬ ((cond_delta_ang ∧ cond_dang) ∨ val.i > A.max_iter)

/-- `/repo/src/ring/algorithms/_random.py:259-347` `_resolve_range_of_motion` -/
noncomputable def _resolve_range_of_motion (A : RomArgs) (prev_phi : ℝ) (key_t key_ang : K) :
    Option (ℝ × ℝ) :=
  (whileLoop (rom_cond A prev_phi) (rom_body R A prev_phi) ⟨key_t, key_ang, 1, prev_phi, 0⟩).map
    fun v => (v.dt, v.next_phi)

/-- the arguments of `random_angle_over_time` -/
structure AngleArgs where
  ANG_0 : ℝ
  dang_min : ℝ → ℝ
  dang_max : ℝ → ℝ
  delta_ang_min : ℝ → ℝ
  delta_ang_max : ℝ → ℝ
  t_min : ℝ
  t_max : ℝ → ℝ
  T : ℝ
  Ts : ℝ
  N : Option Nat := none
  max_iter : Nat := 5
  randomized_interpolation : Bool := false
  range_of_motion : Bool := false
  range_of_motion_method : RomMethod := .uniform
  rom_halfsize : ℝ → ℝ := fun _ => 2 * π
  cdf_bins_min : Nat := 5
  cdf_bins_max : Option Nat := none
  interpolation_method : InterpMethod := .cosine

/-- loop state of `random_angle_over_time` -/
structure AngVal (K : Type) where
  i : Nat
  t : ℝ
  phi : ℝ
  key_t : K
  key_ang : K
  ANG : List (ℝ × ℝ)

/-- the arguments at time `t` (`_to_float`) -/
noncomputable def AngleArgs.at (A : AngleArgs) (t : ℝ) : RomArgs where
  range_of_motion := A.range_of_motion
  range_of_motion_method := A.range_of_motion_method
  rom_lower := A.ANG_0 - A.rom_halfsize t
  rom_upper := A.ANG_0 + A.rom_halfsize t
  dang_min := A.dang_min t
  dang_max := A.dang_max t
  delta_ang_min := A.delta_ang_min t
  delta_ang_max := A.delta_ang_max t
  t_min := A.t_min
  t_max := A.t_max t
  max_iter := A.max_iter

/-- `jnp.floor(t / Ts) * Ts` -/
noncomputable def floorTo (t Ts : ℝ) : ℝ := ⌊t / Ts⌋ * Ts

/-- `/repo/src/ring/algorithms/_random.py:45-76` `body_fn_outer`; the inner loop always ends (it
stops after `max_iter + 1` rounds), should it not, the state is kept -/
noncomputable def ang_body (A : AngleArgs) (val : AngVal K) : AngVal K :=
  let consume_t := R.split val.key_t 2 1
  let consume_ang := R.split val.key_ang 2 1
  match _resolve_range_of_motion R (A.at val.t) val.phi consume_t consume_ang with
  | none => val
  | some (dt, phi) =>
    let t := val.t + dt
    ⟨val.i + 1, t, phi, R.split val.key_t 2 0, R.split val.key_ang 2 0,
      jaxSet val.ANG val.i (floorTo t A.Ts, phi)⟩

/-- `int(T // t_min) + 1` rows, the first holds the start value -/
noncomputable def prealloc (T t_min x0 : ℝ) : List (ℝ × ℝ) :=
  (List.replicate (⌊T / t_min⌋.toNat + 1) ((0, 0) : ℝ × ℝ)).set 0 (0, x0)

/-- rows that were not written repeat the last one -/
def fill_rest (ANG : List (ℝ × ℝ)) (end_ : Nat) : List (ℝ × ℝ) :=
  ANG.mapIdx fun k row => if k < end_ then row else jaxGet (0, 0) ANG ((end_ : Int) - 1)

/-- `/repo/src/ring/algorithms/_random.py:82-93` the knots, and the key that is left -/
noncomputable def angle_knots (A : AngleArgs) (key_t key_ang : K) : Option (List (ℝ × ℝ) × K) := do
  let val ← whileLoop (fun val => val.t ≤ A.T) (ang_body R A)
    ⟨1, 0, A.ANG_0, key_t, key_ang, prealloc A.T A.t_min A.ANG_0⟩
  pure (fill_rest val.ANG val.i, val.key_ang)

/-- `/repo/src/ring/algorithms/_random.py:21-117` `random_angle_over_time` -/
noncomputable def random_angle_over_time (A : AngleArgs) (key_t key_ang : K) :
    Option (List ℝ) := do
  let (ANG, consume) ← angle_knots R A key_t key_ang
  let q ← resample R A.randomized_interpolation A.cdf_bins_min A.cdf_bins_max A.interpolation_method
    A.T A.Ts A.N ANG consume
  pure (if A.range_of_motion then q else q.map maths.wrap_to_pi)

/-! ## positions -/

/-- the arguments of `random_position_over_time` -/
structure PosArgs where
  POS_0 : ℝ
  pos_min : ℝ → ℝ
  pos_max : ℝ → ℝ
  dpos_min : ℝ → ℝ
  dpos_max : ℝ → ℝ
  t_min : ℝ
  t_max : ℝ → ℝ
  T : ℝ
  Ts : ℝ
  N : Option Nat := none
  max_it : Nat := 100
  randomized_interpolation : Bool := false
  cdf_bins_min : Nat := 5
  cdf_bins_max : Option Nat := none
  interpolation_method : InterpMethod := .cosine

/-- state of the inner loop -/
structure PosInner (K : Type) where
  i : Nat
  t : ℝ
  t_pre : ℝ
  x : ℝ
  x_pre : ℝ
  key : K

/-- `/repo/src/ring/algorithms/_random.py:139-168` `body_fn_inner` -/
noncomputable def pos_body_inner (A : PosArgs) (val : PosInner K) : PosInner K :=
  let dt := val.t - val.t_pre
  if val.i > A.max_it then { val with i := val.i + 1, x := val.x_pre + 0 }
  else
    let consume1 := R.split val.key 3 1
    let consume2 := R.split val.key 3 2
    let sign : ℝ := if R.choice consume1 (1 / 2) then -1 else 1
    let dx := sign * R.uniformIn consume2 (A.dpos_min val.t_pre) (A.dpos_max val.t_pre) * dt
    { val with i := val.i + 1, x := val.x_pre + dx, key := R.split val.key 3 0 }

/-- `/repo/src/ring/algorithms/_random.py:174-180` the draw is accepted -/
def pos_accept (A : PosArgs) (val : PosInner K) : Prop :=
  let dpos := |(val.x - val.x_pre) / (val.t - val.t_pre)|
  dpos < A.dpos_max val.t_pre ∧ dpos > A.dpos_min val.t_pre ∧ val.x ≥ A.pos_min val.t_pre ∧
    val.x ≤ A.pos_max val.t_pre

/-- `/repo/src/ring/algorithms/_random.py:170-182` `cond_fn_inner` -/
def pos_cond_inner (A : PosArgs) (val : PosInner K) : Prop :=
  ¬ (pos_accept A val ∨ val.i > A.max_it)

/-- state of the outer loop -/
structure PosVal (K : Type) where
  i : Nat
  t : ℝ
  t_pre : ℝ
  x : ℝ
  x_pre : ℝ
  key : K
  POS : List (ℝ × ℝ)

/-- `/repo/src/ring/algorithms/_random.py:184-199` `body_fn_outer`; at most `max_it + 1` rounds of the inner loop;; the inner loop always ends -/
noncomputable def pos_body (A : PosArgs) (val : PosVal K) : PosVal K :=
  let consume := R.split val.key 2 1
  let key := R.split val.key 2 0
  let t := val.t + R.uniformIn consume A.t_min (A.t_max val.t_pre)
  match whileLoop (pos_cond_inner A) (pos_body_inner R A) ⟨0, t, val.t_pre, val.x, val.x_pre, key⟩ with
  | none => val
  | some v =>
    ⟨val.i + 1, v.t, v.t, v.x, v.x, v.key, jaxSet val.POS val.i (floorTo v.t A.Ts, v.x)⟩

/-- `/repo/src/ring/algorithms/_random.py:205-216` the knots, and the key that is left -/
noncomputable def position_knots (A : PosArgs) (key : K) : Option (List (ℝ × ℝ) × K) := do
  let val ← whileLoop (fun val => val.t ≤ A.T) (pos_body R A)
    ⟨1, 0, 0, A.POS_0, A.POS_0, key, prealloc A.T A.t_min A.POS_0⟩
  pure (fill_rest val.POS val.i, val.key)

/-- `/repo/src/ring/algorithms/_random.py:121-238` `random_position_over_time` -/
noncomputable def random_position_over_time (A : PosArgs) (key : K) : Option (List ℝ) := do
  let (POS, consume) ← position_knots R A key
  resample R A.randomized_interpolation A.cdf_bins_min A.cdf_bins_max A.interpolation_method
    A.T A.Ts A.N POS consume

end random
end RingLib
