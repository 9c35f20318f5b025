import Verif.Model.Trig
import Verif.Model.Py
import Verif.Model.Callbacks

/-!
# The gymnasium environment `Saddle-v0`

`/repo/src/ring/utils/register_gym_envs/saddle.py:33-109`: an agent sees the measurements of two IMUs and has to
estimate the orientation of the second segment relative to the first.

* The lazy generator of training data is a parameter, a function from the seed to the recording of one sequence; numpy's
  random number generator is a state with a function that draws an integer and a function that seeds it.
* `step` changes the object before it raises; the model returns the object beside the result.
* A quaternion with entries that are not numbers is `none`; its error is `NaN`.
* Of `render` the arguments of the renderer are kept: the poses and the orientations that are drawn over them.
* Indexing beyond the end raises in numpy and is clamped in jax; the observations are a numpy array, so that both
  `_get_obs` and `_get_info` are only reached with the rules of numpy. The truth at `_t - 1` is read with the rules of
  jax.
-/

namespace RingLib.saddle

open maths

/-- One sequence of the generator: measurements of the two segments, relative orientation, poses. -/
structure Recording (X : Type) where
  acc1 : List (Vec3 ℝ)
  gyr1 : List (Vec3 ℝ)
  acc2 : List (Vec3 ℝ)
  gyr2 : List (Vec3 ℝ)
  truth : List (Quat ℝ)
  xs : List X

/-- random number generator of numpy -/
structure NpRandom (ρ : Type) where
  seeded : Nat → ρ
  integers : ρ → Nat × ρ

/-- the attributes of `Env`, `/repo/src/ring/utils/register_gym_envs/saddle.py:36-73`; `action` is `self._action`
(outer `none`: python's `None`, inner `none`: `NaN`) -/
structure Env (ρ X : Type) where
  np_random : ρ
  xs : List X
  truth : List (Quat ℝ)
  T : Nat
  observations : List (List ℝ)
  t : Nat
  action : Option (Option (Quat ℝ))

variable {ρ X : Type}

/-- what `_get_obs()` and `_get_info()` return -/
abbrev ObsInfo := List ℝ × Quat ℝ

/-- `/repo/src/ring/utils/register_gym_envs/saddle.py:75-79` `_get_obs`, then `_get_info`. -/
def get_obs_info (e : Env ρ X) : Py ObsInfo := do
  let obs ← pyGet e.observations e.t
  let info ← pyGet e.truth e.t
  return (obs, info)

/-- columns of the array that is assigned to a slice with `T` rows of three columns -/
def assigned (T : Nat) (l : List (Vec3 ℝ)) : Py (List (Vec3 ℝ)) :=
  if l.length = T then .ok l else .error .value

/-- the row of the observations at one time -/
def row (a1 g1 a2 g2 : Vec3 ℝ) : List ℝ :=
  [a1.x, a1.y, a1.z, g1.x, g1.y, g1.z, a2.x, a2.y, a2.z, g2.x, g2.y, g2.z]

/-- `/repo/src/ring/utils/register_gym_envs/saddle.py:65-71`: an array of zeros, the slices of which are overwritten. -/
def observations (r : Recording X) (T : Nat) : Py (List (List ℝ)) := do
  let a1 ← assigned T r.acc1
  let g1 ← assigned T r.gyr1
  let a2 ← assigned T r.acc2
  let g2 ← assigned T r.gyr2
  return List.zipWith (fun (p : Vec3 ℝ × Vec3 ℝ) (q : Vec3 ℝ × Vec3 ℝ) => row p.1 p.2 q.1 q.2)
    (a1.zip g1) (a2.zip g2)

/-- `/repo/src/ring/utils/register_gym_envs/saddle.py:58-73` `reset`; `action` keeps its value. -/
def reset (N : NpRandom ρ) (generator : Nat → Recording X) (seed : Option Nat) (e : Env ρ X) :
    Py (Env ρ X × ObsInfo) := do
  let rng := (seed.map N.seeded).getD e.np_random
  let jax_seed := (N.integers rng).1
  let rng := (N.integers rng).2
  let r := generator jax_seed
  let T := r.truth.length
  let obs ← observations r T
  let e' : Env ρ X := { e with np_random := rng, xs := r.xs, truth := r.truth, T := T, observations := obs, t := 0 }
  let out ← get_obs_info e'
  return (e', out)

open Classical in
/-- `action / np.linalg.norm(action)`: `0 / 0` is `NaN` in every entry. -/
noncomputable def normalised (a : Quat ℝ) : Option (Quat ℝ) :=
  if norm4 a = 0 then none
  else some ⟨a.w / norm4 a, a.x / norm4 a, a.y / norm4 a, a.z / norm4 a⟩

/-- `/repo/src/ring/utils/register_gym_envs/saddle.py:93-94` `_abs_angle`. -/
noncomputable def abs_angle (q : Quat ℝ) : Option (Quat ℝ) → Fl ℝ
  | none => .nan
  | some qhat => .fin (angle_error q qhat)

/-- `-x` -/
def neg : Fl ℝ → Fl ℝ
  | .fin x => .fin (-x)
  | .posInf => .negInf
  | .negInf => .posInf
  | .nan => .nan

/-- `self._truth[i]` with jax: indices beyond the end are clamped -/
def clamped (l : List (Quat ℝ)) (i : Nat) : Py (Quat ℝ) := pyGet l ((min i (l.length - 1) : Nat) : Int)

/-- the five values that `step` returns -/
structure StepResult where
  obs : List ℝ
  reward : Fl ℝ
  terminated : Bool
  truncated : Bool
  info : Quat ℝ

/-- `/repo/src/ring/utils/register_gym_envs/saddle.py:81-91` `step`. -/
noncomputable def step (a : Quat ℝ) (e : Env ρ X) : Env ρ X × Py StepResult :=
  let e := { e with t := e.t + 1 }
  let e := { e with action := some (normalised a) }
  (e, do
    let q ← clamped e.truth (e.t - 1)
    let reward := neg (abs_angle q (normalised a))
    let terminated := false
    let truncated := decide (e.t ≥ e.T - 1)
    let (obs, info) ← get_obs_info e
    return ⟨obs, reward, terminated, truncated, info⟩)

/-- What the renderer gets: the pose and, for a prediction, the orientations of the segments. -/
inductive Picture (X : Type) where
  | plain (x : X)
  | prediction (x : X) (seg1 : Quat ℝ) (seg2 : Option (Quat ℝ))

/-- `/repo/src/ring/utils/register_gym_envs/saddle.py:96-109` `render`. -/
def render (e : Env ρ X) : Py (Picture X) := do
  let x ← pyGet e.xs e.t
  match e.action with
  | none => return .plain x
  | some a => return .prediction x ⟨1, 0, 0, 0⟩ a

/-- A run: the actions are given to `step` one after the other, the results are collected; an exception of `step` is
caught by nobody. -/
noncomputable def run : List (Quat ℝ) → Env ρ X → Py (Env ρ X × List StepResult)
  | [], e => .ok (e, [])
  | a :: as, e => do
    let r ← (step a e).2
    let (e', rs) ← run as (step a e).1
    return (e', r :: rs)

end RingLib.saddle
