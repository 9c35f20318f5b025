import Verif.Model.DrawQ

/-!
# Random sampling rates: `/repo/src/ring/utils/randomize_sys.py` and the sampling rate part of
`_build_mconfig_batched_generator` in `/repo/src/ring/algorithms/generator/base.py`
-/

namespace RingLib
namespace generator
open System jcalc

/-- The innermost loop body of `randomize_hz`, `/repo/src/ring/utils/randomize_sys.py:99-104`; the state
is `(sys_out, configs_out)`. -/
noncomputable def hzStep {π : Type} (T_global : ℝ) (_sys : System ℝ π) (_config : MotionConfig)
    (out : List (System ℝ π) × List MotionConfig) (hz : ℝ) :
    Py (List (System ℝ π) × List MotionConfig) :=
  if hz = 0 then .error .zeroDivision
  else if _sys.dt = 0 then .error .zeroDivision
  else
    let dt := 1 / hz
    let T := (T_global / _sys.dt) * dt
    .ok (out.1 ++ [{ _sys with dt := dt }], out.2 ++ [{ _config with T := T }])

/-- `/repo/src/ring/utils/randomize_sys.py:80-105` `randomize_hz`; the warnings are left out. The
assertion `len(set(Ts))` only asks for at least one configuration. -/
noncomputable def randomize_hz {π : Type} (sys : List (System ℝ π)) (configs : List MotionConfig)
    (sampling_rates : List ℝ) : Py (List (System ℝ π) × List MotionConfig) := do
  let Ts := configs.map (·.T)
  pyAssert (Ts.length ≠ 0)
  let T_global ← pyGet Ts 0
  sys.foldlM (fun out _sys => configs.foldlM (fun out _config =>
    sampling_rates.foldlM (hzStep T_global _sys _config) out) out) ([], [])

/-- `min(hzs)` -/
noncomputable def pyMin : List ℝ → Py ℝ
  | [] => .error .value
  | a :: as => .ok (as.foldl min a)

open Classical in
/-- `int(x)`: rounding towards zero -/
noncomputable def pyInt (x : ℝ) : Int := if 0 ≤ x then ⌊x⌋ else ⌈x⌉

open Classical in
/-- `/repo/src/ring/algorithms/generator/base.py:392-395`: how many samples are drawn when the
sampling rate is random, `int(min(hzs) * config[0].T)` -/
noncomputable def hzSamples (hzs : List ℝ) (config : List MotionConfig) : Py Int := do
  pyAssert ((config.map (·.T)).dedup.length = 1)
  let m ← pyMin hzs
  let T ← pyGet (config.map (·.T)) 0
  pure (pyInt (m * T))

/-- `/repo/src/ring/algorithms/generator/base.py:397`, `1 / jax.random.choice(consume, hzs)`: one of
the rates is picked uniformly. -/
noncomputable def hzDt {K : Type} (R : Rng K) (key : K) (hzs : List ℝ) : ℝ :=
  1 / hzs.getD (R.randint key 0 hzs.length) 0

end generator
end RingLib
