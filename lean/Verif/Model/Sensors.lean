import Verif.Model.Algebra
import Verif.Model.Trig
import Verif.Model.Random
import Verif.Model.Py
import Verif.Model.Utils
import Mathlib.Algebra.Module.Basic

/-!
# Simulated IMUs

`/repo/src/ring/algorithms/sensors.py:1-280,480-591` and the filters and random quaternions of
`/repo/src/ring/maths.py`.

* A signal of shape `(T, 3)` is a list of vectors; `_moving_average` and `_butterworth` act on rows
  of any shape, hence on lists over an arbitrary real vector space.
* Reading a row of an array without rows is an error (`.index`).
-/

namespace RingLib

instance : Module ℝ (Vec3 ℝ) where
  smul := Vec3.smul
  one_smul a := by ext <;> exact one_mul _
  mul_smul r s a := by ext <;> exact mul_assoc _ _ _
  smul_zero r := by ext <;> exact mul_zero _
  smul_add r a b := by ext <;> exact mul_add _ _ _
  add_smul r s a := by ext <;> exact add_mul _ _ _
  zero_smul a := by ext <;> exact zero_mul _

namespace maths

/-- One step of `quat_lowpassfilter`, `/repo/src/ring/maths.py:355-372`. -/
noncomputable def lowpassStep (alpha : ℝ) (y x : Quat ℝ) : Quat ℝ :=
  let q_err := quat_mul x (quat_inv y)
  let aa := quat_to_rot_axis q_err
  let aa := if aa.2 < 0 then (-aa.1, -aa.2) else aa
  let q_err_scaled := quat_rot_axis aa.1 (aa.2 * alpha)
  quat_mul q_err_scaled y

/-- `jax.lax.scan` of the step, all outputs -/
noncomputable def lowpassScan (alpha : ℝ) : Quat ℝ → List (Quat ℝ) → List (Quat ℝ)
  | _, [] => []
  | y, x :: xs => lowpassStep alpha y x :: lowpassScan alpha (lowpassStep alpha y x) xs

/-- `q / jnp.linalg.norm(q)` -/
noncomputable def quatNormalized (q : Quat ℝ) : Quat ℝ :=
  ⟨q.w / norm4 q, q.x / norm4 q, q.y / norm4 q, q.z / norm4 q⟩

/-- `alpha`, `/repo/src/ring/maths.py:352-353`. -/
noncomputable def lowpassAlpha (cutoff_freq samp_freq : ℝ) : ℝ :=
  let omega_times_Ts := 2 * Real.pi * cutoff_freq / samp_freq
  omega_times_Ts / (1 + omega_times_Ts)

/-- `/repo/src/ring/maths.py:352-380` `quat_lowpassfilter(…, filtfilt=False)`. -/
noncomputable def lowpassForward (qs : List (Quat ℝ)) (cutoff_freq samp_freq : ℝ) :
    Py (List (Quat ℝ)) :=
  match qs with
  | [] => .error .index
  | q0 :: qs =>
    .ok ((q0 :: lowpassScan (lowpassAlpha cutoff_freq samp_freq) q0 qs).map quatNormalized)

/-- `/repo/src/ring/maths.py:338-380` `quat_lowpassfilter`. -/
noncomputable def quat_lowpassfilter (qs : List (Quat ℝ)) (cutoff_freq : ℝ := 20)
    (samp_freq : ℝ := 100) (filtfilt : Bool := false) : Py (List (Quat ℝ)) :=
  if filtfilt then do
    let qs ← lowpassForward qs cutoff_freq samp_freq
    let qs ← lowpassForward qs.reverse cutoff_freq samp_freq
    pure qs.reverse
  else lowpassForward qs cutoff_freq samp_freq

open Classical in
/-- `/repo/src/ring/maths.py:196-209` `quat_random` without batch shape. -/
noncomputable def quat_random1 {K : Type} (R : Rng K) (key : K) (maxval : ℝ) : Quat ℝ :=
  let qs := safe_normalize4
    ⟨R.normal key 4 0, R.normal key 4 1, R.normal key 4 2, R.normal key 4 3⟩
  if maxval = Real.pi then qs
  else
    let aa := quat_to_rot_axis qs
    quat_rot_axis aa.1 (aa.2 * maxval / Real.pi)

end maths

namespace sensors
open maths

/-- `jnp.vectorize` over the leading axis of two arrays: axes of length one are broadcast, other
different lengths are a `ValueError`. -/
def broadcast2 {α β γ : Type} (f : α → β → γ) (a : List α) (b : List β) : Py (List γ) :=
  match a, b with
  | [x], b => .ok (b.map (f x))
  | a, [y] => .ok (a.map fun x => f x y)
  | a, b => if a.length = b.length then .ok (List.zipWith f a b) else .error .value

/-- `a[: -k]` -/
def dropEnd {α : Type} (a : List α) (k : Nat) : List α := if k = 0 then [] else a.take (a.length - k)

/-- `a[-k :]` -/
def takeEnd {α : Type} (a : List α) (k : Nat) : List α := if k = 0 then a else a.drop (a.length - k)

/-- the second differences plus gravity, `/repo/src/ring/algorithms/sensors.py:22-23` -/
noncomputable def accInner (pos : List (Vec3 ℝ)) (gravity : Vec3 ℝ) (dt : ℝ) (n : Nat) :
    List (Vec3 ℝ) :=
  (List.zipWith (fun s c => (1 / (n * dt) ^ 2 : ℝ) • (s - (2 : ℝ) • c))
    (List.zipWith (· + ·) (dropEnd pos (2 * n)) (pos.drop (2 * n)))
    ((dropEnd pos n).drop n)).map (· + gravity)

/-- `/repo/src/ring/algorithms/sensors.py:15-29` `accelerometer`. -/
noncomputable def accelerometer (xs : List (Transform ℝ)) (gravity : Vec3 ℝ) (dt : ℝ) (n : Nat) :
    Py (List (Vec3 ℝ)) :=
  let acc := accInner (xs.map Transform.pos) gravity dt n
  let acc := acc.take n ++ acc ++ takeEnd acc n
  broadcast2 rotate acc (xs.map Transform.rot)

open Classical in
/-- one row of `gyr`, `/repo/src/ring/algorithms/sensors.py:56-60` -/
noncomputable def gyrRow (dt : ℝ) (dq : Quat ℝ) : Vec3 ℝ :=
  let aa := quat_to_rot_axis dq
  if |aa.2| > 1e-10 then (aa.2 / dt) • aa.1 else 0

/-- `/repo/src/ring/algorithms/sensors.py:32-60` `gyroscope`. -/
noncomputable def gyroscope (rot : List (Quat ℝ)) (dt : ℝ) (second_order : Bool) :
    Py (List (Vec3 ℝ)) :=
  if second_order then
    let dq := List.zipWith quat_mul (rot.drop 2) ((dropEnd rot 2).map quat_inv)
    match dq.head?, dq.getLast? with
    | some a, some b => .ok ((a :: (dq ++ [b])).map (gyrRow (2 * dt)))
    | _, _ => .error .index
  else
    let dq := List.zipWith quat_mul (rot.drop 1) ((dropEnd rot 1).map quat_inv)
    match dq.getLast? with
    | some b => .ok ((dq ++ [b]).map (gyrRow dt))
    | none => .error .index

/-- `/repo/src/ring/algorithms/sensors.py:63-78` `_draw_random_magvec`. -/
noncomputable def _draw_random_magvec {K : Type} (R : Rng K) (key : K) : Vec3 ℝ :=
  let c1 := R.split key 2 0
  let c2 := R.split key 2 1
  let dip_angle := R.uniformIn c1 (-85) (-50) * Real.pi / 180
  let au : ℝ := 40e-6
  let norm := R.uniformIn c2 (15e-6 / au) (65e-6 / au)
  norm • ⟨0, Real.cos dip_angle, Real.sin dip_angle⟩

/-- `/repo/src/ring/algorithms/sensors.py:81-82` `magnetometer`. -/
def magnetometer (rot : List (Quat ℝ)) (magvec : Vec3 ℝ) : List (Vec3 ℝ) := rot.map (rotate magvec)

/-! ## Noise and bias -/

/-- `/repo/src/ring/algorithms/sensors.py:133` `NOISE_LEVELS`. -/
noncomputable def NOISE_LEVELS : Dict (Option ℝ) :=
  [("acc", some 0.048), ("gyr", some (0.7 * Real.pi / 180)), ("mag", some 0.01)]

/-- `/repo/src/ring/algorithms/sensors.py:134` `BIAS_LEVELS`. -/
noncomputable def BIAS_LEVELS : Dict (Option ℝ) :=
  [("acc", some 0.5), ("gyr", some (3 * Real.pi / 180)), ("mag", some 0)]

/-- `levels.get(sensor, DEFAULT[sensor])`; the default is looked up in any case. -/
noncomputable def levelOf (levels defaults : Dict (Option ℝ)) (sensor : String) : Py (Option ℝ) := do
  let d ← pyDict defaults sensor
  pure ((levels.lookup sensor).getD d)

/-- `jax.random.normal(c1, shape=(T, 3)) * scale`, row `t` -/
noncomputable def noiseRow {K : Type} (R : Rng K) (c1 : K) (T : Nat) (scale : Option ℝ) (t : Nat) :
    Vec3 ℝ :=
  match scale with
  | none => 0
  | some s => s • ⟨R.normal c1 (3 * T) (3 * t), R.normal c1 (3 * T) (3 * t + 1),
      R.normal c1 (3 * T) (3 * t + 2)⟩

/-- `jax.random.uniform(c2, minval=-b, maxval=b, shape=(3,))` -/
noncomputable def biasRow {K : Type} (R : Rng K) (c2 : K) (bias : Option ℝ) : Vec3 ℝ :=
  match bias with
  | none => 0
  | some b => ⟨scaleU (R.uniformN c2 3 0) (-b) b, scaleU (R.uniformN c2 3 1) (-b) b,
      scaleU (R.uniformN c2 3 2) (-b) b⟩

/-- The loop of `add_noise_bias`, `/repo/src/ring/algorithms/sensors.py:156-179`. -/
noncomputable def noiseLoop {K : Type} (R : Rng K) (noise_levels bias_levels : Dict (Option ℝ)) :
    K → Dict (List (Vec3 ℝ)) → Py (Dict (List (Vec3 ℝ)))
  | _, [] => .ok []
  | key, (sensor, arr) :: rest => do
    let c1 := R.split key 3 1
    let c2 := R.split key 3 2
    let noise_scale ← levelOf noise_levels NOISE_LEVELS sensor
    let bias_maxval ← levelOf bias_levels BIAS_LEVELS sensor
    let bias := biasRow R c2 bias_maxval
    let noisy := arr.mapIdx fun t a => a + noiseRow R c1 arr.length noise_scale t + bias
    let rest ← noiseLoop R noise_levels bias_levels (R.split key 3 0) rest
    pure ((sensor, noisy) :: rest)

/-- `/repo/src/ring/algorithms/sensors.py:137-179` `add_noise_bias`. -/
noncomputable def add_noise_bias {K : Type} (R : Rng K) (key : K) (imu : Dict (List (Vec3 ℝ)))
    (noise_levels bias_levels : Option (Dict (Option ℝ)) := none) : Py (Dict (List (Vec3 ℝ))) :=
  noiseLoop R (noise_levels.getD []) (bias_levels.getD []) key imu

/-! ## Smoothing -/

section
variable {V : Type} [AddCommGroup V] [Module ℝ V]

/-- `l.at[start : start + len(xs)].set(xs)` -/
def setSlice {α : Type} (l : List α) (start : Nat) (xs : List α) : List α :=
  l.take start ++ xs ++ l.drop (start + xs.length)

/-- `jnp.roll(l, i, axis=0)`: row `k` moves to row `k + i`, cyclically. -/
def roll {α : Type} (l : List α) (i : Int) : List α := l.rotate ((-i) % (l.length : Int)).toNat

/-- `arr_padded`, `/repo/src/ring/algorithms/sensors.py:484-488`. -/
def padEdges {α : Type} [Zero α] (arr : List α) (first last : α) (window : Nat) : List α :=
  let half_window := (window - 1) / 2
  let arr_smooth := List.replicate (arr.length + window - 1) 0
  let p := setSlice arr_smooth half_window arr
  let p := setSlice p 0 (List.replicate half_window first)
  setSlice p (p.length - half_window) (List.replicate half_window last)

/-- `/repo/src/ring/algorithms/sensors.py:480-494` `_moving_average`. -/
noncomputable def _moving_average (arr : List V) (window : Nat) : Py (List V) := do
  pyAssert (window % 2 = 1)
  pyAssert (window > 1)
  match arr.head?, arr.getLast? with
  | some first, some last =>
    let half_window := (window - 1) / 2
    let arr_padded := padEdges arr first last window
    let sum := (List.range (2 * half_window + 1)).foldl
      (fun s (k : Nat) => List.zipWith (· + ·) s (roll arr_padded ((k : Int) - half_window)))
      (List.replicate (arr.length + window - 1) 0)
    let arr_smooth := sum.map ((1 / (window : ℝ)) • ·)
    pure ((arr_smooth.take (arr.length + half_window)).drop half_window)
  | _, _ => .error .index

/-- `jnp.pad(arr, ((delay, 0), (0, 0)))[:-delay]`, `/repo/src/ring/algorithms/sensors.py:260-262`. -/
def delayBy (arr : List V) (delay : Nat) : List V := dropEnd (List.replicate delay 0 ++ arr) delay

/-! ## Filters for positions -/

/-- `(b0, b1, b2, a1, a2)`, `/repo/src/ring/algorithms/sensors.py:570-577`. -/
noncomputable def butterCoeffs (f_sampling f_cutoff : ℝ) : ℝ × ℝ × ℝ × ℝ × ℝ :=
  let ff := f_cutoff / f_sampling
  let ita := 1 / Real.tan (Real.pi * ff)
  let q := √2
  let b0 := 1 / (1 + q * ita + ita ^ 2)
  let b1 := 2 * b0
  let b2 := b0
  let a1 := 2 * (ita ^ 2 - 1) * b0
  let a2 := -(1 - q * ita + ita ^ 2) * b0
  (b0, b1, b2, a1, a2)

/-- the scan, `/repo/src/ring/algorithms/sensors.py:579-585` -/
def butterScan (c : ℝ × ℝ × ℝ × ℝ × ℝ) : V → V → V → V → List V → List V
  | _, _, _, _, [] => []
  | x1, x2, y1, y2, x :: xs =>
    let y := c.1 • x + c.2.1 • x1 + c.2.2.1 • x2 + c.2.2.2.1 • y1 + c.2.2.2.2 • y2
    y :: butterScan c x x1 y y1 xs

/-- One pass, `/repo/src/ring/algorithms/sensors.py:570-586`; a static index out of range is clamped
by `jax`, hence `signal[1]` of a signal with one sample is that sample. -/
noncomputable def butterPass (c : ℝ × ℝ × ℝ × ℝ × ℝ) (signal : List V) : Py (List V) :=
  match signal with
  | [] => .error .index
  | s0 :: rest =>
    let s1 := rest.head?.getD s0
    let out := butterScan c s1 s0 s1 s0 (rest.drop 1)
    .ok (out.take 1 ++ out.take 1 ++ out)

/-- `/repo/src/ring/algorithms/sensors.py:551-591` `_butterworth` (forward, then backward). -/
noncomputable def _butterworth (signal : List V) (f_sampling f_cutoff : ℝ) : Py (List V) := do
  let c := butterCoeffs f_sampling f_cutoff
  let signal ← butterPass c signal
  let signal ← butterPass c signal.reverse
  pure signal.reverse

/-- the scan of `_quasi_physical_simulation`, `/repo/src/ring/algorithms/sensors.py:534-547`; the
list carries positions and velocities of the zero point -/
def qpScan (damp stif dt : ℝ) : V → V → List (V × V) → List V
  | _, _, [] => []
  | pos, vel, z :: zs =>
    let acc := damp • (z.2 - vel) + stif • (z.1 - pos)
    let vel := vel + dt • acc
    let pos := pos + dt • vel
    pos :: qpScan damp stif dt pos vel zs

/-- `jnp.diff(a, axis=0)` -/
def diff (a : List V) : List V := List.zipWith (· - ·) (a.drop 1) a

/-- `/repo/src/ring/algorithms/sensors.py:529-548` `_quasi_physical_simulation`. -/
noncomputable def _quasi_physical_simulation (pos : List V) (dt : ℝ) : Py (List V) :=
  match pos with
  | [] => .error .index
  | p0 :: _ =>
    let zeropoint_vel := 0 :: (diff pos).map ((1 / dt) • ·)
    .ok (qpScan 35 625 dt p0 0 (List.zip pos zeropoint_vel))

end

/-! ## The sensor -/

/-- The arguments of `imu`, `/repo/src/ring/algorithms/sensors.py:182-199`. -/
structure ImuArgs (K : Type) where
  key : Option K := none
  noisy : Bool := false
  smoothen_degree : Option Nat := none
  delay : Option Nat := none
  random_s2s_ori : Option ℝ := none
  quasi_physical : Bool := false
  low_pass_filter_pos_f_cutoff : Option ℝ := none
  low_pass_filter_rot_cutoff : Option ℝ := none
  has_magnetometer : Bool := false
  magvec : Option (Vec3 ℝ) := none
  gyro_second_order : Bool := false
  natural_units : Bool := false
  acc_xinyuyi_n : Nat := 1

variable {K : Type}

/-- the random sensor orientation, `/repo/src/ring/algorithms/sensors.py:207-215` -/
noncomputable def imuOri (R : Rng K) (random_s2s_ori : Option ℝ) (key : Option K)
    (xs : List (Transform ℝ)) : Py (List (Transform ℝ) × Option K) :=
  match random_s2s_ori with
  | none => .ok (xs, key)
  | some m =>
    match key with
    | none => .error .assertion
    | some k =>
      let xs_s2s : Transform ℝ := ⟨0, quat_random1 R (R.split k 2 1) m⟩
      .ok (xs.map (algebra.transform_mul xs_s2s), some (R.split k 2 0))

/-- `xs.replace(pos=…)` -/
def replacePos (xs : List (Transform ℝ)) (pos : List (Vec3 ℝ)) : List (Transform ℝ) :=
  List.zipWith (fun x p => { x with pos := p }) xs pos

/-- `xs.replace(rot=…)` -/
def replaceRot (xs : List (Transform ℝ)) (rot : List (Quat ℝ)) : List (Transform ℝ) :=
  List.zipWith (fun x r => { x with rot := r }) xs rot

/-- `/repo/src/ring/algorithms/sensors.py:217-218` -/
noncomputable def imuQuasi (b : Bool) (dt : ℝ) (xs : List (Transform ℝ)) : Py (List (Transform ℝ)) :=
  if b then do
    let pos ← _quasi_physical_simulation (xs.map Transform.pos) dt
    pure (replacePos xs pos)
  else .ok xs

/-- `/repo/src/ring/algorithms/sensors.py:220-225` -/
noncomputable def imuLowpassPos (f_cutoff : Option ℝ) (dt : ℝ) (xs : List (Transform ℝ)) :
    Py (List (Transform ℝ)) :=
  match f_cutoff with
  | none => .ok xs
  | some f => do
    let pos ← _butterworth (xs.map Transform.pos) (1 / dt) f
    pure (replacePos xs pos)

/-- `/repo/src/ring/algorithms/sensors.py:227-232` -/
noncomputable def imuLowpassRot (cutoff : Option ℝ) (dt : ℝ) (xs : List (Transform ℝ)) :
    Py (List (Transform ℝ)) :=
  match cutoff with
  | none => .ok xs
  | some f => do
    let rot ← quat_lowpassfilter (xs.map Transform.rot) f (1 / dt)
    pure (replaceRot xs rot)

/-- the magnetometer channel, `/repo/src/ring/algorithms/sensors.py:239-244` -/
noncomputable def imuMag (R : Rng K) (has_magnetometer : Bool) (magvec : Option (Vec3 ℝ))
    (key : Option K) (xs : List (Transform ℝ)) : Py (Dict (List (Vec3 ℝ)) × Option K) :=
  if has_magnetometer then
    match magvec, key with
    | some v, key => .ok ([("mag", magnetometer (xs.map Transform.rot) v)], key)
    | none, none => .error .assertion
    | none, some k =>
      .ok ([("mag", magnetometer (xs.map Transform.rot) (_draw_random_magvec R (R.split k 2 1)))],
        some (R.split k 2 0))
  else .ok ([], key)

/-- `jax.tree_map(f, measurements)` -/
def mapChannels (f : List (Vec3 ℝ) → Py (List (Vec3 ℝ))) (m : Dict (List (Vec3 ℝ))) :
    Py (Dict (List (Vec3 ℝ))) :=
  m.mapM fun kv => do
    let v ← f kv.2
    pure (kv.1, v)

/-- smoothing and the delay it implies, `/repo/src/ring/algorithms/sensors.py:246-257` -/
noncomputable def imuSmooth (smoothen_degree delay : Option Nat) (m : Dict (List (Vec3 ℝ))) :
    Py (Dict (List (Vec3 ℝ)) × Option Nat) :=
  match smoothen_degree with
  | none => .ok (m, delay)
  | some w => do
    let m ← mapChannels (_moving_average · w) m
    pure (m, some (delay.getD ((w - 1) / 2)))

/-- `/repo/src/ring/algorithms/sensors.py:259-262` -/
def imuDelay (delay : Option Nat) (m : Dict (List (Vec3 ℝ))) : Dict (List (Vec3 ℝ)) :=
  match delay with
  | some d => if d > 0 then m.map fun kv => (kv.1, delayBy kv.2 d) else m
  | none => m

/-- `/repo/src/ring/algorithms/sensors.py:264-266` -/
noncomputable def imuNoise (R : Rng K) (noisy : Bool) (key : Option K) (m : Dict (List (Vec3 ℝ))) :
    Py (Dict (List (Vec3 ℝ))) :=
  if noisy then
    match key with
    | none => .error .assertion
    | some k => add_noise_bias R k m
  else .ok m

/-- `/repo/src/ring/algorithms/sensors.py:274-276` `_rescale_natural_units_fns`. -/
noncomputable def unitFactor (sensor : String) : ℝ :=
  if sensor = "gyr" then 1 / Real.pi else if sensor = "acc" then 1 / 9.81 else 1

/-- `/repo/src/ring/algorithms/sensors.py:279-280` `rescale_natural_units`. -/
noncomputable def rescale_natural_units (m : Dict (List (Vec3 ℝ))) : Dict (List (Vec3 ℝ)) :=
  m.map fun kv => (kv.1, kv.2.map (unitFactor kv.1 • ·))

/-- `/repo/src/ring/algorithms/sensors.py:182-271` `imu`. -/
noncomputable def imu (R : Rng K) (xs : List (Transform ℝ)) (gravity : Vec3 ℝ) (dt : ℝ)
    (a : ImuArgs K) : Py (Dict (List (Vec3 ℝ))) := do
  let o ← imuOri R a.random_s2s_ori a.key xs
  let xs ← imuQuasi a.quasi_physical dt o.1
  let xs ← imuLowpassPos a.low_pass_filter_pos_f_cutoff dt xs
  let xs ← imuLowpassRot a.low_pass_filter_rot_cutoff dt xs
  let acc ← accelerometer xs gravity dt a.acc_xinyuyi_n
  let gyr ← gyroscope (xs.map Transform.rot) dt a.gyro_second_order
  let mag ← imuMag R a.has_magnetometer a.magvec o.2 xs
  let s ← imuSmooth a.smoothen_degree a.delay ([("acc", acc), ("gyr", gyr)] ++ mag.1)
  let m ← imuNoise R a.noisy mag.2 (imuDelay s.2 s.1)
  pure (if a.natural_units then rescale_natural_units m else m)

end sensors
end RingLib
