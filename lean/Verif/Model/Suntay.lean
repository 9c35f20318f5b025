import Mathlib.Analysis.SpecialFunctions.Pow.Real
import Verif.Model.MotionConfig
import Verif.Model.Registry
import Verif.Model.Setup

/-!
# The knee joint of `/repo/src/ring/algorithms/custom_joints/suntay.py`

One flexion angle drives the three rotations and three translations of a knee; the other five
quantities are randomly drawn functions of the flexion angle.

Numbers are exact. A division by zero, which gives NaN in JAX, gives zero here; the theorems have
hypotheses that exclude it.
-/

namespace RingLib.suntay
open maths jcalc random

variable {K P ν γ : Type}

/-- `/repo/src/ring/algorithms/custom_joints/suntay.py:28-29` `deg2rad`, with the digits of the
source -/
noncomputable def deg2rad (deg : ℝ) : ℝ := deg / 180 * 3.1415926535

/-! ## restricting values to an interval -/

/-- `/repo/src/ring/algorithms/custom_joints/suntay.py:484-485` `_shift` -/
noncomputable def _shift (y mn mx : ℝ) : ℝ := (y - mn) / (mx - mn)

/-- `/repo/src/ring/algorithms/custom_joints/suntay.py:488-489` `_shift_inv` -/
def _shift_inv (y mn mx : ℝ) : ℝ := y * (mx - mn) + mn

/-- `/repo/src/ring/algorithms/custom_joints/suntay.py:493-496`: `jnp.min(ys)`, or the smaller one of
it and the given number -/
def lowest : Option ℝ → List ℝ → ℝ
  | some amin, ys => ys.foldr min amin
  | none, [] => 0
  | none, y :: ys => ys.foldr min y

/-- `/repo/src/ring/algorithms/custom_joints/suntay.py:497-500`, the same for the maximum -/
def highest : Option ℝ → List ℝ → ℝ
  | some amax, ys => ys.foldr max amax
  | none, [] => 0
  | none, y :: ys => ys.foldr max y

/-- `/repo/src/ring/algorithms/custom_joints/suntay.py:492-501` `_normalize` -/
noncomputable def _normalize (ys : List ℝ) (amin amax : Option ℝ) : List ℝ :=
  ys.map (_shift · (lowest amin ys) (highest amax ys))

/-- `/repo/src/ring/algorithms/custom_joints/suntay.py:504-507` `_smoothclamp` -/
noncomputable def _smoothclamp (x mi mx : ℝ) : ℝ :=
  let t := (x - mi) / (mx - mi)
  mi + (mx - mi) * (if t < 0 then 0 else if t ≤ 1 then 3 * t ^ 2 - 2 * t ^ 3 else 1)

/-- `/repo/src/ring/algorithms/custom_joints/suntay.py:510-513` `_sigmoidclamp` -/
noncomputable def _sigmoidclamp (x mi mx : ℝ) : ℝ :=
  let t := (x - mi) / (mx - mi)
  mi + (mx - mi) * (1 + (200 : ℝ) ^ (-t + 0.5))⁻¹

/-- `jax.nn.sigmoid` -/
noncomputable def sigmoid (x : ℝ) : ℝ := 1 / (1 + Real.exp (-x))

/-- the methods of `restrict` -/
inductive Method | minmax | clip | smoothclamp | sigmoidclamp | sigmoid (stepness : ℝ)

/-- `/repo/src/ring/algorithms/custom_joints/suntay.py:525-546`: the strings that `restrict` compares
with -/
def Method.ofName (method : String) (stepness : ℝ := 3) : Py Method :=
  if method = "minmax" then .ok .minmax
  else if method = "clip" then .ok .clip
  else if method = "smoothclamp" then .ok .smoothclamp
  else if method = "sigmoidclamp" then .ok .sigmoidclamp
  else if method = "sigmoid" then .ok (.sigmoid stepness)
  else .error .notImplemented

/-- `/repo/src/ring/algorithms/custom_joints/suntay.py:516-546` `restrict` of a vector -/
noncomputable def restrict (ys : List ℝ) (mn mx : ℝ) (actual_min actual_max : Option ℝ := none)
    (method : Method := .minmax) : List ℝ :=
  match method with
  | .minmax => (_normalize ys actual_min actual_max).map (_shift_inv · mn mx)
  | .clip => ys.map fun y => min (max y mn) mx
  | .smoothclamp => ys.map (_smoothclamp · mn mx)
  | .sigmoidclamp => ys.map (_sigmoidclamp · mn mx)
  | .sigmoid stepness =>
    let ys := _normalize ys actual_min actual_max
    let ys := ys.map (_shift_inv · (-stepness) stepness)
    let ys := ys.map suntay.sigmoid
    ys.map (_shift_inv · mn mx)

/-- `restrict` of a single number, which is its own minimum and maximum -/
noncomputable def restrict1 (y mn mx : ℝ) (actual_min actual_max : Option ℝ)
    (method : Method) : ℝ :=
  (restrict [y] mn mx actual_min actual_max method).headD 0

/-! ## randomly drawn functions -/

/-- `/repo/src/ring/algorithms/custom_joints/suntay.py:17-21` `DrawnFnPair` -/
structure DrawnFnPair (K P : Type) where
  init : K → P
  apply : P → ℝ → ℝ

/-- the variables `flexion_center` of the factories that were made so far, which the factories write
to (`nonlocal`) -/
abbrev Cells := Nat → Option ℝ

/-- `/repo/src/ring/algorithms/custom_joints/suntay.py:24-25` `DrawnFnPairFactory` -/
abbrev DrawnFnPairFactory (K P : Type) := List ℝ → ℝ → ℝ → StateM Cells (DrawnFnPair K P)

/-- `jnp.interp` -/
noncomputable def interp (x : ℝ) (xp fp : List ℝ) : ℝ :=
  let i := interval xp x
  let dx := jaxGet 0 xp i - jaxGet 0 xp (i - 1)
  let alpha := (x - jaxGet 0 xp (i - 1)) / dx
  let f := if dx = 0 then jaxGet 0 fp i
    else (1 - alpha) * jaxGet 0 fp (i - 1) + alpha * jaxGet 0 fp i
  if x < jaxGet 0 xp 0 then jaxGet 0 fp 0
  else if x > jaxGet 0 xp (-1) then jaxGet 0 fp (-1) else f

/-- `/repo/src/ring/algorithms/custom_joints/suntay.py:480-481` `_rbf_kernel` -/
noncomputable def _rbf_kernel (x1 x2 length : ℝ) : ℝ :=
  Real.exp (-((x1 - x2) ^ 2) / (2 * length ^ 2))

/-- `/repo/src/ring/algorithms/custom_joints/suntay.py:470-477` `_gp_K` -/
def _gp_K (kernel : ℝ → ℝ → ℝ) (xs : List ℝ) (noise : ℝ) : List (List ℝ) :=
  (List.range xs.length).map fun i => (List.range xs.length).map fun j =>
    kernel (xs.getD i 0) (xs.getD j 0) + if i = j then noise else 0

/-- `/repo/src/ring/algorithms/custom_joints/suntay.py:461-467` `_gp_draw`; `mvn` is
`jax.random.multivariate_normal` with key, mean and covariance -/
noncomputable def _gp_draw (mvn : K → List ℝ → List (List ℝ) → List ℝ) (key : K) (xs : List ℝ)
    (ys : Option (List ℝ)) (length : ℝ) (noise : ℝ := 0) : List ℝ :=
  let ys := ys.getD (xs.map fun _ => 0)
  let cov := _gp_K (fun x1 x2 => _rbf_kernel x1 x2 length) xs noise
  mvn key ys cov

/-- `/repo/src/ring/algorithms/custom_joints/suntay.py:453-458` `_gp_draw_and_rom` -/
noncomputable def _gp_draw_and_rom (mvn : K → List ℝ → List (List ℝ) → List ℝ) (key : K)
    (xs : List ℝ) (ys : Option (List ℝ)) (length_scale mn mx amin amax : ℝ) : List ℝ :=
  let randomized_ys := _gp_draw mvn key xs ys length_scale
  let (amin, amax) := match ys with
    | some ys => (amin + lowest none ys, amax + highest none ys)
    | none => (amin, amax)
  restrict randomized_ys mn mx (some amin) (some amax)

/-- `/repo/src/ring/algorithms/custom_joints/suntay.py:32-57` `GP_DrawFnPair`; the parameters are the
two arrays -/
noncomputable def GP_DrawFnPair (mvn : K → List ℝ → List (List ℝ) → List ℝ)
    (length_scale : ℝ := 1.4) (large_abs_values_of_gps : ℝ := 0.25) :
    DrawnFnPairFactory K (List ℝ × List ℝ) := fun xs mn mx => pure
  { init := fun key => (xs, _gp_draw_and_rom mvn key xs none length_scale mn mx
      (-large_abs_values_of_gps) large_abs_values_of_gps)
    apply := fun params q => interp q params.1 params.2 }

/-- `/repo/src/ring/algorithms/custom_joints/suntay.py:298-306` `_scale_delta` -/
noncomputable def _scale_delta (R : Rng K) (method : String) (key : K) : Py ℝ :=
  if method = "normal" then .ok (max (R.normal key 1 0 + 0.5) 1)
  else if method = "uniform" then .ok (1 / (R.uniform key + 1e-2))
  else .error .notImplemented

/-- the parameters of a polynomial: `amin, amax, poly_factors, q0` -/
structure PolyParams where
  amin : ℝ
  amax : ℝ
  poly_factors : List ℝ
  q0 : ℝ

/-- `/repo/src/ring/algorithms/custom_joints/suntay.py:335-336` `_apply_poly_factors` -/
def _apply_poly_factors (powers : List Nat) (poly_factors : List ℝ) (q : ℝ) : ℝ :=
  (List.zipWith (fun f k => f * q ^ k) poly_factors powers).sum

/-- `/repo/src/ring/algorithms/custom_joints/suntay.py:325-327`: the exponents -/
def powersOf (order : Nat) (include_bias : Bool) : List Nat :=
  if include_bias then List.range (order + 1) else (List.range (order + 1)).drop 1

/-- `/repo/src/ring/algorithms/custom_joints/suntay.py:338-339`, `:412-415`: the centre is computed by
the first call of the factory and kept for all others -/
noncomputable def centreOf (cell : Nat) (flexion_mn flexion_mx : ℝ) : StateM Cells ℝ := fun m =>
  match m cell with
  | some c => (c, m)
  | none =>
    let c := (flexion_mn + flexion_mx) / 2
    (c, fun i => if i = cell then some c else m i)

/-- `/repo/src/ring/algorithms/custom_joints/suntay.py:348-365` `init` of a polynomial. `scale` is the
`_scale_delta` of the third key, one if that is not enabled. -/
noncomputable def poly_init (R : Rng K) (scale : K → ℝ) (powers : List Nat) (xs : List ℝ)
    (minval maxval : ℝ) (key : K) : PolyParams :=
  let c1 := R.split key 3 0
  let c2 := R.split key 3 1
  let c3 := R.split key 3 2
  let poly_factors := (List.range powers.length).map fun i =>
    scaleU (R.uniformN c1 powers.length i) minval maxval
  let q0 := R.uniformIn c2 (lowest none xs) (highest none xs)
  let values := xs.map fun x => _apply_poly_factors powers poly_factors (x - q0)
  let eps := 1e-6
  let amin := lowest none values
  let amax := highest none values + eps
  let delta := amax - amin
  let amax := amin + delta * scale c3
  ⟨amin, amax, poly_factors, q0⟩

/-- `/repo/src/ring/algorithms/custom_joints/suntay.py:367-371` `_apply` of a polynomial -/
noncomputable def poly_apply (powers : List Nat) (mn mx : ℝ) (method : Method) (params : PolyParams)
    (q : ℝ) : ℝ :=
  let q := q - params.q0
  let value := _apply_poly_factors powers params.poly_factors q
  restrict1 value mn mx (some params.amin) (some params.amax) method

/-- `/repo/src/ring/algorithms/custom_joints/suntay.py:373-379`, `:440-446`: the function, or its
difference to its value at the centre -/
def centredFn (center : Bool) (apply : P → ℝ → ℝ) (flexion_center : ℝ) : P → ℝ → ℝ :=
  if center then fun params q => apply params q - apply params flexion_center else apply

/-- `/repo/src/ring/algorithms/custom_joints/suntay.py:309-383` `Polynomial_DrawnFnPair`. The variable
`flexion_center` is `cell`, which holds `jnp.deg2rad(flexion_center_deg)` if that was given. -/
noncomputable def Polynomial_DrawnFnPair (R : Rng K) (scale : K → ℝ) (cell : Nat) (order : Nat := 2)
    (center : Bool := false) (include_bias : Bool := true) :
    DrawnFnPairFactory K PolyParams := fun xs mn mx => do
  let powers := powersOf order include_bias
  let flexion_center ← centreOf cell (lowest none xs) (highest none xs)
  let method := if order = 0 then Method.clip else .minmax
  let minval := if order = 0 then mn else -1
  let maxval := if order = 0 then mx else 1
  pure { init := poly_init R scale powers xs minval maxval
         apply := centredFn center (poly_apply powers mn mx method) flexion_center }

/-- `/repo/src/ring/algorithms/custom_joints/suntay.py:386-399` `ConstantValue_DrawnFnPair` -/
def ConstantValue_DrawnFnPair (value : ℝ) : DrawnFnPairFactory K Unit := fun _ _ _ => pure
  { init := fun _ => (), apply := fun _ _ => value }

/-- `/repo/src/ring/algorithms/custom_joints/suntay.py:402-450` `MLP_DrawnFnPair`; `mlp_init` and
`mlp` are the network (parameters and input between -0.5 and 0.5 to a number) -/
noncomputable def MLP_DrawnFnPair (mlp_init : K → P) (mlp : P → ℝ → ℝ) (cell : Nat)
    (center : Bool := false) : DrawnFnPairFactory K P := fun xs mn mx => do
  let flexion_mn := lowest none xs
  let flexion_mx := highest none xs
  let flexion_center ← centreOf cell flexion_mn flexion_mx
  let _apply := fun params q =>
    _shift_inv (suntay.sigmoid (mlp params (_shift q flexion_mn flexion_mx - 0.5))) mn mx
  pure { init := mlp_init, apply := centredFn center _apply flexion_center }

/-! ## the joint -/

/-- `/repo/src/ring/algorithms/custom_joints/suntay.py:61-87` `SuntayConfig`. The restriction method
is already looked up (a wrong name raises when the joint is used). -/
structure SuntayConfig (K P : Type) where
  flexion_rot_min : ℝ := -deg2rad 5
  flexion_rot_max : ℝ := deg2rad 95
  flexion_rot_restrict_method : Method := .minmax
  flexion_pos_min : ℝ := -0.015
  flexion_pos_max : ℝ := 0.015
  flexion_pos_factory : DrawnFnPairFactory K P
  abduction_rot_min : ℝ := deg2rad (-4)
  abduction_rot_max : ℝ := deg2rad 4
  abduction_rot_factory : DrawnFnPairFactory K P
  abduction_pos_min : ℝ := -0.015
  abduction_pos_max : ℝ := 0.015
  abduction_pos_factory : DrawnFnPairFactory K P
  external_rot_min : ℝ := deg2rad (-10)
  external_rot_max : ℝ := deg2rad 10
  external_rot_factory : DrawnFnPairFactory K P
  external_pos_min : ℝ := -0.06
  external_pos_max : ℝ := 0
  external_pos_factory : DrawnFnPairFactory K P
  num_points : Nat := 50
  mconfig : Option MotionConfig := none

/-- `jnp.linspace` -/
noncomputable def linspace (start stop : ℝ) (num : Nat) : List ℝ :=
  (List.range num).map fun i : Nat => start + (i : ℝ) * ((stop - start) / ((num : ℝ) - 1))

/-- `/repo/src/ring/algorithms/custom_joints/suntay.py:93-110`: the five functions, in the order in
which they are made -/
noncomputable def draw_fn_pairs (sconfig : SuntayConfig K P) :
    StateM Cells (Dict (DrawnFnPair K P)) := do
  let flexion_xs := linspace sconfig.flexion_rot_min sconfig.flexion_rot_max sconfig.num_points
  let s1 ← sconfig.flexion_pos_factory flexion_xs sconfig.flexion_pos_min sconfig.flexion_pos_max
  let beta ← sconfig.abduction_rot_factory flexion_xs sconfig.abduction_rot_min
    sconfig.abduction_rot_max
  let s2 ← sconfig.abduction_pos_factory flexion_xs sconfig.abduction_pos_min
    sconfig.abduction_pos_max
  let gamma ← sconfig.external_rot_factory flexion_xs sconfig.external_rot_min
    sconfig.external_rot_max
  let s3 ← sconfig.external_pos_factory flexion_xs sconfig.external_pos_min sconfig.external_pos_max
  pure [("ys_S1", s1), ("ys_beta", beta), ("ys_S2", s2), ("ys_gamma", gamma), ("ys_S3", s3)]

/-- `/repo/src/ring/algorithms/custom_joints/suntay.py:112-129` `_suntay_rotation_matrix_R_transpose_eq26` -/
noncomputable def _suntay_rotation_matrix_R_transpose_eq26 (alpha beta gamma : ℝ) : Mat3 ℝ :=
  let sin_alp := Real.sin alpha
  let sin_bet := Real.sin beta
  let sin_gam := Real.sin gamma
  let cos_alp := Real.cos alpha
  let cos_bet := Real.cos beta
  let cos_gam := Real.cos gamma
  Mat3.transpose
    ⟨cos_gam * sin_bet, sin_gam * sin_bet, cos_bet,
     -cos_alp * sin_gam - cos_gam * sin_alp * cos_bet,
     cos_alp * cos_gam - sin_gam * sin_alp * cos_bet,
     sin_bet * sin_alp,
     sin_alp * sin_gam - cos_gam * cos_alp * cos_bet,
     -cos_gam * sin_alp - cos_alp * cos_bet * sin_gam,
     cos_alp * sin_bet⟩

/-- `/repo/src/ring/algorithms/custom_joints/suntay.py:131-142` `_suntay_translation_vector_H_eq9` -/
noncomputable def _suntay_translation_vector_H_eq9 (alpha beta : ℝ) (S : Vec3 ℝ) : Vec3 ℝ :=
  let sin_alp := Real.sin alpha
  let sin_bet := Real.sin beta
  let cos_alp := Real.cos alpha
  let cos_bet := Real.cos beta
  let U : Mat3 ℝ := ⟨1, 0, cos_bet, 0, cos_alp, sin_alp * sin_bet, 0, -sin_alp, cos_alp * sin_bet⟩
  U.mulVec S

/-- `draw_fn_pairs[key].apply(params[key], q_flexion)`; both dictionaries have the five keys -/
def applyAt (pairs : Dict (DrawnFnPair K P)) (params : Dict P) (key : String) (q : ℝ) : ℝ :=
  match List.lookup key pairs, List.lookup key params with
  | some f, some p => f.apply p q
  | _, _ => 0

/-- `/repo/src/ring/algorithms/custom_joints/suntay.py:144-161` `_alpha_beta_gamma_S` -/
noncomputable def _alpha_beta_gamma_S (pairs : Dict (DrawnFnPair K P)) (q_flexion : List ℝ)
    (params : Dict P) : ℝ × ℝ × ℝ × Vec3 ℝ :=
  let q_flexion := q_flexion.getD 0 0
  let S : Vec3 ℝ := ⟨applyAt pairs params "ys_S1" q_flexion, applyAt pairs params "ys_S2" q_flexion,
    applyAt pairs params "ys_S3" q_flexion⟩
  let alpha := q_flexion
  let adduction := -applyAt pairs params "ys_beta" q_flexion
  let beta := Real.pi / 2 + adduction
  let gamma := applyAt pairs params "ys_gamma" q_flexion
  (alpha, beta, gamma, S)

/-- `/repo/src/ring/algorithms/custom_joints/suntay.py:163-178` `_utils_find_suntay_joint` -/
def _utils_find_suntay_joint (name : String) (link_names link_types : List String) : Py String :=
  match ((link_names.zip link_types).filter (·.2 = name)).map (·.1) with
  | [] => .error .other
  | [n] => .ok n
  | _ :: _ :: _ => .error .other

/-- `/repo/src/ring/algorithms/custom_joints/suntay.py:195-201` `_Q_S_H_alpha_beta_gamma_from_q_flexion`, one time step: `Q`, `S`, `H` and the angles -/
noncomputable def _Q_S_H_alpha_beta_gamma (pairs : Dict (DrawnFnPair K P)) (params : Dict P)
    (q_flexion : List ℝ) : Vec3 ℝ × Vec3 ℝ × Vec3 ℝ × ℝ × ℝ × ℝ :=
  let (alpha, beta, gamma, S) := _alpha_beta_gamma_S pairs q_flexion params
  let cos_bet := Real.cos beta
  let Q : Vec3 ℝ := ⟨S.x + S.z * cos_bet, S.y, -S.z - S.x * cos_bet⟩
  let H := _suntay_translation_vector_H_eq9 alpha beta S
  (Q, S, H, alpha, beta, gamma)

/-- `/repo/src/ring/algorithms/custom_joints/suntay.py:205-214` `_transform_suntay` -/
noncomputable def _transform_suntay (pairs : Dict (DrawnFnPair K P)) (q_flexion : List ℝ)
    (params : Dict P) : Transform ℝ :=
  let (alpha, beta, gamma, S) := _alpha_beta_gamma_S pairs q_flexion params
  let R_T := _suntay_rotation_matrix_R_transpose_eq26 alpha beta gamma
  let q_fem_tib := quat_from_3x3 R_T
  let H := _suntay_translation_vector_H_eq9 alpha beta S
  ⟨H, q_fem_tib⟩

/-- `/repo/src/ring/algorithms/custom_joints/suntay.py:216-222` `_init_joint_params_suntay` -/
def _init_joint_params_suntay (R : Rng K) : Dict (DrawnFnPair K P) → K → Dict P
  | [], _ => []
  | (params_name, pair) :: rest, key =>
    (params_name, pair.init (R.split key 2 1)) :: _init_joint_params_suntay R rest (R.split key 2 0)

/-- `/repo/src/ring/algorithms/custom_joints/suntay.py:266-274` `_apply_rom` -/
noncomputable def _apply_rom (sconfig : SuntayConfig K P) (qs_flexion : List ℝ) : List ℝ :=
  restrict qs_flexion sconfig.flexion_rot_min sconfig.flexion_rot_max (some (-Real.pi))
    (some Real.pi) sconfig.flexion_rot_restrict_method

/-- `/repo/src/ring/algorithms/custom_joints/suntay.py:276-278` `coordinate_vector_to_q_suntay` -/
noncomputable def coordinate_vector_to_q_suntay (sconfig : SuntayConfig K P) (q_flexion : List ℝ) :
    List ℝ :=
  let q_flexion := q_flexion.map wrap_to_pi
  _apply_rom sconfig q_flexion

/-- the arguments of `random_angle_over_time` at
`/repo/src/ring/algorithms/custom_joints/suntay.py:243-263`. The call does not pass `rom_halfsize`, so
from there on every argument is taken for the one before: `cdf_bins_min` is the range of motion. -/
def flexionArgs (mconfig : MotionConfig) (ANG_0 dt : ℝ) (N : Option Nat) : AngleArgs where
  ANG_0 := ANG_0
  dang_min := mconfig.dang_min.at
  dang_max := mconfig.dang_max.at
  delta_ang_min := mconfig.delta_ang_min.at
  delta_ang_max := mconfig.delta_ang_max.at
  t_min := mconfig.t_min
  t_max := mconfig.t_max.at
  T := mconfig.T
  Ts := dt
  N := N
  max_iter := 5
  randomized_interpolation := mconfig.randomized_interpolation_angle
  range_of_motion := mconfig.range_of_motion_hinge
  range_of_motion_method := mconfig.range_of_motion_hinge_method
  rom_halfsize := fun _ => mconfig.cdf_bins_min

/-- `/repo/src/ring/algorithms/custom_joints/suntay.py:224-264` `_draw_flexion_angle`. With
`randomized_interpolation_angle`, `interpolate` gets `cdf_bins_max` for `cdf_bins_min` and the string
`interpolation_method` for `cdf_bins_max`; it compares the two, which is a `TypeError`. -/
noncomputable def _draw_flexion_angle (R : Rng K) (sconfig : SuntayConfig K P)
    (mconfig : MotionConfig) (key_t key_value : K) (dt : ℝ) (N : Option Nat) :
    Py (Option (List ℝ)) :=
  let consume := R.split key_value 2 1
  let key_value := R.split key_value 2 0
  let mconfig := sconfig.mconfig.getD mconfig
  let ANG_0 := R.uniformIn consume mconfig.ang0_min mconfig.ang0_max
  let ANG_0 := wrap_to_pi ANG_0
  if mconfig.randomized_interpolation_angle then .error .type
  else .ok ((random_angle_over_time R (flexionArgs mconfig ANG_0 dt N) key_t key_value).map
    (_apply_rom sconfig))

/-- signature of `rcmg_draw_fn` after the config -/
abbrev DrawFn (K : Type) := K → K → ℝ → Option Nat → Py (Option (List (List ℝ)))

/-- `/repo/src/ring/algorithms/custom_joints/suntay.py:280-294` `joint_model` -/
noncomputable def suntay_model (R : Rng K) (sconfig : SuntayConfig K P)
    (pairs : Dict (DrawnFnPair K P)) : RegModel ℝ (Dict P) MotionConfig (DrawFn K) where
  transform := _transform_suntay pairs
  motion := [fun _ => mr .x]
  p_control_term := some _p_control_term_rxyz
  coordinate_vector_to_q := some (coordinate_vector_to_q_suntay sconfig)
  inv_kin := none
  rcmg_draw_fn := fun mconfig key_t key_value dt N =>
    (_draw_flexion_angle R sconfig mconfig key_t key_value dt N).map (Option.map column)

/-- `/repo/src/ring/algorithms/custom_joints/suntay.py:90-295` `register_suntay`; the five functions
are made first -/
noncomputable def register_suntay (R : Rng K) (sconfig : SuntayConfig K P)
    (name : String := "suntay") (m : Cells) :
    Glob (Registry ℝ (Dict P) MotionConfig (DrawFn K) ν γ) Unit :=
  register_new_joint_type name (suntay_model R sconfig (draw_fn_pairs sconfig m).1) 1 none true

end RingLib.suntay
