import Verif.Model.Random
import Verif.Model.Jcalc

/-!
# Motion configurations and drawing joint trajectories: `/repo/src/ring/algorithms/jcalc.py`

The strings `range_of_motion_hinge_method` and `interpolation_method` are given by their meaning
(`RomMethod`, `InterpMethod`); other strings raise `NotImplementedError` when used.
-/

namespace RingLib
namespace jcalc
local notation "π" => Real.pi
open random maths

/-- `float | TimeDependentFloat` -/
inductive TDF where
  | const (x : ℝ)
  | fn (f : ℝ → ℝ)

/-- `/repo/src/ring/algorithms/_random.py:14-17` `_to_float` -/
def TDF.at : TDF → ℝ → ℝ
  | .const x, _ => x
  | .fn f, t => f t

/-- an entry of a numeric array -/
def TDF.number : TDF → Py ℝ
  | .const x => .ok x
  | .fn _ => .error .type

/-- values of the fields that do not depend on time -/
inductive FVal where
  | num (x : ℝ)
  | int (n : Option Nat)
  | bool (b : Bool)
  | rom (m : RomMethod)
  | interp (m : InterpMethod)
  | dict (d : List (String × List (String × ℝ)))

/-- a `dict` can not be put into a `set` -/
def FVal.hashable : FVal → Bool
  | .dict _ => false
  | _ => true

/-- `/repo/src/ring/algorithms/jcalc.py:21-196` `MotionConfig` -/
structure MotionConfig where
  T : ℝ := 60
  t_min : ℝ := 0.05
  t_max : TDF := .const 0.30
  dang_min : TDF := .const 0.1
  dang_max : TDF := .const 3
  dang_min_free_spherical : TDF := .const 0.1
  dang_max_free_spherical : TDF := .const 3
  delta_ang_min : TDF := .const 0
  delta_ang_max : TDF := .const (2 * π)
  delta_ang_min_free_spherical : TDF := .const 0
  delta_ang_max_free_spherical : TDF := .const (2 * π)
  dpos_min : TDF := .const 0.001
  dpos_max : TDF := .const 0.7
  pos_min : TDF := .const (-2.5)
  pos_max : TDF := .const 2.5
  pos_min_p3d_x : TDF := .const (-2.5)
  pos_max_p3d_x : TDF := .const 2.5
  pos_min_p3d_y : TDF := .const (-2.5)
  pos_max_p3d_y : TDF := .const 2.5
  pos_min_p3d_z : TDF := .const (-2.5)
  pos_max_p3d_z : TDF := .const 2.5
  cdf_bins_min : Nat := 5
  cdf_bins_max : Option Nat := none
  randomized_interpolation_angle : Bool := false
  randomized_interpolation_position : Bool := false
  interpolation_method : InterpMethod := .cosine
  range_of_motion_hinge : Bool := true
  range_of_motion_hinge_method : RomMethod := .uniform
  rom_halfsize : TDF := .const (2 * π)
  ang0_min : ℝ := -π
  ang0_max : ℝ := π
  pos0_min : ℝ := 0
  pos0_max : ℝ := 0
  pos0_min_p3d_x : ℝ := 0
  pos0_max_p3d_x : ℝ := 0
  pos0_min_p3d_y : ℝ := 0
  pos0_max_p3d_y : ℝ := 0
  pos0_min_p3d_z : ℝ := 0
  pos0_max_p3d_z : ℝ := 0
  cor_t_min : ℝ := 0.2
  cor_t_max : TDF := .const 2
  cor_dpos_min : TDF := .const 0.00001
  cor_dpos_max : TDF := .const 0.5
  cor_pos_min : TDF := .const (-0.4)
  cor_pos_max : TDF := .const 0.4
  cor_pos0_min : ℝ := 0
  cor_pos0_max : ℝ := 0
  joint_type_specific_overwrites : List (String × List (String × ℝ)) := []

/-- a field annotated `float | TimeDependentFloat`: its value and how to replace it -/
structure TDField where
  name : String
  get : MotionConfig → TDF
  set : TDF → MotionConfig → MotionConfig

/-- the fields annotated `float | TimeDependentFloat`, in order -/
def timeDependentFields : List TDField :=
  [⟨"t_max", (·.t_max), fun v c => { c with t_max := v }⟩,
   ⟨"dang_min", (·.dang_min), fun v c => { c with dang_min := v }⟩,
   ⟨"dang_max", (·.dang_max), fun v c => { c with dang_max := v }⟩,
   ⟨"dang_min_free_spherical", (·.dang_min_free_spherical), fun v c => { c with dang_min_free_spherical := v }⟩,
   ⟨"dang_max_free_spherical", (·.dang_max_free_spherical), fun v c => { c with dang_max_free_spherical := v }⟩,
   ⟨"delta_ang_min", (·.delta_ang_min), fun v c => { c with delta_ang_min := v }⟩,
   ⟨"delta_ang_max", (·.delta_ang_max), fun v c => { c with delta_ang_max := v }⟩,
   ⟨"delta_ang_min_free_spherical", (·.delta_ang_min_free_spherical), fun v c => { c with delta_ang_min_free_spherical := v }⟩,
   ⟨"delta_ang_max_free_spherical", (·.delta_ang_max_free_spherical), fun v c => { c with delta_ang_max_free_spherical := v }⟩,
   ⟨"dpos_min", (·.dpos_min), fun v c => { c with dpos_min := v }⟩,
   ⟨"dpos_max", (·.dpos_max), fun v c => { c with dpos_max := v }⟩,
   ⟨"pos_min", (·.pos_min), fun v c => { c with pos_min := v }⟩,
   ⟨"pos_max", (·.pos_max), fun v c => { c with pos_max := v }⟩,
   ⟨"pos_min_p3d_x", (·.pos_min_p3d_x), fun v c => { c with pos_min_p3d_x := v }⟩,
   ⟨"pos_max_p3d_x", (·.pos_max_p3d_x), fun v c => { c with pos_max_p3d_x := v }⟩,
   ⟨"pos_min_p3d_y", (·.pos_min_p3d_y), fun v c => { c with pos_min_p3d_y := v }⟩,
   ⟨"pos_max_p3d_y", (·.pos_max_p3d_y), fun v c => { c with pos_max_p3d_y := v }⟩,
   ⟨"pos_min_p3d_z", (·.pos_min_p3d_z), fun v c => { c with pos_min_p3d_z := v }⟩,
   ⟨"pos_max_p3d_z", (·.pos_max_p3d_z), fun v c => { c with pos_max_p3d_z := v }⟩,
   ⟨"rom_halfsize", (·.rom_halfsize), fun v c => { c with rom_halfsize := v }⟩,
   ⟨"cor_t_max", (·.cor_t_max), fun v c => { c with cor_t_max := v }⟩,
   ⟨"cor_dpos_min", (·.cor_dpos_min), fun v c => { c with cor_dpos_min := v }⟩,
   ⟨"cor_dpos_max", (·.cor_dpos_max), fun v c => { c with cor_dpos_max := v }⟩,
   ⟨"cor_pos_min", (·.cor_pos_min), fun v c => { c with cor_pos_min := v }⟩,
   ⟨"cor_pos_max", (·.cor_pos_max), fun v c => { c with cor_pos_max := v }⟩]

/-- the other fields but the last one -/
def plainFields : List (MotionConfig → FVal) :=
  [fun c => .num c.T, fun c => .num c.t_min, fun c => .int c.cdf_bins_min,
   fun c => .int c.cdf_bins_max, fun c => .bool c.randomized_interpolation_angle,
   fun c => .bool c.randomized_interpolation_position, fun c => .interp c.interpolation_method,
   fun c => .bool c.range_of_motion_hinge, fun c => .rom c.range_of_motion_hinge_method,
   fun c => .num c.ang0_min, fun c => .num c.ang0_max, fun c => .num c.pos0_min,
   fun c => .num c.pos0_max, fun c => .num c.pos0_min_p3d_x, fun c => .num c.pos0_max_p3d_x,
   fun c => .num c.pos0_min_p3d_y, fun c => .num c.pos0_max_p3d_y, fun c => .num c.pos0_min_p3d_z,
   fun c => .num c.pos0_max_p3d_z, fun c => .num c.cor_t_min, fun c => .num c.cor_pos0_min,
   fun c => .num c.cor_pos0_max]

/-- the fields not annotated `float | TimeDependentFloat`, in order -/
def timeIndependentFields : List (MotionConfig → FVal) :=
  plainFields ++ [fun c => .dict c.joint_type_specific_overwrites]

/-- the other fields annotated `float` -/
def floatFields : List (String × (ℝ → MotionConfig → MotionConfig)) :=
  [("T", fun v c => { c with T := v }),
   ("t_min", fun v c => { c with t_min := v }),
   ("ang0_min", fun v c => { c with ang0_min := v }),
   ("ang0_max", fun v c => { c with ang0_max := v }),
   ("pos0_min", fun v c => { c with pos0_min := v }),
   ("pos0_max", fun v c => { c with pos0_max := v }),
   ("pos0_min_p3d_x", fun v c => { c with pos0_min_p3d_x := v }),
   ("pos0_max_p3d_x", fun v c => { c with pos0_max_p3d_x := v }),
   ("pos0_min_p3d_y", fun v c => { c with pos0_min_p3d_y := v }),
   ("pos0_max_p3d_y", fun v c => { c with pos0_max_p3d_y := v }),
   ("pos0_min_p3d_z", fun v c => { c with pos0_min_p3d_z := v }),
   ("pos0_max_p3d_z", fun v c => { c with pos0_max_p3d_z := v }),
   ("cor_t_min", fun v c => { c with cor_t_min := v }),
   ("cor_pos0_min", fun v c => { c with cor_pos0_min := v }),
   ("cor_pos0_max", fun v c => { c with cor_pos0_max := v })]

/-- `replace(config, field=value)`; an unknown name is a `TypeError`. Only numbers are modelled. -/
def replace_field (config : MotionConfig) (field : String) (value : ℝ) : Py MotionConfig :=
  match timeDependentFields.find? (·.name = field) with
  | some f => .ok (f.set (.const value) config)
  | none => match floatFields.lookup field with
    | some set => .ok (set value config)
    | none => .error .type

/-- `replace(config, **changes)` -/
def replace_fields (config : MotionConfig) (changes : List (String × ℝ)) : Py MotionConfig :=
  changes.foldlM (fun c x => replace_field c x.1 x.2) config

/-- `/repo/src/ring/algorithms/jcalc.py:391-409` `_find_interval` -/
noncomputable def _find_interval (t : ℝ) (boundaries : List ℝ) : Nat := by
  classical exact (boundaries.map fun boundary => if t ≥ boundary then 1 else 0).sum

/-- `/repo/src/ring/algorithms/jcalc.py:420-428` `new_value`; a function in place of a number can not
be made an array -/
noncomputable def new_value (configs : List MotionConfig) (boundaries : List ℝ)
    (get : MotionConfig → TDF) : Py TDF := do
  let scalar_options ← configs.mapM fun c => (get c).number
  pure (.fn fun t => jaxGet 0 scalar_options (_find_interval t boundaries))

open Classical in
/-- `/repo/src/ring/algorithms/jcalc.py:435-439` one field must have one value -/
noncomputable def check_field (configs : List MotionConfig) (get : MotionConfig → FVal) : Py Unit :=
  let field_values := configs.map get
  if field_values.all FVal.hashable then
    pyAssert (∃ v, v ∈ field_values ∧ ∀ w ∈ field_values, w = v)
  else .error .type

/-- replace the fields one after the other -/
noncomputable def new_fields (configs : List MotionConfig) (boundaries : List ℝ) :
    List TDField → MotionConfig → Py MotionConfig
  | [], c => .ok c
  | f :: fs, c => do
    let v ← new_value configs boundaries f.get
    new_fields configs boundaries fs (f.set v c)

/-- `/repo/src/ring/algorithms/jcalc.py:412-443` `join_motionconfigs`, with the list of fields that
have to agree as an argument -/
noncomputable def join_on (indep : List (MotionConfig → FVal)) (configs : List MotionConfig)
    (boundaries : List ℝ) : Py MotionConfig := do
  pyAssert (configs.length = boundaries.length + 1)
  indep.forM (check_field configs)
  match configs with
  | [] => .error .index
  | c :: _ => new_fields configs boundaries timeDependentFields c

/-- `/repo/src/ring/algorithms/jcalc.py:412-443` `join_motionconfigs` -/
noncomputable def join_motionconfigs (configs : List MotionConfig) (boundaries : List ℝ) :
    Py MotionConfig := join_on timeIndependentFields configs boundaries

/-! ## feasibility -/

/-- `/repo/src/ring/algorithms/jcalc.py:336-344` `dx_deltax_check` -/
def dx_deltax_check (t_min t_max : ℝ) (dx_min dx_max deltax_min deltax_max : TDF) : Prop :=
  ¬ (deltax_max.at 0 / t_min < dx_min.at 0) ∧ ¬ (deltax_min.at 0 / t_max > dx_max.at 0)

/-- `/repo/src/ring/algorithms/jcalc.py:360-361` `inside_box_checks` -/
def inside_box_checks (x_min x_max x0_min x0_max : ℝ) : Prop := x0_min ≥ x_min ∧ x0_max ≤ x_max

/-- `/repo/src/ring/algorithms/jcalc.py:333-388` `_is_feasible_config1` -/
def _is_feasible_config1 (c : MotionConfig) : Prop :=
  dx_deltax_check c.t_min (c.t_max.at 0) c.dang_min c.dang_max c.delta_ang_min c.delta_ang_max ∧
  dx_deltax_check c.t_min (c.t_max.at 0) c.dang_min_free_spherical c.dang_max_free_spherical
    c.delta_ang_min_free_spherical c.delta_ang_max_free_spherical ∧
  inside_box_checks (c.pos_min.at 0) (c.pos_max.at 0) c.pos0_min c.pos0_max ∧
  inside_box_checks (c.pos_min_p3d_x.at 0) (c.pos_max_p3d_x.at 0) c.pos0_min_p3d_x c.pos0_max_p3d_x ∧
  inside_box_checks (c.pos_min_p3d_y.at 0) (c.pos_max_p3d_y.at 0) c.pos0_min_p3d_y c.pos0_max_p3d_y ∧
  inside_box_checks (c.pos_min_p3d_z.at 0) (c.pos_max_p3d_z.at 0) c.pos0_min_p3d_z c.pos0_max_p3d_z ∧
  c.delta_ang_min.at 0 < 2 * c.rom_halfsize.at 0

open Classical in
/-- `/repo/src/ring/algorithms/jcalc.py:99-114` `MotionConfig.to_nomotion_config` -/
noncomputable def MotionConfig.to_nomotion_config (c : MotionConfig) : Py MotionConfig := do
  let n := { c with
    dang_min := .const 0
    dang_max := .const 0
    delta_ang_min := .const 0
    dang_min_free_spherical := .const 0
    dang_max_free_spherical := .const 0
    delta_ang_min_free_spherical := .const 0
    dpos_min := .const 0
    dpos_max := .const 0 }
  pyAssert (_is_feasible_config1 n)
  pure n

/-! ## drawing -/

variable {K : Type} (R : Rng K)

/-- the arguments `_draw_rxyz` passes on -/
def MotionConfig.angleArgs (config : MotionConfig) (ANG_0 dt : ℝ) (N : Option Nat)
    (enable_range_of_motion free_spherical : Bool) (max_iter : Nat) : AngleArgs where
  ANG_0 := ANG_0
  dang_min := (if free_spherical then config.dang_min_free_spherical else config.dang_min).at
  dang_max := (if free_spherical then config.dang_max_free_spherical else config.dang_max).at
  delta_ang_min :=
    (if free_spherical then config.delta_ang_min_free_spherical else config.delta_ang_min).at
  delta_ang_max :=
    (if free_spherical then config.delta_ang_max_free_spherical else config.delta_ang_max).at
  t_min := config.t_min
  t_max := config.t_max.at
  T := config.T
  Ts := dt
  N := N
  max_iter := max_iter
  randomized_interpolation := config.randomized_interpolation_angle
  range_of_motion := if enable_range_of_motion then config.range_of_motion_hinge else false
  range_of_motion_method := config.range_of_motion_hinge_method
  rom_halfsize := config.rom_halfsize.at
  cdf_bins_min := config.cdf_bins_min
  cdf_bins_max := config.cdf_bins_max
  interpolation_method := config.interpolation_method

/-- `/repo/src/ring/algorithms/jcalc.py:586-625` `_draw_rxyz` -/
noncomputable def _draw_rxyz (config : MotionConfig) (key_t key_value : K) (dt : ℝ)
    (N : Option Nat) (enable_range_of_motion : Bool := true) (free_spherical : Bool := false)
    (max_iter : Nat := 5) : Option (List ℝ) :=
  let consume := R.split key_value 2 1
  let key_value := R.split key_value 2 0
  let ANG_0 := R.uniformIn consume config.ang0_min config.ang0_max
  let ANG_0 := maths.wrap_to_pi ANG_0
  random_angle_over_time R
    (config.angleArgs ANG_0 dt N enable_range_of_motion free_spherical max_iter) key_t key_value

/-- the arguments `_draw_pxyz` passes on -/
def MotionConfig.posArgs (config : MotionConfig) (POS_0 dt : ℝ) (N : Option Nat) (cor : Bool) :
    PosArgs where
  POS_0 := POS_0
  pos_min := (if cor then config.cor_pos_min else config.pos_min).at
  pos_max := (if cor then config.cor_pos_max else config.pos_max).at
  dpos_min := (if cor then config.cor_dpos_min else config.dpos_min).at
  dpos_max := (if cor then config.cor_dpos_max else config.dpos_max).at
  t_min := if cor then config.cor_t_min else config.t_min
  t_max := (if cor then config.cor_t_max else config.t_max).at
  T := config.T
  Ts := dt
  N := N
  max_it := 100
  randomized_interpolation := config.randomized_interpolation_position
  cdf_bins_min := config.cdf_bins_min
  cdf_bins_max := config.cdf_bins_max
  interpolation_method := config.interpolation_method

/-- `/repo/src/ring/algorithms/jcalc.py:628-661` `_draw_pxyz` -/
noncomputable def _draw_pxyz (config : MotionConfig) (key_value : K) (dt : ℝ) (N : Option Nat)
    (cor : Bool := false) : Option (List ℝ) :=
  let consume := R.split key_value 2 1
  let key_value := R.split key_value 2 0
  let POS_0 := R.uniformIn consume (if cor then config.cor_pos0_min else config.pos0_min)
    (if cor then config.cor_pos0_max else config.pos0_max)
  random_position_over_time R (config.posArgs POS_0 dt N cor) key_value

/-- `jnp.concatenate((a, b), axis=1)`, row by row -/
def hcat (a b : List (List ℝ)) : List (List ℝ) := List.zipWith (· ++ ·) a b

/-- `a[:, None]` -/
def column (a : List ℝ) : List (List ℝ) := a.map ([·])

/-- `/repo/src/ring/algorithms/jcalc.py:664-690` `_draw_spherical` -/
noncomputable def _draw_spherical (config : MotionConfig) (key_t key_value : K) (dt : ℝ)
    (N : Option Nat) : Option (List (List ℝ)) := do
  let draw := fun j =>
    _draw_rxyz R config (R.split key_t 3 j) (R.split key_value 3 j) dt N false true
  let a ← draw 0
  let b ← draw 1
  let c ← draw 2
  let euler_angles := hcat (hcat (column a) (column b)) (column c)
  pure (euler_angles.map fun e =>
    quatList (maths.quat_euler ⟨e.getD 0 0, e.getD 1 0, e.getD 2 0⟩))

/-- `/repo/src/ring/algorithms/jcalc.py:693-716` `_draw_saddle` -/
noncomputable def _draw_saddle (config : MotionConfig) (key_t key_value : K) (dt : ℝ)
    (N : Option Nat) : Option (List (List ℝ)) := do
  let draw := fun j =>
    _draw_rxyz R config (R.split key_t 2 j) (R.split key_value 2 j) dt N false false
  let a ← draw 0
  let b ← draw 1
  pure (hcat (column a) (column b))

/-- the configuration `_draw_p3d_and_cor` uses for one axis -/
def MotionConfig.p3d (config : MotionConfig) : maths.Axis → MotionConfig
  | .x => { config with pos_min := config.pos_min_p3d_x, pos_max := config.pos_max_p3d_x,
                        pos0_min := config.pos0_min_p3d_x, pos0_max := config.pos0_max_p3d_x }
  | .y => { config with pos_min := config.pos_min_p3d_y, pos_max := config.pos_max_p3d_y,
                        pos0_min := config.pos0_min_p3d_y, pos0_max := config.pos0_max_p3d_y }
  | .z => { config with pos_min := config.pos_min_p3d_z, pos_max := config.pos_max_p3d_z,
                        pos0_min := config.pos0_min_p3d_z, pos0_max := config.pos0_max_p3d_z }

/-- `/repo/src/ring/algorithms/jcalc.py:719-748` `_draw_p3d_and_cor` -/
noncomputable def _draw_p3d_and_cor (config : MotionConfig) (key_value : K) (dt : ℝ)
    (N : Option Nat) (cor : Bool) : Option (List (List ℝ)) := do
  let px ← _draw_pxyz R (config.p3d .x) (R.split key_value 3 0) dt N cor
  let py ← _draw_pxyz R (config.p3d .y) (R.split key_value 3 1) dt N cor
  let pz ← _draw_pxyz R (config.p3d .z) (R.split key_value 3 2) dt N cor
  pure (hcat (hcat (column px) (column py)) (column pz))

/-- `/repo/src/ring/algorithms/jcalc.py:751-759` `_draw_p3d` -/
noncomputable def _draw_p3d (config : MotionConfig) (key_value : K) (dt : ℝ) (N : Option Nat) :
    Option (List (List ℝ)) := _draw_p3d_and_cor R config key_value dt N false

/-- `/repo/src/ring/algorithms/jcalc.py:776-787` `_draw_free` -/
noncomputable def _draw_free (config : MotionConfig) (key_t key_value : K) (dt : ℝ)
    (N : Option Nat) : Option (List (List ℝ)) := do
  let key_value1 := R.split key_value 2 0
  let key_value2 := R.split key_value 2 1
  let q ← _draw_spherical R config key_t key_value1 dt N
  let pos ← _draw_p3d R config key_value2 dt N
  pure (hcat q pos)

/-- `/repo/src/ring/algorithms/jcalc.py:762-773` `_draw_cor` -/
noncomputable def _draw_cor (config : MotionConfig) (key_t key_value : K) (dt : ℝ)
    (N : Option Nat) : Option (List (List ℝ)) := do
  let key_value1 := R.split key_value 2 0
  let key_value2 := R.split key_value 2 1
  let q_free ← _draw_free R config key_t key_value1 dt N
  let q_p3d ← _draw_p3d_and_cor R config key_value2 dt N true
  pure (hcat q_free q_p3d)

/-- `/repo/src/ring/algorithms/jcalc.py:790-810` `_draw_free_2d` -/
noncomputable def _draw_free_2d (config : MotionConfig) (key_t key_value : K) (dt : ℝ)
    (N : Option Nat) : Option (List (List ℝ)) := do
  let key_value1 := R.split key_value 2 0
  let key_value2 := R.split key_value 2 1
  let angle_x ← _draw_rxyz R config key_t key_value1 dt N false true
  let pos ← _draw_p3d R config key_value2 dt N
  pure (hcat (column angle_x) (pos.map (List.take 2)))

/-- `/repo/src/ring/algorithms/jcalc.py:813-818` `_draw_frozen`; `int` truncates -/
noncomputable def _draw_frozen (config : MotionConfig) (dt : ℝ) (N : Option Nat) :
    List (List ℝ) := List.replicate (N.getD ⌊config.T / dt⌋.toNat) []

/-- the draw functions of the built-in joint types, `/repo/src/ring/algorithms/jcalc.py:934-1050` -/
noncomputable def BuiltIn.draw (config : MotionConfig) (key_t key_value : K) (dt : ℝ)
    (N : Option Nat) : BuiltIn → Option (List (List ℝ))
  | .free => _draw_free R config key_t key_value dt N
  | .free_2d => _draw_free_2d R config key_t key_value dt N
  | .frozen => some (_draw_frozen config dt N)
  | .spherical => _draw_spherical R config key_t key_value dt N
  | .p3d => _draw_p3d R config key_value dt N
  | .cor => _draw_cor R config key_t key_value dt N
  | .r _ => (_draw_rxyz R config key_t key_value dt N).map column
  | .p _ => (_draw_pxyz R config key_value dt N).map column
  | .saddle => _draw_saddle R config key_t key_value dt N

end jcalc
end RingLib
