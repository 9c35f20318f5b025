import Verif.Model.Registry

/-!
# State of the process: `setup` of the package and the flags of XLA

* `setup`, `/repo/src/ring/__init__.py:121-158`, which runs when the package is imported and can be called
  again. A registration of a custom joint is given by the name, model and widths that it hands to
  `register_new_joint_type`; all four register with `overwrite=True`. Clock and hash are parameters.
* `set_host_device_count`, `/repo/src/ring/utils/backend.py:5-30`. Strings are lists of characters, `ws` is
  what `\S` and `str.split` take for white space, and the printed number is a parameter.
-/

namespace RingLib.package
open RingLib.jcalc

/-! ## `setup` -/

variable {α π χ ρ ν γ T I : Type}

/-- what one of the functions `register_…` registers: `/repo/src/ring/algorithms/custom_joints/rr_joint.py:29`,
`/repo/src/ring/algorithms/custom_joints/rr_imp_joint.py:53-59`,
`/repo/src/ring/algorithms/custom_joints/rsaddle_joint.py:34`,
`/repo/src/ring/algorithms/custom_joints/suntay.py:295` -/
structure JointReg (α π χ ρ : Type) where
  name : String
  model : RegModel α π χ ρ
  q_width : Nat
  qd_width : Option Nat

/-- the module-level state: the registries, `_TRAIN_TIMING_START` and `_UNIQUE_ID`,
`/repo/src/ring/__init__.py:117-118` -/
structure World (α π χ ρ ν γ T I : Type) where
  reg : Registry α π χ ρ ν γ
  start : Option T
  uid : Option I

/-- one of `/repo/src/ring/__init__.py:136-146`: register unless the keyword arguments are `None` -/
def registerIf (j : Option (JointReg α π χ ρ)) : Glob (Registry α π χ ρ ν γ) Unit :=
  match j with
  | none => Glob.pure ()
  | some j => register_new_joint_type j.name j.model j.q_width j.qd_width true

/-- code that only uses the registries -/
def liftReg (m : Glob (Registry α π χ ρ ν γ) Unit) : Glob (World α π χ ρ ν γ T I) Unit := fun w =>
  ((m w.reg).1, { w with reg := (m w.reg).2 })

/-- the arguments of `setup`, with the time and the hash of the time at which it is called -/
structure Call (α π χ ρ T I : Type) where
  rr : Option (JointReg α π χ ρ)
  rr_imp : Option (JointReg α π χ ρ)
  rsaddle : Option (JointReg α π χ ρ)
  suntay : Option (JointReg α π χ ρ)
  train_timing_start : Option T
  unique_id : Option I
  time : T
  hash : I

/-- `/repo/src/ring/__init__.py:121-158` `setup` -/
def setup (c : Call α π χ ρ T I) : Glob (World α π χ ρ ν γ T I) Unit := do
  liftReg (registerIf c.rr)
  liftReg (registerIf c.rr_imp)
  liftReg (registerIf c.rsaddle)
  liftReg (registerIf c.suntay)
  Glob.modify fun w => if w.start.isNone then { w with start := some c.time } else w
  Glob.modify fun w => if c.train_timing_start.isSome then { w with start := c.train_timing_start } else w
  Glob.modify fun w => if w.uid.isNone then { w with uid := some c.hash } else w
  Glob.modify fun w => if c.unique_id.isSome then { w with uid := c.unique_id } else w

/-! ## The flags of XLA -/

/-- `--xla_force_host_platform_device_count=` -/
def flag : List Char := "--xla_force_host_platform_device_count=".toList

/-- the pattern `--xla_force_host_platform_device_count=\S+` matches at the beginning -/
def matchesFlag (ws : Char → Bool) (s : List Char) : Bool :=
  flag.isPrefixOf s &&
    match s.drop flag.length with
    | [] => false
    | c :: _ => !ws c

/-- `re.sub(r"--xla_force_host_platform_device_count=\S+", "", s)`; `inside` says that a match has begun,
which takes all characters up to white space -/
def reSub (ws : Char → Bool) : Bool → List Char → List Char
  | _, [] => []
  | true, c :: r => if ws c then c :: reSub ws false r else reSub ws true r
  | false, c :: r => if matchesFlag ws (c :: r) then reSub ws true r else c :: reSub ws false r

/-- `s.split()` with what has been read of a word -/
def splitAux (ws : Char → Bool) : List Char → List Char → List (List Char)
  | acc, [] => if acc = [] then [] else [acc]
  | acc, c :: r =>
    if ws c then (if acc = [] then splitAux ws [] r else acc :: splitAux ws [] r)
    else splitAux ws (acc ++ [c]) r

/-- `s.split()` -/
def split (ws : Char → Bool) (s : List Char) : List (List Char) := splitAux ws [] s

/-- `" ".join(l)` -/
def join : List (List Char) → List Char
  | [] => []
  | [w] => w
  | w :: r => w ++ ' ' :: join r

/-- `/repo/src/ring/utils/backend.py:5-30` `set_host_device_count`: the new value of the environment variable
`XLA_FLAGS`; `none` = not set. `n` is the printed number. -/
def set_host_device_count (ws : Char → Bool) (n : List Char) (xla_flags : Option (List Char)) : List Char :=
  join ((flag ++ n) :: split ws (reSub ws false (xla_flags.getD [])))

end RingLib.package
