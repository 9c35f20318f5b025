import Verif.Model.Jcalc
import Verif.Model.Utils
import Mathlib.Data.List.Dedup

/-!
# The joint registry: `/repo/src/ring/algorithms/jcalc.py`

The dictionaries `_joint_types`, `base.Q_WIDTHS`, `base.QD_WIDTHS`,
`_overwrite_for_joint_type_changes` and `finalize_fns._P_gains` are module-level and mutable.  Code
that changes them is a function from the registry to a result and the registry left behind; what was
done before an exception stays done.
-/

namespace RingLib.jcalc

/-- A computation on mutable global state `σ` that may raise. -/
def Glob (σ β : Type) := σ → Py β × σ

namespace Glob
variable {σ β γ : Type}

/-- nothing happens -/
def pure (b : β) : Glob σ β := fun s => (.ok b, s)

/-- one after the other; an exception ends it and the state stays as it is then -/
def bind (m : Glob σ β) (f : β → Glob σ γ) : Glob σ γ := fun s =>
  match m s with
  | (.ok b, s') => f b s'
  | (.error e, s') => (.error e, s')

instance : Monad (Glob σ) where
  pure := Glob.pure
  bind := Glob.bind

/-- an expression that only reads the state -/
def read (f : σ → Py β) : Glob σ β := fun s => (f s, s)

/-- an assignment -/
def modify (f : σ → σ) : Glob σ Unit := fun s => (.ok (), f s)

/-- `for x in xs: f x` -/
def each {ι : Type} (f : ι → Glob σ Unit) : List ι → Glob σ Unit
  | [] => Glob.pure ()
  | x :: xs => Glob.bind (f x) fun _ => each f xs

end Glob

/-- A joint model together with `rcmg_draw_fn`, as a function of the motion config.
`/repo/src/ring/algorithms/jcalc.py:503-529` -/
structure RegModel (α π χ ρ : Type) extends JointModel α π where
  rcmg_draw_fn : χ → ρ

/-- The module-level dictionaries. -/
@[ext] structure Registry (α π χ ρ ν γ : Type) where
  /-- `_joint_types`, `/repo/src/ring/algorithms/jcalc.py:934-1050` -/
  joint_types : Dict (RegModel α π χ ρ)
  /-- `/repo/src/ring/base.py:369-385` -/
  Q_WIDTHS : Dict Nat
  /-- `/repo/src/ring/base.py:386-400` -/
  QD_WIDTHS : Dict Nat
  /-- `_overwrite_for_joint_type_changes`, a `defaultdict`, `/repo/src/ring/algorithms/jcalc.py:199` -/
  changes : Dict (Dict ν)
  /-- `/repo/src/ring/algorithms/generator/finalize_fns.py:159-178` -/
  P_gains : Dict γ

variable {α π χ ρ ν γ : Type}

/-- `/repo/src/ring/algorithms/jcalc.py:1053-1057` `get_joint_model` -/
def get_model (joint_type : String) : Glob (Registry α π χ ρ ν γ) (RegModel α π χ ρ) :=
  .read fun r =>
    match r.joint_types.lookup joint_type with
    | some jm => .ok jm
    | none => .error .assertion

/-- The removal of an existing type from the three dictionaries in turn,
`/repo/src/ring/algorithms/jcalc.py:1072-1077` -/
def popType (joint_type : String) : Glob (Registry α π χ ρ ν γ) Unit := do
  let _ ← Glob.read fun r => r.Q_WIDTHS.pop joint_type
  Glob.modify fun r => { r with Q_WIDTHS := r.Q_WIDTHS.del joint_type }
  let _ ← Glob.read fun r => r.QD_WIDTHS.pop joint_type
  Glob.modify fun r => { r with QD_WIDTHS := r.QD_WIDTHS.del joint_type }
  let _ ← Glob.read fun r => r.joint_types.pop joint_type
  Glob.modify fun r => { r with joint_types := r.joint_types.del joint_type }

/-- `/repo/src/ring/algorithms/jcalc.py:1060-1090` `register_new_joint_type` -/
def register_new_joint_type (joint_type : String) (joint_model : RegModel α π χ ρ) (q_width : Nat)
    (qd_width : Option Nat := none) (overwrite : Bool := false) :
    Glob (Registry α π χ ρ ν γ) Unit := do
  Glob.read fun _ => pyAssert (joint_type ≠ "default")
  let exists_ ← Glob.read fun r => .ok (decide (joint_type ∈ r.joint_types.keys))
  if exists_ && overwrite then popType joint_type
  else Glob.read fun _ => pyAssert (exists_ = false)
  let qd_width := qd_width.getD q_width
  Glob.read fun _ => pyAssert (joint_model.motion.length = qd_width)
  Glob.modify fun r => { r with joint_types := r.joint_types.set joint_type joint_model }
  Glob.modify fun r => { r with Q_WIDTHS := r.Q_WIDTHS.set joint_type q_width }
  Glob.modify fun r => { r with QD_WIDTHS := r.QD_WIDTHS.set joint_type qd_width }

/-- `/repo/src/ring/algorithms/jcalc.py:116-142` `MotionConfig.overwrite_for_joint_type`. `replace`
is `dataclasses.replace(config, **changes)`. -/
def overwrite_for_joint_type (replace : χ → Dict ν → χ) (joint_type : String) (changes : Dict ν) :
    Glob (Registry α π χ ρ ν γ) Unit := do
  -- indexing the `defaultdict` creates the entry
  Glob.modify fun r =>
    { r with changes := r.changes.set joint_type ((r.changes.lookup joint_type).getD []) }
  Glob.read fun r => changes.forM fun c =>
    pyAssert (c.1 ∉ Dict.keys ((r.changes.lookup joint_type).getD []))
  Glob.modify fun r => { r with
    changes := r.changes.set joint_type
      (Dict.update ((r.changes.lookup joint_type).getD []) changes) }
  let jm ← get_model joint_type
  let q_width ← Glob.read fun r => pyDict r.Q_WIDTHS joint_type
  let qd_width ← Glob.read fun r => pyDict r.QD_WIDTHS joint_type
  register_new_joint_type joint_type
    { jm with rcmg_draw_fn := fun config => jm.rcmg_draw_fn (replace config changes) }
    q_width (some qd_width) true

/-- The body of the loop of `overwrite_for_subsystem`,
`/repo/src/ring/algorithms/jcalc.py:172-180` -/
def specialise (replace : χ → Dict ν → χ) (postfix_ : String) (changes : Dict ν) (typ : String) :
    Glob (Registry α π χ ρ ν γ) Unit := do
  let jm ← get_model typ
  let q_width ← Glob.read fun r => pyDict r.Q_WIDTHS typ
  let qd_width ← Glob.read fun r => pyDict r.QD_WIDTHS typ
  register_new_joint_type (typ ++ postfix_) jm q_width (some qd_width)
  overwrite_for_joint_type replace (typ ++ postfix_) changes
  let gain ← Glob.read fun r => pyDict r.P_gains typ
  Glob.modify fun r => { r with P_gains := r.P_gains.set (typ ++ postfix_) gain }

/-- The names of the bodies of the subsystem, `/repo/src/ring/algorithms/jcalc.py:166-167`; `fuel` is
the python recursion depth. -/
def subsystemBodies (sys : System α π) (fuel : Nat) (link_name : String) : Py (List Nat) := do
  let names ← sys.findall_bodies_subsystem fuel link_name
  let bodies ← names.mapM sys.name_to_idx
  let k ← sys.name_to_idx link_name
  pure (bodies ++ [k])

/-- The set of joint types of the bodies without `frozen`,
`/repo/src/ring/algorithms/jcalc.py:169`. A python set has no order: `order` arranges it. -/
def subsystemTypes (sys : System α π) (order : List String → List String) (bodies : List Nat) :
    List String :=
  order ((bodies.filterMap (sys.link_types[·]?)).dedup.filter (· ≠ "frozen"))

/-- `/repo/src/ring/algorithms/jcalc.py:183-190` -/
def renameTypes (sys : System α π) (bodies : List Nat) (postfix_ : String) : List String :=
  sys.link_types.zipIdx.map fun x =>
    if x.2 ∈ bodies ∧ x.1 ≠ "frozen" then x.1 ++ postfix_ else x.1

/-- `/repo/src/ring/algorithms/jcalc.py:144-192` `MotionConfig.overwrite_for_subsystem` -/
def overwrite_for_subsystem (replace : χ → Dict ν → χ) (order : List String → List String)
    (fuel : Nat) (sys : System α π) (link_name : String) (changes : Dict ν) :
    Glob (Registry α π χ ρ ν γ) (System α π) := do
  let bodies ← Glob.read fun _ => subsystemBodies sys fuel link_name
  let postfix_ := "_" ++ link_name
  Glob.each (specialise replace postfix_ changes) (subsystemTypes sys order bodies)
  pure { sys with link_types := renameTypes sys bodies postfix_ }

end RingLib.jcalc
