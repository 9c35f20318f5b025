import Verif.Model.Random
import Verif.Model.Kinematics

/-!
# Setup functions: `/repo/src/ring/algorithms/generator/setup_fns.py`
-/

namespace RingLib

namespace maths

/-- `/repo/src/ring/maths.py:196-209` `quat_random` with `batch_shape = (n,)`; entry `4 i + c` of the
normal draws is component `c` of row `i`. -/
noncomputable def quat_random {K : Type} (R : Rng K) (key : K) (n : Nat) (maxval : ℝ) :
    List (Quat ℝ) :=
  let draw := fun j => R.normal key (n * 4) j
  let qs := (List.range n).map fun i : Nat =>
    safe_normalize4 ⟨draw (4 * i), draw (4 * i + 1), draw (4 * i + 2), draw (4 * i + 3)⟩
  open Classical in
  if maxval = Real.pi then qs
  else qs.map fun q =>
    let r := quat_to_rot_axis q
    quat_rot_axis r.1 (r.2 * maxval / Real.pi)

end maths

namespace generator
open System maths

/-- `/repo/src/ring/algorithms/generator/setup_fns.py:19-28` `_draw_pos_uniform` -/
noncomputable def _draw_pos_uniform {K : Type} (R : Rng K) (key : K) (pos_min pos_max : Vec3 ℝ) :
    K × Vec3 ℝ :=
  let key' := R.split key 4 0
  let c1 := R.split key 4 1
  let c2 := R.split key 4 2
  let c3 := R.split key 4 3
  (key', ⟨R.uniformIn c1 pos_min.x pos_max.x, R.uniformIn c2 pos_min.y pos_max.y,
    R.uniformIn c3 pos_min.z pos_max.z⟩)

/-- One pass of the loop of `_setup_fn_randomize_positions`,
`/repo/src/ring/algorithms/generator/setup_fns.py:11-14`; the state is the key and `ts`. -/
noncomputable def randomizePosition {K : Type} (R : Rng K) (links : List (LinkRow ℝ))
    (st : K × List (Transform ℝ)) (i : Nat) : Py (K × List (Transform ℝ)) := do
  let link ← pyGet links i
  let r := _draw_pos_uniform R st.1 link.pos_min link.pos_max
  let t ← pyGet st.2 i
  pure (r.1, st.2.set i { t with pos := r.2 })

/-- `sys.replace(links=sys.links.replace(transform1=ts))` -/
def setTransform1 {α π : Type} (s : System α π) (ts : List (Transform α)) : System α π :=
  { s with links := List.zipWith (fun l t => { l with transform1 := t }) s.links ts }

/-- `/repo/src/ring/algorithms/generator/setup_fns.py:8-16` `_setup_fn_randomize_positions` -/
noncomputable def _setup_fn_randomize_positions {K π : Type} (R : Rng K) (key : K)
    (s : System ℝ π) : Py (System ℝ π) := do
  let r ← (List.range s.num_links).foldlM (randomizePosition R s.links)
    (key, s.links.map (·.transform1))
  pure (setTransform1 s r.2)

/-- `name[:3] == "imu"` -/
def isImuName (name : String) : Bool := name.toList.take 3 = "imu".toList

/-- `/repo/src/ring/algorithms/generator/setup_fns.py:37-41`: the rotations of the IMUs are set to the
identity -/
def resetImus {α π : Type} [Zero α] [One α] (s : System α π) (not_imus : Bool)
    (rot : List (Quat α)) : Py (List (Quat α)) :=
  if not_imus then
    (s.link_names.filter isImuName).foldlM (fun (rot : List (Quat α)) imu => do
      let i ← s.name_to_idx imu
      pure (rot.set i unitQuat)) rot
  else pure rot

/-- `/repo/src/ring/algorithms/generator/setup_fns.py:31-43` `_setup_fn_randomize_transform1_rot` -/
noncomputable def _setup_fn_randomize_transform1_rot {K π : Type} (R : Rng K) (key : K)
    (s : System ℝ π) (maxval : ℝ) (not_imus : Bool := true) : Py (System ℝ π) := do
  let new_rot ← resetImus s not_imus (maths.quat_random R key s.num_links maxval)
  pure (setTransform1 s
    (List.zipWith (fun (l : LinkRow ℝ) r => { l.transform1 with rot := r }) s.links new_rot))

end generator
end RingLib
