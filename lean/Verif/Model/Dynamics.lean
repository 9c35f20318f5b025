import Mathlib.LinearAlgebra.Matrix.NonsingularInverse
import Mathlib.Analysis.SpecialFunctions.Sqrt
import Verif.Model.Kinematics

/-!
# `/repo/src/ring/algorithms/dynamics.py`

A square jax array is `SqMat`: its size and the entries as a function of row and column.
-/

namespace RingLib
open algebra maths
variable {α π : Type}

/-- a square jax array -/
structure SqMat (α : Type) where
  size : Nat
  entry : Nat → Nat → α

/-- the array as a Mathlib matrix -/
def SqMat.toMatrix (M : SqMat α) : Matrix (Fin M.size) (Fin M.size) α := fun i j => M.entry i j

namespace System

/-! ## inverse dynamics -/

/-- the dictionaries `vel, acc, fs` of `/repo/src/ring/algorithms/dynamics.py:20` -/
structure DynDicts (α : Type) where
  vel : Int → Option (Motion α)
  acc : Int → Option (Motion α)
  fs : Int → Option (Force α)

/-- `/repo/src/ring/algorithms/dynamics.py:30-35` velocity and acceleration of a link -/
def link_vel_acc [Ring α] (gravity : Motion α) (d : DynDicts α) (parent_idx : Int)
    (p_to_l_trafo : Transform α) (vJ aJ : Motion α) : Py (Motion α × Motion α) :=
  if parent_idx = -1 then pure (vJ, transform_motion p_to_l_trafo gravity + aJ)
  else do
    let vp ← dictGet d.vel parent_idx
    let v := vJ + transform_motion p_to_l_trafo vp
    let ap ← dictGet d.acc parent_idx
    pure (v, transform_motion p_to_l_trafo ap + aJ + motion_cross v vJ)

/-- `/repo/src/ring/algorithms/dynamics.py:22-41` `forward_scan` -/
def forward_scan [Ring α] (E : JEnv α π) (gravity : Motion α) (d : DynDicts α) (_ : IdxMap)
    (a : Nat × Int × String × List α × List α × LinkRow α × List (String × π)) :
    Py (Unit × DynDicts α) := do
  let vJ ← jcalc.jcalc_motion E a.2.2.1 a.2.2.2.1 a.2.2.2.2.2.2
  let aJ ← jcalc.jcalc_motion E a.2.2.1 a.2.2.2.2.1 a.2.2.2.2.2.2
  let it := a.2.2.2.2.2.1.inertia
  let va ← link_vel_acc gravity d a.2.1 a.2.2.2.2.2.1.transform vJ aJ
  let f := inertia_mul_motion it va.2 + motion_cross_star va.1 (inertia_mul_motion it va.1)
  pure ((), ⟨dictSet d.vel a.1 va.1, dictSet d.acc a.1 va.2, dictSet d.fs a.1 f⟩)

/-- `/repo/src/ring/algorithms/dynamics.py:56-62` `backwards_scan` -/
def backwards_scan [Ring α] (E : JEnv α π) (fs : Int → Option (Force α)) (_ : IdxMap)
    (a : Nat × Int × String × Transform α × LinkRow α × List (String × π)) :
    Py (List α × (Int → Option (Force α))) := do
  let f ← dictGet fs a.1
  let tau ← jcalc.jcalc_tau E a.2.2.1 f a.2.2.2.2.2
  if a.2.1 = -1 then pure (tau, fs)
  else do
    let fp ← dictGet fs a.2.1
    pure (tau, dictSet fs a.2.1 (fp + transform_force a.2.2.2.1 f))

/-- `jax.vmap(algebra.transform_inv)(sys.links.transform)` -/
def l_to_p [Ring α] (s : System α π) : List (Transform α) :=
  s.links.map fun l => transform_inv l.transform

/-- `/repo/src/ring/algorithms/dynamics.py:14-75` `inverse_dynamics`. `taus.insert(0, tau)` in the
reversed scan lists the torques in the order of the links. -/
def inverse_dynamics [Ring α] (E : JEnv α π) (s : System α π) (qd qdd : List α) : Py (List α) := do
  let gravity : Motion α := ⟨0, s.gravity⟩
  let r ← s.scanState E.toEnv (forward_scan E gravity) ⟨fun _ => none, fun _ => none, fun _ => none⟩
    ((argL (List.range s.num_links)).and <| (argL s.link_parents).and <| (argL s.link_types).and <|
      (argD qd).and <| (argD qdd).and (argL s.linkRows))
  let taus ← s.scanState E.toEnv (backwards_scan E) r.2.fs
    ((argL (List.range s.num_links)).and <| (argL s.link_parents).and <| (argL s.link_types).and <|
      (argL s.l_to_p).and (argL s.linkRows)) true
  jnpConcatenate taus.1

/-! ## mass matrix -/

/-- `l[i] = x` on a python list -/
def pySet {β : Type} (l : List β) (i : Int) (x : β) : Py (List β) :=
  let j := if i < 0 then i + l.length else i
  if j < 0 ∨ (l.length : Int) ≤ j then .error .index else .ok (l.set j.toNat x)

/-- `/repo/src/ring/algorithms/dynamics.py:87-91` `accumulate_inertias` -/
def accumulate_inertias [Field α] (l_to_p : List (Transform α)) (its : List (Inertia α))
    (_ : IdxMap) (a : Nat × Int) : Py (Inertia α × List (Inertia α)) :=
  if a.2 = -1 then do
    let it ← pyGet its a.1
    pure (it, its)
  else do
    let it_p ← pyGet its a.2
    let t ← pyGet l_to_p a.1
    let it ← pyGet its a.1
    let its' ← pySet its a.2 (it_p + transform_inertia t it)
    let it' ← pyGet its' a.1
    pure (it', its')

/-- `/repo/src/ring/algorithms/dynamics.py:112-129` `_jcalc_motion_matrix`: the motions of the joint
as rows; `None` (frozen joint) is the empty list. -/
def _jcalc_motion_matrix (E : JEnv α π) (s : System α π) (i : Nat) : Py (List (Vec6 α)) := do
  let row ← pyGet s.linkRows i
  let link_type ← pyGet s.link_types i
  let joint_params ← jcalc._limit_scope_of_joint_params link_type row.2
  let jm ← jcalc.get_joint_model E link_type
  pure (jm.motion.map fun m => (m joint_params).as_matrix)

/-- `H.at[idxs_i, idxs_j].set(B)`. The block has the shape of the two slices (jax raises otherwise;
this is not modelled). -/
def setBlock [Zero α] (H : Nat → Nat → α) (idxs_i idxs_j : Nat × Nat) (B : List (List α)) :
    Nat → Nat → α := fun r c =>
  if idxs_i.1 ≤ r ∧ r < idxs_i.2 ∧ idxs_j.1 ≤ c ∧ c < idxs_j.2 then
    (B.getD (r - idxs_i.1) []).getD (c - idxs_j.1) 0
  else H r c

/-- `jnp.tril` of a block -/
def tril [Zero α] (B : List (List α)) : List (List α) :=
  B.mapIdx fun r row => row.mapIdx fun c x => if c ≤ r then x else 0

/-- `f @ S.T` -/
def matmulT [Add α] [Mul α] (f S : List (Vec6 α)) : List (List α) :=
  f.map fun a => S.map fun b => a.dot b

/-- `/repo/src/ring/algorithms/dynamics.py:155-159` `transform_force` -/
def transform_force6 [Ring α] (t : Transform α) (f_arr : Vec6 α) : Vec6 α :=
  (algebra.transform_force t ⟨f_arr.fst, f_arr.snd⟩).as_matrix

/-- `/repo/src/ring/algorithms/dynamics.py:151-170` the `while` loop of `populate_H`; the first
argument bounds the number of rounds (running out of it means that the loop would not end within so
many rounds, which cannot happen when every parent comes before its children). -/
def populate_loop [Ring α] (s : System α π) (S : List (List (Vec6 α))) (m : IdxMap)
    (idxs_i : Nat × Nat) : Nat → Int → List (Vec6 α) → (Nat → Nat → α) → Py (Nat → Nat → α)
  | 0, _, _, _ => .error .recursion
  | fuel + 1, j, f, H => do
    let p ← pyGet s.link_parents j
    if p = -1 then pure H
    else do
      let t ← pyGet s.l_to_p j
      let f := f.map (transform_force6 t)
      let S_j ← pyGet S p
      if S_j = [] then populate_loop s S m idxs_i fuel p f H
      else do
        let idxs_j ← m.d p.toNat
        populate_loop s S m idxs_i fuel p f (setBlock H idxs_i idxs_j (matmulT f S_j))

/-- `/repo/src/ring/algorithms/dynamics.py:136-170` `populate_H` -/
def populate_H [Ring α] (s : System α π) (S : List (List (Vec6 α))) (I_mat : List (Mat6 α))
    (H : Nat → Nat → α) (m : IdxMap) (i : Nat) : Py (Unit × (Nat → Nat → α)) := do
  let S_i ← pyGet S i
  if S_i = [] then pure ((), H)
  else do
    let I_i ← pyGet I_mat i
    let f := S_i.map I_i.mulVec
    let idxs_i ← m.d i
    let H' ← populate_loop s S m idxs_i (s.num_links + 1) i f
      (setBlock H idxs_i idxs_i (tril (matmulT f S_i)))
    pure ((), H')

/-- `/repo/src/ring/algorithms/dynamics.py:172-174` `H + jnp.tril(H, -1).T + diag(armature)` -/
def fill_upper [Ring α] (H : Nat → Nat → α) (armature : List α) : Nat → Nat → α := fun r c =>
  H r c + (if r < c then H c r else 0) + (if r = c then armature.getD r 0 else 0)

/-- `/repo/src/ring/algorithms/dynamics.py:78-178` `compute_mass_matrix`. -/
def compute_mass_matrix [Field α] (E : JEnv α π) (s : System α π) : Py (SqMat α) := do
  let batched_its ← s.scanState E.toEnv (accumulate_inertias s.l_to_p)
    (s.links.map LinkRow.inertia)
    ((argL (List.range s.num_links)).and (argL s.link_parents)) true
  let I_mat := batched_its.1.map Inertia.as_matrix
  let S ← (List.range s.num_links).mapM (_jcalc_motion_matrix E s)
  let n ← s.qd_size E.toEnv
  let r ← s.scanState E.toEnv (populate_H s S I_mat) (fun _ _ => 0)
    (argL (List.range s.num_links)) true
  pure ⟨n, fill_upper r.2 s.link_armature⟩

/-- `/repo/src/ring/algorithms/dynamics.py:295-297` `kinetic_energy` -/
def kinetic_energy [Field α] (E : JEnv α π) (s : System α π) (qd : List α) : Py α := do
  let H ← compute_mass_matrix E s
  pure (1 / 2 * ((List.range H.size).map fun r => ((List.range H.size).map fun c =>
    qd.getD r 0 * H.entry r c * qd.getD c 0).sum).sum)

/-! ## forward dynamics -/

/-- `/repo/src/ring/base.py:609-610` `joint_type_is_free_or_cor` -/
def joint_type_is_free_or_cor (typ : String) : Bool :=
  joint_type_simplification typ = "free" ∨ joint_type_simplification typ = "cor"

/-- `/repo/src/ring/base.py:613-614` `joint_type_is_spherical` -/
def joint_type_is_spherical (typ : String) : Bool := joint_type_simplification typ = "spherical"

open jcalc in
/-- `/repo/src/ring/algorithms/dynamics.py:181-185` `_quaternion_spring_force` -/
noncomputable def _quaternion_spring_force (q_zeropoint q : List ℝ) : List ℝ :=
  let qrel := quat_mul (quatOf q_zeropoint) (quat_inv (quatOf q))
  let (axis, angle) := quat_to_rot_axis qrel
  vecList (.smul angle axis)

/-- element-wise difference -/
def lsub [Sub α] (a b : List α) : List α := List.zipWith (· - ·) a b
/-- element-wise sum -/
def ladd [Add α] (a b : List α) : List α := List.zipWith (· + ·) a b
/-- element-wise product -/
def lmul [Mul α] (a b : List α) : List α := List.zipWith (· * ·) a b

/-- `/repo/src/ring/algorithms/dynamics.py:191-201` `_calc_spring_force_per_link` -/
noncomputable def _calc_spring_force_per_link (a : List ℝ × List ℝ × String) : List ℝ :=
  if joint_type_is_free_or_cor a.2.2 then
    _quaternion_spring_force (a.2.1.take 4) (a.1.take 4) ++ lsub (a.2.1.drop 4) (a.1.drop 4)
  else if joint_type_is_spherical a.2.2 then _quaternion_spring_force a.2.1 a.1
  else lsub a.2.1 a.1

/-- `/repo/src/ring/algorithms/dynamics.py:188-210` `_spring_force` -/
noncomputable def _spring_force (E : JEnv ℝ π) (s : System ℝ π) (q : List ℝ) : Py (List ℝ) := do
  let fs ← s.scan E.toEnv (fun _ _ a => pure (_calc_spring_force_per_link a))
    ((argQ q).and <| (argQ s.link_spring_zeropoint).and (argL s.link_types))
  jnpConcatenate fs

/-- matrix times vector -/
noncomputable def mulVecL {n : Nat} (M : Matrix (Fin n) (Fin n) ℝ) (v : List ℝ) : List ℝ :=
  List.ofFn fun r : Fin n => ∑ c : Fin n, M r c * v.getD c 0

/-- Frobenius norm, `jnp.linalg.norm` of a matrix -/
noncomputable def frob {n : Nat} (M : Matrix (Fin n) (Fin n) ℝ) : ℝ :=
  √(∑ r : Fin n, ∑ c : Fin n, M r c ^ 2)

/-- `/repo/src/ring/algorithms/dynamics.py:339-345` `body_fn` of `_inv_approximate` -/
noncomputable def inv_approximate_body {n : Nat} (a : Matrix (Fin n) (Fin n) ℝ)
    (carry : Matrix (Fin n) (Fin n) ℝ × Matrix (Fin n) (Fin n) ℝ × ℝ) :
    Matrix (Fin n) (Fin n) ℝ × Matrix (Fin n) (Fin n) ℝ × ℝ :=
  let a_inv_next := carry.1 * (1 + carry.2.1)
  let r_next := 1 - a * a_inv_next
  let err_next := frob r_next
  (if err_next < carry.2.2 then a_inv_next else carry.1, r_next, err_next)

/-- `/repo/src/ring/algorithms/dynamics.py:348-349` the starting guess -/
noncomputable def inv_approximate_start {n : Nat} (a a_inv : Matrix (Fin n) (Fin n) ℝ) :
    Matrix (Fin n) (Fin n) ℝ :=
  if 1 < frob (1 - a * a_inv) then (1 / 2 : ℝ) • ((a * a.transpose).trace⁻¹ • a.transpose) else a_inv

/-- `/repo/src/ring/algorithms/dynamics.py:327-352` `_inv_approximate` -/
noncomputable def _inv_approximate {n : Nat} (a a_inv : Matrix (Fin n) (Fin n) ℝ) (num_iter : Nat) :
    Matrix (Fin n) (Fin n) ℝ :=
  ((inv_approximate_body a)^[num_iter]
    (inv_approximate_start a a_inv, 1 - a * a_inv, 1)).1

/-- `/repo/src/ring/algorithms/dynamics.py:228-245` the inverse of the mass matrix.
`jax.scipy.linalg.solve(M, eye)` is the exact inverse. -/
noncomputable def mass_mat_inv (s : System ℝ π) (M : SqMat ℝ) :
    Matrix (Fin M.size) (Fin M.size) ℝ :=
  if s.mass_mat_iters = 0 then
    (M.toMatrix + Matrix.diagonal (fun i : Fin M.size => s.link_damping.getD i 0 * s.dt) +
      (1e-6 : ℝ) • 1)⁻¹
  else _inv_approximate M.toMatrix 1 s.mass_mat_iters.toNat

/-- `/repo/src/ring/algorithms/dynamics.py:213-247` `forward_dynamics` (the accelerations) -/
noncomputable def forward_dynamics (E : JEnv ℝ π) (s : System ℝ π) (q qd tau : List ℝ) :
    Py (List ℝ) := do
  let C ← inverse_dynamics E s qd (qd.map fun _ => 0)
  let mass_matrix ← compute_mass_matrix E s
  let spring ← _spring_force E s q
  let spring_force := ladd (lmul (s.link_damping.map fun x => -x) qd)
    (lmul s.link_spring_stiffness spring)
  let qf_smooth := ladd (lsub tau C) spring_force
  pure (mulVecL (mass_mat_inv s mass_matrix) qf_smooth)

/-! ## integration -/

open jcalc in
/-- `/repo/src/ring/algorithms/dynamics.py:250-258` `_strapdown_integration` -/
noncomputable def _strapdown_integration (q : List ℝ) (dang : List ℝ) (dt : ℝ) : List ℝ :=
  let d := vecOf dang 0
  let dang_norm := norm3 d + 1e-8
  let axis := Vec3.smul (dang_norm⁻¹) d
  let angle := dang_norm * dt
  let q := quat_mul (quat_rot_axis axis angle) (quatOf q)
  quatList ⟨q.w / norm4 q, q.x / norm4 q, q.y / norm4 q, q.z / norm4 q⟩

/-- `/repo/src/ring/algorithms/dynamics.py:270-280` `q_integrate` -/
noncomputable def q_integrate (dt : ℝ) (a : List ℝ × List ℝ × String) : List ℝ :=
  if joint_type_is_free_or_cor a.2.2 then
    _strapdown_integration (a.1.take 4) (a.2.1.take 3) dt ++
      ladd (a.1.drop 4) ((a.2.1.drop 3).map fun x => x * dt)
  else if joint_type_is_spherical a.2.2 then _strapdown_integration a.1 a.2.1 dt
  else ladd a.1 (a.2.1.map fun x => dt * x)

/-- `/repo/src/ring/algorithms/dynamics.py:261-287` `_semi_implicit_euler_integration` -/
noncomputable def _semi_implicit_euler_integration (E : JEnv ℝ π) (s : System ℝ π)
    (state : State ℝ) (taus : List ℝ) : Py (State ℝ) := do
  let qdd ← forward_dynamics E s state.q state.qd taus
  let qd_next := ladd state.qd (qdd.map fun x => s.dt * x)
  let q_next ← s.scan E.toEnv (fun _ _ a => pure (q_integrate s.dt a))
    ((argQ state.q).and <| (argD qd_next).and (argL s.link_types))
  let q_next ← jnpConcatenate q_next
  pure { state with q := q_next, qd := qd_next }

/-- the loop `/repo/src/ring/algorithms/dynamics.py:317-322` -/
noncomputable def step_loop (E : JEnv ℝ π) (taus : List ℝ) :
    Nat → System ℝ π → State ℝ → Py (State ℝ)
  | 0, _, state => pure state
  | n + 1, s, state => do
    let r ← s.forward_kinematics E state
    let state ← _semi_implicit_euler_integration E r.1 r.2 taus
    step_loop E taus n r.1 state

/-- `/repo/src/ring/algorithms/dynamics.py:300-324` `step`; `integration_method` is compared in lower
case. -/
noncomputable def step (E : JEnv ℝ π) (s : System ℝ π) (state : State ℝ)
    (taus : Option (List ℝ) := none) (n_substeps : Nat := 1) : Py (State ℝ) := do
  let nq ← s.q_size E.toEnv
  pyAssert (nq = state.q.length)
  let taus := taus.getD (state.qd.map fun _ => 0)
  let nd ← s.qd_size E.toEnv
  pyAssert (nd = state.qd.length ∧ state.qd.length = taus.length)
  pyAssert (s.integration_method.toLower = "semi_implicit_euler")
  if n_substeps = 0 then .error .zeroDivision
  else step_loop E taus n_substeps { s with dt := s.dt / n_substeps } state

end System
end RingLib
