import Verif.Model.Surgery
import Verif.Model.Xml
import Verif.Model.Random
import Mathlib.Analysis.SpecialFunctions.Log.Basic

/-!
# Motion artifacts of IMUs

`/repo/src/ring/algorithms/generator/motion_artifacts.py`: every IMU becomes a pair of links, a
spherical joint `_imu` at the place of the IMU and a body `imu` below it that moves along three axes
(`p3d`); after the simulation the second one is hidden again.

Warnings are not modelled. `seed` of `load_sys_from_str` is the default, its key is a parameter.
-/

namespace RingLib
namespace artifacts
open System
variable {α π K : Type}

/-- `/repo/src/ring/algorithms/generator/motion_artifacts.py:12-13` `imu_reference_link_name` -/
def imu_reference_link_name (imu_link_name : String) : String := "_" ++ imu_link_name

/-- `/repo/src/ring/algorithms/generator/motion_artifacts.py:16-17` `unactuated_subsystem` -/
def unactuated_subsystem (sys : System α π) : List String :=
  sys.findall_imus.map imu_reference_link_name

/-- `f"{x} {x} {x}"` -/
def thrice (x : String) : String := x ++ " " ++ x ++ " " ++ x

/-- the numbers that `inject_subsystems` takes,
`/repo/src/ring/algorithms/generator/motion_artifacts.py:46-55` -/
structure Artifacts (α : Type) where
  pos_min_max : α
  rotational_stif : α
  rotational_damp : α
  translational_stif : α
  translational_damp : α

section inject
variable [Field α] [DecidableEq α]

/-- the document, `/repo/src/ring/algorithms/generator/motion_artifacts.py:27-43`; `damp` is already the
product with the stiffness -/
def subsystemDoc (T : io.Txt α) (imu_name : String) (pos_min_max stif damp : α) : io.Xml String :=
  .node "x_xy" [] [.node "worldbody" [] [.node "body"
    ([("name", imu_name), ("joint", "p3d")] ++
      (if pos_min_max ≠ 0 then
        [("pos_min", thrice ("-" ++ T.fmt pos_min_max)), ("pos_max", thrice (T.fmt pos_min_max))]
        else []) ++
      [("spring_stiff", thrice (T.fmt stif)), ("damping", thrice (T.fmt damp))]) []]]

/-- `/repo/src/ring/algorithms/generator/motion_artifacts.py:20-43` `_subsystem_factory` -/
def _subsystem_factory (E : Env α π) (T : io.Txt α) (J : io.JointInit π K) (key : K) (imu_name : String)
    (pos_min_max translational_stif translational_damp : α) : Py (System α π) := do
  pyAssert (E.ge pos_min_max 0 = true)
  let translational_damp := translational_stif * translational_damp
  io.load_sys_from_str E T J key (subsystemDoc T imu_name pos_min_max translational_stif translational_damp)

/-- `d[name]` of the dictionary of slices -/
def sliceOf (m : List (String × Idx)) (name : String) : Py (Nat × Nat) := do
  let i ← pyDict m name
  match i with
  | .slice a b => pure (a, b)
  | .at _ => .error .type

/-- `x.at[idx].set(v)` for integer indices; other lengths cannot be broadcast -/
def atSet {β : Type} (x : List β) (idx : List Nat) (v : List β) : Py (List β) :=
  if idx.length = v.length then .ok ((idx.zip v).foldl (fun x iv => x.set iv.1 iv.2) x)
  else .error .value

/-- the indices of a slice -/
def sliceIdx (s : Nat × Nat) : List Nat := List.range' s.1 (s.2 - s.1)

/-- the body of the loop over the IMUs,
`/repo/src/ring/algorithms/generator/motion_artifacts.py:61-77` with the defaults of lines 59-60 -/
def injectImu (E : Env α π) (T : io.Txt α) (J : io.JointInit π K) (key : K) (A : Artifacts α)
    (sys : System α π) (imu : String) : Py (System α π) := do
  let default_spher_stif := List.replicate 3 A.rotational_stif
  let default_spher_damp := default_spher_stif.map (· * A.rotational_damp)
  let sys ← sys.unfreeze E imu "spherical"
  let idx_map ← sys.idx_map E .d
  let qd_slice ← sliceOf idx_map imu
  let stiffne ← atSet sys.link_spring_stiffness (sliceIdx qd_slice) default_spher_stif
  let damping ← atSet sys.link_damping (sliceIdx qd_slice) default_spher_damp
  let sys := { sys with link_spring_stiffness := stiffne, link_damping := damping }
  let _imu := imu_reference_link_name imu
  let sys ← sys.change_link_name imu _imu
  let sub ← _subsystem_factory E T J key imu A.pos_min_max A.translational_stif A.translational_damp
  sys.inject_system E sub (some _imu)

/-- the body of the loop over the geometries,
`/repo/src/ring/algorithms/generator/motion_artifacts.py:83-87` -/
def reattach (sys : System α π) (imu_idx_to_name_map : List (Int × String)) (geom : Geometry α) :
    Py (Geometry α) :=
  match imu_idx_to_name_map.lookup geom.link_idx with
  | none => .ok geom
  | some imu_name => do
    let new_link_idx ← sys.name_to_idx imu_name
    pure { geom with link_idx := new_link_idx }

/-- `/repo/src/ring/algorithms/generator/motion_artifacts.py:46-109` `inject_subsystems`; `zeroLike` is
`tree_zeros_like` on a row of joint parameters -/
def inject_subsystems (E : Env α π) (T : io.Txt α) (J : io.JointInit π K) (key : K) (zeroLike : π → π)
    (A : Artifacts α) (sys : System α π) : Py (System α π) := do
  let imu_idx_to_name_map ← sys.findall_imus.mapM fun imu => do
    let i ← sys.name_to_idx imu
    pure ((i : Int), imu)
  let sys ← sys.findall_imus.foldlM (injectImu E T J key A) sys
  let new_geoms ← sys.geoms.mapM (reattach sys imu_idx_to_name_map)
  let sys := { sys with geoms := new_geoms }
  let sys ← parse E sys
  let joint_params_zeros := sys.joint_params.map fun x => (x.1, x.2.map zeroLike)
  let sys := { sys with joint_params := joint_params_zeros }
  let xml ← io.save_sys_to_str E T sys
  io.load_sys_from_str E T J key xml

end inject

/-! ## hiding the injected bodies -/

/-- the callback `f`, `/repo/src/ring/algorithms/generator/motion_artifacts.py:230-237`; instead of
appending to the two lists it returns what it appends (the columns of `q_large` as a slice) -/
def matchLink (sys_large : System α π) (q_idx_map : List (String × Idx)) (q_large_skip : List String)
    (name : String) : Py (Nat × Option (Nat × Nat)) := do
  let i ← sys_large.name_to_idx name
  if name ∈ q_large_skip then pure (i, none)
  else do
    let s ← sliceOf q_idx_map name
    pure (i, some s)

/-- `/repo/src/ring/algorithms/generator/motion_artifacts.py:215-243` `_match_q_x_between_sys`. `q_large`
and `x_large` are the lists of their rows (one per time step); concatenating columns of no link raises. -/
def _match_q_x_between_sys {X : Type} (E : Env α π) (sys_small : System α π) (q_large : List (List α))
    (x_large : List (List X)) (sys_large : System α π) (q_large_skip : List String) :
    Py (List (List α) × List (List X)) := do
  let q_size ← sys_large.q_size E
  pyAssert (∀ row ∈ q_large, row.length = q_size)
  pyAssert (∀ row ∈ x_large, row.length = sys_large.num_links)
  let q_idx_map ← sys_large.idx_map E .q
  let ys ← sys_small.scan E (fun _ _ name => matchLink sys_large q_idx_map q_large_skip name)
    (argL sys_small.link_names)
  let x_small := x_large.map fun row => jaxTake row (ys.map Prod.fst)
  let slices := ys.filterMap Prod.snd
  match slices with
  | [] => .error .value
  | _ => pure (q_large.map fun row => (slices.map (pySlice row)).flatten, x_small)

/-- the body of the loop, `/repo/src/ring/algorithms/generator/motion_artifacts.py:255` -/
def hideImu [Field α] [DecidableEq α] (E : Env α π) (sys : System α π) (imu : String) :
    Py (System α π) := do
  let sys ← sys.change_link_name (imu_reference_link_name imu) imu
  sys.change_joint_type E imu "frozen"

/-- `/repo/src/ring/algorithms/generator/motion_artifacts.py:246-260` `HideInjectedBodies` -/
def HideInjectedBodies {X : Type} [Field α] [DecidableEq α] (E : Env α π) (q : List (List α))
    (x : List (List X)) (sys_x : System α π) : Py (List (List α) × List (List X) × System α π) := do
  let imus := sys_x.findall_imus
  let sys ← delete_subsystems E sys_x imus
  let sys ← imus.foldlM (hideImu E) sys
  let qx ← _match_q_x_between_sys E sys q x sys_x imus
  pure (qx.1, qx.2, sys)

/-! ## random stiffness and damping -/

/-- `/repo/src/ring/algorithms/generator/motion_artifacts.py:121-124` `_log_uniform` with shape
`(n,)` -/
noncomputable def _log_uniform (R : Rng K) (key : K) (n : Nat) (minval maxval : ℝ) : Py (List ℝ) := do
  pyAssert (0 ≤ minval ∧ minval ≤ maxval)
  pure ((List.range n).map fun j =>
    Real.exp (scaleU (R.uniformN key n j) (Real.log minval) (Real.log maxval)))

/-- `/repo/src/ring/algorithms/generator/motion_artifacts.py:138-142` `stif_damp_rigid` -/
noncomputable def stif_damp_rigid : List ℝ × List ℝ :=
  let stif := List.replicate 3 200 ++ List.replicate 3 20000
  (stif, stif.map (· * (1 / 5)))

/-- `/repo/src/ring/algorithms/generator/motion_artifacts.py:144-150` `stif_damp_nonrigid` with the
limits of lines 112-118 -/
noncomputable def stif_damp_nonrigid (R : Rng K) (key : K) : Py (List ℝ × List ℝ) := do
  let stif_sph ← _log_uniform R (R.split key 3 0) 3 (1 / 5) 10
  let stif_p3d ← _log_uniform R (R.split key 3 1) 3 25 1000
  let stif := stif_sph ++ stif_p3d
  let damp ← _log_uniform R (R.split key 3 2) 6 (1 / 20) (1 / 2)
  pure (stif, List.zipWith (· * ·) stif damp)

/-- the options of the factory, `/repo/src/ring/algorithms/generator/motion_artifacts.py:127-132` -/
structure RigidOpts where
  prob_rigid : ℝ
  all_imus_either_rigid_or_flex : Bool
  imus_surely_rigid : List String

/-- `jax.random.bernoulli(key, p)`: `uniform(key) < p` -/
noncomputable def bernoulli (R : Rng K) (key : K) (p : ℝ) : Bool := R.uniform key < p

/-- The variables of the loop: `key`, `is_rigid`, `triggered_surely_rigid`, stiffness, damping. -/
structure RandState (K : Type) where
  key : K
  is_rigid : Bool
  triggered : List String
  stiffness : List ℝ
  damping : List ℝ

/-- the values of one IMU and the new `is_rigid` and `triggered_surely_rigid`,
`/repo/src/ring/algorithms/generator/motion_artifacts.py:172-184` -/
noncomputable def drawStif (R : Rng K) (o : RigidOpts) (st : RandState K) (imu : String) (c1 c2 : K) :
    Py ((List ℝ × List ℝ) × Bool × List String) :=
  if 0 < o.prob_rigid then
    if imu ∈ o.imus_surely_rigid then pure (stif_damp_rigid, st.is_rigid, st.triggered ++ [imu])
    else
      let is_rigid :=
        if o.all_imus_either_rigid_or_flex then st.is_rigid else bernoulli R c1 o.prob_rigid
      do
        let flex ← stif_damp_nonrigid R c2
        pure (if is_rigid then stif_damp_rigid else flex, is_rigid, st.triggered)
  else do
    let flex ← stif_damp_nonrigid R c2
    pure (flex, st.is_rigid, st.triggered)

/-- the body of the loop, `/repo/src/ring/algorithms/generator/motion_artifacts.py:167-186` -/
noncomputable def randomizeImu (R : Rng K) (o : RigidOpts) (idx_map : List (String × Idx))
    (st : RandState K) (imu : String) : Py (RandState K) := do
  let s1 ← sliceOf idx_map (imu_reference_link_name imu)
  let s2 ← sliceOf idx_map imu
  let slice := sliceIdx s1 ++ sliceIdx s2
  let key := R.split st.key 3 0
  let c1 := R.split st.key 3 1
  let c2 := R.split st.key 3 2
  let d ← drawStif R o st imu c1 c2
  let link_spring_stiffness ← atSet st.stiffness slice d.1.1
  let link_damping ← atSet st.damping slice d.1.2
  pure ⟨key, d.2.1, d.2.2, link_spring_stiffness, link_damping⟩

/-- `/repo/src/ring/algorithms/generator/motion_artifacts.py:127-200`
`setup_fn_randomize_damping_stiffness_factory` and the function it returns (the assertions of the
factory come first) -/
noncomputable def setup_fn_randomize_damping_stiffness (E : Env ℝ π) (R : Rng K) (o : RigidOpts) (key : K)
    (sys : System ℝ π) : Py (System ℝ π) := do
  pyAssert (0 ≤ o.prob_rigid ∧ o.prob_rigid ≤ 1)
  pyAssert (o.prob_rigid ≠ 1)
  pyAssert (o.prob_rigid = 0 → o.imus_surely_rigid.length = 0)
  let idx_map ← sys.idx_map E .d
  let imus := sys.findall_imus
  let is_rigid := bernoulli R (R.split key 2 1) o.prob_rigid
  let st ← imus.foldlM (randomizeImu R o idx_map)
    ⟨R.split key 2 0, is_rigid, [], sys.link_spring_stiffness, sys.link_damping⟩
  pyAssert (o.imus_surely_rigid.length = st.triggered.length)
  pyAssert (∀ imu ∈ o.imus_surely_rigid, imu ∈ st.triggered)
  pure { sys with link_damping := st.damping, link_spring_stiffness := st.stiffness }

end artifacts
end RingLib
