import Verif.Model.Dynamics
import Verif.Model.Surgery
import Verif.Model.Utils

/-!
# P(D)-controlled simulation

`/repo/src/ring/algorithms/generator/pd_control.py` and `DynamicalSimulation` of
`/repo/src/ring/algorithms/generator/finalize_fns.py`.

* A trajectory (an array of shape `(T, n)`) is the list of its `T` rows.  Slicing the columns of the
  transposed array and transposing back is slicing each row.
* `jcalc.get_joint_model(typ).qd_from_q` is the parameter `qd_from_q`.
* `jax.lax.scan` is a loop over `length` steps.
-/

namespace RingLib

namespace jcalc

/-- `/repo/src/ring/algorithms/jcalc.py:824-830` `_qd_from_q_quaternion` -/
noncomputable def _qd_from_q_quaternion (qs : List (List ℝ)) (dt : ℝ) : List (List ℝ) :=
  [0, 0, 0] :: List.zipWith (fun a b =>
      (_p_control_quaternion b a).map fun x => x / (2 * dt)) (qs.drop 2) (qs.take (qs.length - 2))
    ++ [[0, 0, 0]]

/-- `/repo/src/ring/algorithms/jcalc.py:833-837` `_qd_from_q_cartesian` -/
noncomputable def _qd_from_q_cartesian (qs : List (List ℝ)) (dt : ℝ) : List (List ℝ) :=
  (qs.headD []).map (fun _ => 0) :: List.zipWith (fun a b =>
      (List.zipWith (· - ·) a b).map fun x => x / (2 * dt)) (qs.drop 2) (qs.take (qs.length - 2))
    ++ [(qs.headD []).map fun _ => 0]

/-- `/repo/src/ring/algorithms/jcalc.py:885-888` `_qd_from_q_free` -/
noncomputable def _qd_from_q_free (qs : List (List ℝ)) (dt : ℝ) : List (List ℝ) :=
  List.zipWith (· ++ ·) (_qd_from_q_quaternion (qs.map fun q => q.take 4) dt)
    (_qd_from_q_cartesian (qs.map fun q => q.drop 4) dt)

/-- the column `qd_from_q` of the table of joint models,
`/repo/src/ring/algorithms/jcalc.py:934-1050` -/
noncomputable def BuiltIn.qd_from_q : BuiltIn → List (List ℝ) → ℝ → List (List ℝ)
  | .free | .cor => _qd_from_q_free
  | .spherical => _qd_from_q_quaternion
  | _ => _qd_from_q_cartesian

end jcalc

namespace System
variable {π : Type}

/-- the size of the second axis of a trajectory -/
def ncols (rows : List (List ℝ)) : Nat := (rows.headD []).length

/-- the argument `q_ref.T` with letter `q`; `f` receives the columns of the link, already
transposed back (`/repo/src/ring/algorithms/generator/pd_control.py:60-62, 77`) -/
def argQT (rows : List (List ℝ)) : ScanArg (List (List ℝ)) :=
  ⟨[(.q, ncols rows)], fun m i => do
    let sl ← m.q i
    pure (rows.map fun row => pySlice row sl)⟩

/-- `a * b` of two one-dimensional arrays -/
noncomputable def bmul (a b : List ℝ) : Py (List ℝ) :=
  if a.length = b.length then .ok (lmul a b)
  else if a.length = 1 then .ok (b.map fun y => a.getD 0 0 * y)
  else if b.length = 1 then .ok (a.map fun x => x * b.getD 0 0)
  else .error .type

/-- `a + b` of two one-dimensional arrays -/
noncomputable def badd (a b : List ℝ) : Py (List ℝ) :=
  if a.length = b.length then .ok (ladd a b)
  else if a.length = 1 then .ok (b.map fun y => a.getD 0 0 + y)
  else if b.length = 1 then .ok (a.map fun x => x + b.getD 0 0)
  else .error .type

/-- `a - b` of two one-dimensional arrays -/
noncomputable def bsub (a b : List ℝ) : Py (List ℝ) := badd a (b.map fun y => -y)

/-- `arr.at[start:stop].set(v)` -/
def setSlice (arr : List ℝ) (sl : Nat × Nat) (v : List ℝ) : Py (List ℝ) :=
  if v.length = sl.2 - sl.1 then .ok (arr.take sl.1 ++ v ++ arr.drop sl.2)
  else if v.length = 1 then
    .ok (arr.take sl.1 ++ List.replicate (sl.2 - sl.1) (v.getD 0 0) ++ arr.drop sl.2)
  else .error .value

/-- `/repo/src/ring/algorithms/generator/pd_control.py:13-19` `PDControllerState` -/
structure PDControllerState where
  i : Nat
  q_ref_as_dict : Dict (List (List ℝ))
  qd_ref_as_dict : Dict (List (List ℝ))
  P_gains : Dict (List ℝ)
  D_gains : Dict (List ℝ)

/-- The callback of `init`, `/repo/src/ring/algorithms/generator/pd_control.py:60-72`. -/
def pdInitLink (E : JEnv ℝ π)
    (qd_from_q : String → Option (List (List ℝ) → ℝ → List (List ℝ))) (hasD : Bool) (dt : ℝ)
    (cs : PDControllerState) (a : List (List ℝ) × String × String × List ℝ × List ℝ) :
    Py (Unit × PDControllerState) := do
  let (q_ref_link, name, typ, P_link, D_link) := a
  let cs := { cs with P_gains := cs.P_gains.set name P_link }
  let cs := { cs with q_ref_as_dict := cs.q_ref_as_dict.set name q_ref_link }
  if hasD then do
    let _ ← jcalc.get_joint_model E typ
    match qd_from_q typ with
    | none => .error .notImplemented
    | some f =>
      let cs := { cs with qd_ref_as_dict := cs.qd_ref_as_dict.set name (f q_ref_link dt) }
      pure ((), { cs with D_gains := cs.D_gains.set name D_link })
  else pure ((), cs)

/-- `/repo/src/ring/algorithms/generator/pd_control.py:49-83` `init` of `_pd_control(P, D)` -/
def pd_control_init (E : JEnv ℝ π)
    (qd_from_q : String → Option (List (List ℝ) → ℝ → List (List ℝ))) (P : List ℝ)
    (D : Option (List ℝ)) (s : System ℝ π) (q_ref : List (List ℝ)) : Py PDControllerState := do
  let nq ← s.q_size E.toEnv
  pyAssert (nq = ncols q_ref)
  let nd ← s.qd_size E.toEnv
  pyAssert (nd = P.length)
  match D with
  | none => pure ()
  | some D => pyAssert (nd = D.length)
  let r ← s.scanState E.toEnv
    (fun cs _ a => pdInitLink E qd_from_q D.isSome s.dt cs a) ⟨0, [], [], [], []⟩
    ((argQT q_ref).and <| (argL s.link_names).and <| (argL s.link_types).and <|
      (argD P).and (argD (D.getD (List.replicate nd 0))))
  pure r.2

/-- `jax.lax.dynamic_index_in_dim(arr, i, keepdims=False)`: the index is clamped. -/
def dynIndex (rows : List (List ℝ)) (i : Nat) : Py (List ℝ) :=
  match rows with
  | [] => .error .type
  | _ => .ok (rows.getD (min i (rows.length - 1)) [])

/-- `jax.tree_map` over the values of a dictionary -/
def mapDict {β γ : Type} (f : β → Py γ) (d : Dict β) : Py (Dict γ) :=
  d.mapM fun x => do
    let y ← f x.2
    pure (x.1, y)

/-- The callback of `apply`, `/repo/src/ring/algorithms/generator/pd_control.py:96-114`. -/
noncomputable def pdApplyLink (E : JEnv ℝ π) (cs : PDControllerState) (q_ref qd_ref : Dict (List ℝ))
    (taus : List ℝ) (m : IdxMap) (a : Nat × String × String × List ℝ × List ℝ) :
    Py (Unit × List ℝ) := do
  let (idx, name, typ, q_curr, qd_curr) := a
  if name ∉ cs.q_ref_as_dict.keys then pure ((), taus)
  else do
    let jm ← jcalc.get_joint_model E typ
    match jm.p_control_term with
    | none => .error .notImplemented
    | some p_control_term =>
      let ref ← pyDict q_ref name
      let gain ← pyDict cs.P_gains name
      let tau ← bmul (p_control_term q_curr ref) gain
      let tau ← if name ∈ cs.qd_ref_as_dict.keys then do
          let qd ← pyDict qd_ref name
          let err ← bsub qd qd_curr
          let gain ← pyDict cs.D_gains name
          let D_term ← bmul err gain
          badd tau D_term
        else pure tau
      let sl ← m.d idx
      let taus ← setSlice taus sl tau
      pure ((), taus)

/-- `/repo/src/ring/algorithms/generator/pd_control.py:85-126` `apply` of `_pd_control(P, D)` -/
noncomputable def pd_control_apply (E : JEnv ℝ π) (cs : PDControllerState) (s : System ℝ π)
    (state : State ℝ) : Py (PDControllerState × List ℝ) := do
  let nd ← s.qd_size E.toEnv
  let q_ref ← mapDict (fun arr => dynIndex arr cs.i) cs.q_ref_as_dict
  let qd_ref ← mapDict (fun arr => dynIndex arr cs.i) cs.qd_ref_as_dict
  let r ← s.scanState E.toEnv (fun taus m a => pdApplyLink E cs q_ref qd_ref taus m a)
    (List.replicate nd 0)
    ((argL (List.range s.num_links)).and <| (argL s.link_names).and <| (argL s.link_types).and <|
      (argQ state.q).and (argD state.qd))
  pure ({ cs with i := cs.i + 1 }, r.2)

/-- The callback of `_initial_q_is_q_ref`,
`/repo/src/ring/algorithms/generator/pd_control.py:177-179`. -/
def initialLink (sys_q_map : Dict Idx) (q : List ℝ) (a : String × List ℝ) : Py (Unit × List ℝ) := do
  match ← pyDict sys_q_map a.1 with
  | .slice start stop => do
    let q ← setSlice q (start, stop) a.2
    pure ((), q)
  | .at _ => .error .type

/-- `/repo/src/ring/algorithms/generator/pd_control.py:171-183` `_initial_q_is_q_ref` -/
noncomputable def _initial_q_is_q_ref (E : JEnv ℝ π) (s sys_q_ref : System ℝ π) (q_ref : List ℝ) :
    Py (State ℝ) := do
  let st ← State.create E s
  let sys_q_map ← s.idx_map E.toEnv .q
  let r ← sys_q_ref.scanState E.toEnv (fun q _ a => initialLink sys_q_map q a) st.q
    ((argL sys_q_ref.link_names).and (argQ q_ref))
  State.create E s (some r.2)

/-- `jnp.clip(taus, -clip_taus, clip_taus)` after the assertion,
`/repo/src/ring/algorithms/generator/pd_control.py:160-162` -/
noncomputable def clipTaus (clip_taus : Option ℝ) (taus : List ℝ) : Py (List ℝ) := do
  match clip_taus with
  | none => pure taus
  | some c =>
    pyAssert (0 < c)
    pure (taus.map fun x => min (max x (-c)) c)

/-- The loop of `_unroll_dynamics_pd_control`,
`/repo/src/ring/algorithms/generator/pd_control.py:157-165`. -/
noncomputable def pdLoop (E : JEnv ℝ π) (s : System ℝ π) (clip_taus : Option ℝ) :
    Nat → State ℝ → PDControllerState → Py (List (State ℝ))
  | 0, _, _ => .ok []
  | n + 1, state, cs => do
    let (cs, taus) ← pd_control_apply E cs s state
    let taus ← clipTaus clip_taus taus
    let state ← step E s state (some taus)
    let rest ← pdLoop E s clip_taus n state cs
    pure (state :: rest)

/-- `/repo/src/ring/algorithms/generator/pd_control.py:131-168` `_unroll_dynamics_pd_control` -/
noncomputable def _unroll_dynamics_pd_control (E : JEnv ℝ π)
    (qd_from_q : String → Option (List (List ℝ) → ℝ → List (List ℝ))) (s : System ℝ π)
    (q_ref : List (List ℝ)) (P : List ℝ) (D : Option (List ℝ) := none) (nograv : Bool := false)
    (sys_q_ref : Option (System ℝ π) := none) (initial_sim_state_is_zeros : Bool := false)
    (clip_taus : Option ℝ := none) : Py (List (State ℝ)) := do
  let sys_q_ref := sys_q_ref.getD s
  let s := if nograv then { s with gravity := s.gravity.smul 0 } else s
  let state ← if initial_sim_state_is_zeros then State.create E s
    else do
      let q0 ← pyGet q_ref 0
      _initial_q_is_q_ref E s sys_q_ref q0
  let cs ← pd_control_init E qd_from_q P D sys_q_ref q_ref
  pdLoop E s clip_taus q_ref.length state cs

/-- `/repo/src/ring/algorithms/generator/finalize_fns.py:158-178` `_P_gains` -/
noncomputable def _P_gains : Dict (List ℝ) :=
  let P_rot := 100
  let P_pos := 250
  [("free", [P_rot, P_rot, P_rot, P_pos, P_pos, P_pos]),
   ("free_2d", [P_rot, P_pos, P_pos]),
   ("px", [P_pos]), ("py", [P_pos]), ("pz", [P_pos]),
   ("rx", [P_rot]), ("ry", [P_rot]), ("rz", [P_rot]),
   ("rr", [P_rot]),
   ("rr_imp", [P_rot, P_rot]),
   ("cor", [P_rot, P_rot, P_rot, P_pos, P_pos, P_pos, P_pos, P_pos, P_pos]),
   ("spherical", [P_rot, P_rot, P_rot]),
   ("p3d", [P_pos, P_pos, P_pos]),
   ("saddle", [P_rot, P_rot]),
   ("rsaddle", [P_rot, P_rot]),
   ("frozen", []),
   ("suntay", [P_rot])]

/-- The options of `DynamicalSimulation`,
`/repo/src/ring/algorithms/generator/finalize_fns.py:182-194`. -/
structure DynSim where
  custom_P_gains : Dict (List ℝ)
  unactuated_links : List String
  overwrite_q_ref : Option (List (List ℝ) × Dict Idx)
  D : Option (List ℝ)
  nograv : Bool
  initial_sim_state_is_zeros : Bool
  clip_taus : Option ℝ

/-- the rows of the slice a value of `idx_map` stands for -/
def idxSlice : Idx → Nat × Nat
  | .at i => (i, i + 1)
  | .slice a b => (a, b)

/-- The callback `build_q_ref`, `/repo/src/ring/algorithms/generator/finalize_fns.py:234-254`. -/
noncomputable def build_q_ref (E : JEnv ℝ π) (o : DynSim) (idx_map_q : Dict Idx) (a : String × String) :
    Py ((Nat × Nat) × List ℝ) := do
  let idx ← pyDict idx_map_q a.1
  let gain ← match o.custom_P_gains.lookup a.2 with
    | some g => pure g
    | none => match _P_gains.lookup a.2 with
      | some g => pure g
      | none => .error .runtime
  let required_qd_size ← width E.dw a.2
  pyAssert (required_qd_size = gain.length)
  pure (idxSlice idx, gain)

/-- `/repo/src/ring/algorithms/generator/finalize_fns.py:216-266` `DynamicalSimulation.__call__`, the
trajectory of states; `X`, `y` and the key are handed on. -/
noncomputable def DynSim.call (E : JEnv ℝ π)
    (qd_from_q : String → Option (List (List ℝ) → ℝ → List (List ℝ))) (o : DynSim)
    (q : List (List ℝ)) (sys_x : System ℝ π) : Py (List (List ℝ) × List (State ℝ)) := do
  let idx_map_q ← sys_x.idx_map E.toEnv .q
  let (q, idx_map_q) ← match o.overwrite_q_ref with
    | none => pure (q, idx_map_q)
    | some (q, idx_map_q) => do
      pyAssert (ncols q = (idx_map_q.map fun x => (idxSlice x.2).2 - (idxSlice x.2).1).sum)
      pure (q, idx_map_q)
  let sys_q_ref ← if 0 < o.unactuated_links.length then
      delete_subsystems E.toEnv sys_x o.unactuated_links
    else pure sys_x
  let pieces ← sys_q_ref.scan E.toEnv (fun _ _ a => build_q_ref E o idx_map_q a)
    ((argL sys_q_ref.link_names).and (argL sys_q_ref.link_types))
  let p_gains_array ← jnpConcatenate (pieces.map (·.2))
  let q_ref := q.map fun row => (pieces.map fun x => pySlice row x.1).flatten
  let states ← _unroll_dynamics_pd_control E qd_from_q sys_x q_ref p_gains_array o.D o.nograv
    (some sys_q_ref) o.initial_sim_state_is_zeros o.clip_taus
  pure (q_ref, states)

end System
end RingLib
