import Verif.Props.Scaled
import Verif.Spec.Clock

/-!
# C120: simulation in another unit of time

A system of hinges and sliders simulated in another unit of time: velocities, gravity, torques, springs, dampers and the
step size are converted, and every simulation takes the same positions.
-/

namespace RingLib
open maths jcalc algebra Finset _root_.RingLib.System

variable {π' : Type} {E : JEnv ℝ π'} {s : System ℝ π'}

theorem tempo_wf (h : s.WF E.toEnv) (k : ℝ) : (s.tempo k).WF E.toEnv := by
  refine { h with damping_len := ?_, stiffness_len := ?_ }
  · unfold System.tempo
    rw [List.length_map]
    exact h.damping_len
  · unfold System.tempo
    rw [List.length_map]
    exact h.stiffness_len

theorem tempo_dynamic (h : s.Dynamic E) (k : ℝ) : (s.tempo k).Dynamic E :=
  ⟨tempo_wf h.wf k, ⟨h.jointed.known, h.jointed.default⟩, h.widths, h.unit, h.geoms_unit⟩

theorem tempo_simulable (h : s.Simulable E) (k : ℝ) : (s.tempo k).Simulable E :=
  ⟨tempo_wf h.wf k, h.default, h.widths, h.builtin, h.nonempty, h.unit, h.geoms_unit, h.method⟩

theorem mulVecL_map {n : Nat} (A : Matrix (Fin n) (Fin n) ℝ) (c : ℝ) (v : List ℝ) :
    mulVecL A (v.map (c * ·)) = (mulVecL A v).map (c * ·) := by
  unfold mulVecL
  rw [List.map_ofFn]
  congr 1
  funext r
  simp only [Function.comp, getD_map_mul, Finset.mul_sum]
  apply Finset.sum_congr rfl
  intro c _
  ring

theorem tempo_inverse (h : s.Dynamic E) (hn : 0 < s.link_parents.length) (k : ℝ) {u : List ℝ}
    (hu : u.length = (s.link_types.map (wOf E.dw)).sum) :
    inverse_dynamics E (s.tempo k) (u.map (k * ·)) ((u.map (k * ·)).map fun _ => 0) =
      .ok ((torques E s u (u.map fun _ => 0)).map (k * k * ·)) := by
  have d := tempo_dynamic h k
  have hz : (u.map fun _ => (0 : ℝ)).length = (s.link_types.map (wOf E.dw)).sum := by rw [List.length_map]; exact hu
  have e : (u.map (k * ·)).map (fun _ => (0 : ℝ)) = (u.map fun _ => 0).map (k * k * ·) := by
    rw [List.map_map, List.map_map]
    apply List.map_congr_left
    intro x _
    simp
  have r := inverse_dynamics_ok d.wf d.jointed (qd := u.map (k * ·)) (qdd := (u.map fun _ => 0).map (k * k * ·))
    (by rw [List.length_map]; exact hu) (by rw [List.length_map]; exact hz) hn
  rw [e, r, ← torques_scale h k]
  rfl

theorem tempo_populate_loop (k : ℝ) (S : List (List (Vec6 ℝ))) (m : IdxMap) (a : Nat × Nat) (n : Nat) :
    ∀ j f H, populate_loop (s.tempo k) S m a n j f H = populate_loop s S m a n j f H := by
  induction n with
  | zero => intro j f H; rfl
  | succ n ih =>
    intro j f H
    unfold populate_loop
    simp only [ih]
    rfl

theorem tempo_populate (k : ℝ) : populate_H (s.tempo k) = populate_H s := by
  funext S I H m i
  unfold populate_H
  simp only [tempo_populate_loop]
  rfl

theorem tempo_checkPieces (k : ℝ) (ps : List (InType × Nat)) :
    checkPieces E.toEnv (s.tempo k) ps = checkPieces E.toEnv s ps := by
  induction ps with
  | nil => rfl
  | cons p ps ih =>
    unfold checkPieces
    rw [ih]
    rfl

theorem tempo_scanState {O Y σ : Type} (k : ℝ) (f : σ → IdxMap → O → Py (Y × σ)) (init : σ) (arg : ScanArg O) (b : Bool) :
    (s.tempo k).scanState E.toEnv f init arg b = s.scanState E.toEnv f init arg b := by
  unfold System.scanState System.scan
  rw [tempo_checkPieces]
  rfl

theorem tempo_motion_matrix (k : ℝ) : _jcalc_motion_matrix E (s.tempo k) = _jcalc_motion_matrix E s := rfl

theorem tempo_matrix (k : ℝ) : compute_mass_matrix E (s.tempo k) = compute_mass_matrix E s := by
  have e1 : (s.tempo k).l_to_p = s.l_to_p := rfl
  have e2 : (s.tempo k).links = s.links := rfl
  have e3 : (s.tempo k).num_links = s.num_links := rfl
  have e4 : (s.tempo k).link_parents = s.link_parents := rfl
  have e5 : (s.tempo k).link_armature = s.link_armature := rfl
  have e6 : (s.tempo k).qd_size E.toEnv = s.qd_size E.toEnv := rfl
  unfold compute_mass_matrix
  simp only [tempo_scanState, tempo_populate, tempo_motion_matrix, e1, e2, e3, e4, e5, e6]

theorem tempo_spring (k : ℝ) (q : List ℝ) : _spring_force E (s.tempo k) q = _spring_force E s q := rfl

theorem tempo_inv {k : ℝ} (hk : k ≠ 0) (M : SqMat ℝ) : mass_mat_inv (s.tempo k) M = mass_mat_inv s M := by
  have e : ∀ i : Nat, (s.tempo k).link_damping.getD i 0 * (s.tempo k).dt = s.link_damping.getD i 0 * s.dt := by
    intro i
    have e1 : (s.tempo k).link_damping.getD i 0 = k * s.link_damping.getD i 0 := getD_map_mul k _ _
    have e2 : (s.tempo k).dt = s.dt / k := rfl
    rw [e1, e2]
    field_simp
  unfold mass_mat_inv
  simp only [e]
  rfl

theorem tempo_forces (k : ℝ) (tau C u spring : List ℝ) :
    ladd (lsub (tau.map (k * k * ·)) (C.map (k * k * ·))) (ladd (lmul ((s.tempo k).link_damping.map fun x => -x)
      (u.map (k * ·))) (lmul (s.tempo k).link_spring_stiffness spring)) =
    (ladd (lsub tau C) (ladd (lmul (s.link_damping.map fun x => -x) u)
      (lmul s.link_spring_stiffness spring))).map (k * k * ·) := by
  have l1 : ∀ c (a b : List ℝ), lsub (a.map (c * ·)) (b.map (c * ·)) = (lsub a b).map (c * ·) := by
    intro c a b
    unfold lsub
    rw [List.zipWith_map, List.map_zipWith]
    simp only [mul_sub]
  have l2 : ∀ c (a b : List ℝ), ladd (a.map (c * ·)) (b.map (c * ·)) = (ladd a b).map (c * ·) := by
    intro c a b
    unfold ladd
    rw [List.zipWith_map, List.map_zipWith]
    simp only [mul_add]
  have l3 : lmul (s.link_spring_stiffness.map (k * k * ·)) spring =
      (lmul s.link_spring_stiffness spring).map (k * k * ·) := by
    unfold lmul
    rw [List.zipWith_map_left, List.map_zipWith]
    simp only [mul_assoc]
  have l4 : lmul ((s.tempo k).link_damping.map fun x => -x) (u.map (k * ·)) =
      (lmul (s.link_damping.map fun x => -x) u).map (k * k * ·) := by
    unfold lmul System.tempo
    rw [List.map_map, List.zipWith_map, List.zipWith_map_left, List.map_zipWith]
    congr 1
    funext a b
    simp only [Function.comp]
    ring
  have e : (s.tempo k).link_spring_stiffness = s.link_spring_stiffness.map (k * k * ·) := rfl
  rw [e, l4, l3, l1, l2, l2]

/-- **C120**: in a unit of time that is `k` times as long the accelerations that forward dynamics returns are `k²` times
as large. -/
theorem C120_accelerations (hE : E.Std) (h : s.Dynamic E) (hb : s.JointsIn fun _ => True)
    (hn : 0 < s.link_parents.length) {k : ℝ} (hk : k ≠ 0) {q u tau : List ℝ}
    (hq : q.length = (s.link_types.map (wOf E.qw)).sum) (hu : u.length = (s.link_types.map (wOf E.dw)).sum) :
    ∃ w, forward_dynamics E s q u tau = .ok w ∧
      forward_dynamics E (s.tempo k) q (u.map (k * ·)) (tau.map (k * k * ·)) = .ok (w.map (k * k * ·)) := by
  obtain ⟨spring, hs, _⟩ := spring_ok hE h.wf hb hn hq
  have hz : (u.map fun _ => (0 : ℝ)).length = (s.link_types.map (wOf E.dw)).sum := by rw [List.length_map]; exact hu
  have hC := inverse_dynamics_ok h.wf h.jointed hu hz hn
  obtain ⟨M, hM, _, _⟩ := mass_matrix_entries h
  refine ⟨_, by unfold forward_dynamics; rw [hC, hM, hs]; rfl, ?_⟩
  unfold forward_dynamics
  rw [tempo_inverse h hn k hu, tempo_matrix, hM, tempo_spring, hs]
  simp only [ok_bind, pure_ok]
  rw [tempo_inv hk, tempo_forces, mulVecL_map]

/-- the accelerations of a system with a free root, a hinge, a slider and a ball -/
example (y : ℝ) {xs : List (Transform ℝ)} {f : System ℝ Unit}
    (hf : kinSys.forward_kinematics_transforms stdEnv [0, 1, 0, 0, 5, 6, 7, 1 / 2, y, 1, 0, 0, 0] = .ok (xs, f)) :
    ∃ w, forward_dynamics stdEnv f [0, 1, 0, 0, 5, 6, 7, 1 / 2, y, 1, 0, 0, 0] [1, 2, 3, 4, 5, 6, 7, 8, 9, 10, 11]
        [1, 1, 1, 1, 1, 1, 1, 1, 1, 1, 2] = .ok w ∧
      forward_dynamics stdEnv (f.tempo 60) [0, 1, 0, 0, 5, 6, 7, 1 / 2, y, 1, 0, 0, 0]
        ([1, 2, 3, 4, 5, 6, 7, 8, 9, 10, 11].map (60 * ·)) ([1, 1, 1, 1, 1, 1, 1, 1, 1, 1, 2].map (60 * 60 * ·)) =
        .ok (w.map (60 * 60 * ·)) := by
  obtain ⟨hd, hp, hty⟩ := kinSys_filled_dynamic y hf
  refine C120_accelerations stdEnv_std hd ?_ (by rw [hp]; decide) (by norm_num) (by rw [hty, kinSys_widths.1]; rfl)
    (by rw [hty, kinSys_widths.2]; rfl)
  have := kinSys_builtin
  unfold System.JointsIn at this ⊢
  rw [hty]
  exact this

theorem noQuat_cases {t : String} (h : joint_type_is_free_or_cor_or_spherical t = false) :
    joint_type_is_free_or_cor t = false ∧ joint_type_is_spherical t = false := by
  unfold joint_type_is_free_or_cor_or_spherical at h
  unfold joint_type_is_free_or_cor joint_type_is_spherical
  simp only [decide_eq_false_iff_not, not_or] at h ⊢
  tauto

theorem chunks_map_mul (k : ℝ) (ws : List Nat) (l : List ℝ) :
    chunks ws (l.map (k * ·)) = (chunks ws l).map (List.map (k * ·)) := by
  induction ws generalizing l with
  | nil => rfl
  | cons w ws ih => simp only [chunks, List.map_cons, ← List.map_take, ← List.map_drop, ih]

theorem tempo_euler (hE : E.Std) (h : s.Dynamic E) (hb : s.JointsIn fun _ => True) (hn : 0 < s.link_parents.length)
    (hnq : s.NoQuat) {k : ℝ} (hk : k ≠ 0) {st st' : State ℝ} {tau : List ℝ}
    (hq : st.q.length = (s.link_types.map (wOf E.qw)).sum) (hqd : st.qd.length = (s.link_types.map (wOf E.dw)).sum)
    {w : List ℝ} (hw : forward_dynamics E s st.q st.qd tau = .ok w) (hwl : w.length = st.qd.length)
    (hst : _semi_implicit_euler_integration E s st tau = .ok st') :
    _semi_implicit_euler_integration E (s.tempo k) (st.tempo k) (tau.map (k * k * ·)) = .ok (st'.tempo k) := by
  obtain ⟨w', w1, w2⟩ := C120_accelerations hE h hb hn hk (tau := tau) hq hqd
  rw [hw] at w1
  cases w1
  have hqn : ladd (st.qd.map (k * ·)) ((w.map (k * k * ·)).map fun x => s.dt / k * x) =
      (ladd st.qd (w.map fun x => s.dt * x)).map (k * ·) := by
    unfold ladd
    rw [List.map_map, List.zipWith_map, List.zipWith_map_right, List.map_zipWith]
    congr 1
    funext a b
    simp only [Function.comp]
    field_simp
  have hl : (ladd st.qd (w.map fun x => s.dt * x)).length = (s.link_types.map (wOf E.dw)).sum := by
    simp [ladd, hwl, hqd]
  have scan : ∀ (dt : ℝ) (v : List ℝ), v.length = (s.link_types.map (wOf E.dw)).sum →
      s.scan E.toEnv (fun _ _ a => pure (q_integrate dt a)) ((argQ st.q).and <| (argD v).and (argL s.link_types)) =
      .ok (((chunks (s.link_types.map (wOf E.qw)) st.q).zip
        ((chunks (s.link_types.map (wOf E.dw)) v).zip s.link_types)).map (q_integrate dt)) := by
    intro dt v hv
    exact scan_pure h.wf.known h.wf.types_len _ (arg := (argQ st.q).and <| (argD v).and (argL s.link_types)) (by
        intro x hx
        simp only [ScanArg.and, argQ, argD, argL, List.mem_append, List.mem_singleton] at hx
        rcases hx with rfl | rfl | rfl
        · exact hq
        · exact hv
        · exact h.wf.types_len)
      (rows_and (rows_argQ rfl _) (rows_and (rows_argD rfl _) (rows_argL _ _))) (by simp [h.wf.types_len])
  unfold _semi_implicit_euler_integration at hst ⊢
  have w2' : forward_dynamics E (s.tempo k) (st.tempo k).q (st.tempo k).qd (tau.map (k * k * ·)) =
    .ok (w.map (k * k * ·)) := w2
  rw [hw] at hst
  rw [w2']
  simp only [ok_bind] at hst ⊢
  have e : ladd (st.tempo k).qd ((w.map (k * k * ·)).map fun x => (s.tempo k).dt * x) =
      (ladd st.qd (w.map fun x => s.dt * x)).map (k * ·) := hqn
  rw [e]
  generalize ladd st.qd (w.map fun x => s.dt * x) = v at hst hl ⊢
  have sc : (s.tempo k).scan E.toEnv (fun _ _ a => pure (q_integrate (s.tempo k).dt a))
      ((argQ (st.tempo k).q).and <| (argD (v.map (k * ·))).and (argL (s.tempo k).link_types)) = _ :=
    scan (s.dt / k) (v.map (k * ·)) (by rw [List.length_map]; exact hl)
  rw [sc]
  rw [scan s.dt v hl] at hst
  have hp : ((chunks (s.link_types.map (wOf E.qw)) st.q).zip
        ((chunks (s.link_types.map (wOf E.dw)) (v.map (k * ·))).zip s.link_types)).map (q_integrate (s.dt / k)) =
      ((chunks (s.link_types.map (wOf E.qw)) st.q).zip
        ((chunks (s.link_types.map (wOf E.dw)) v).zip s.link_types)).map (q_integrate s.dt) := by
    rw [chunks_map_mul]
    apply List.ext_getElem
    · simp
    · intro i h1 h2
      simp only [List.getElem_map, List.getElem_zip]
      have hi : i < s.link_types.length := by
        simp only [List.length_map, List.length_zip] at h1
        omega
      obtain ⟨n1, n2⟩ := noQuat_cases (hnq _ (List.getElem_mem hi))
      unfold q_integrate
      simp only [n1, n2, Bool.false_eq_true, if_false]
      rw [List.map_map]
      congr 1
      apply List.map_congr_left
      intro x _
      simp only [Function.comp]
      field_simp
  rw [hp]
  simp only [ok_bind] at hst ⊢
  revert hst
  generalize jnpConcatenate _ = r
  cases r with
  | error e => intro hst; cases hst
  | ok q' => intro hst; cases hst; rfl

theorem tempo_loop (hE : E.Std) {k : ℝ} (hk : k ≠ 0) {tau : List ℝ} (n : Nat) : ∀ {s : System ℝ π'}, s.Simulable E →
    s.NoQuat → |s.dt| < 1e8 → ∀ {st : State ℝ}, st.q.length = (s.link_types.map (wOf E.qw)).sum →
    st.qd.length = (s.link_types.map (wOf E.dw)).sum → tau.length = st.qd.length → s.UnitQ E st.q →
    ∀ {st'}, step_loop E tau n s st = .ok st' →
      step_loop E (tau.map (k * k * ·)) n (s.tempo k) (st.tempo k) = .ok (st'.tempo k) := by
  induction n with
  | zero =>
    intro s _ _ _ st _ _ _ _ st' h
    cases h
    rfl
  | succ n ih =>
    intro s h hnq hdt st hq hqd htau hu st' hst'
    have f₁ := fk_filled hE h hq
    have f₂ : (s.tempo k).forward_kinematics E (st.tempo k) = .ok ((filled E s st.q).tempo k,
        State.tempo k { st with x := (List.range s.link_parents.length).map (fkPose E s st.q) }) :=
      fk_filled hE (tempo_simulable h k) (st := st.tempo k) hq
    obtain ⟨s', x, hfk, same, hsim, hdyn, hdt'⟩ := fk_simulable hE h hq hu
    rw [f₁] at hfk
    obtain rfl : filled E s st.q = s' := ((Prod.mk.injEq _ _ _ _).mp ((Except.ok.injEq _ _).mp hfk)).1
    obtain ⟨qdd, st1, hw, hwl, hst, l1, l2, hu1, _⟩ := C28_semi_implicit hE hdyn hsim.builtin hsim.nonempty
      (st := { st with x := (List.range s.link_parents.length).map (fkPose E s st.q) }) (tau := tau) hq hqd htau hu hdt
    have e := tempo_euler hE hdyn hsim.builtin hsim.nonempty hnq hk (tau := tau)
      (st := { st with x := (List.range s.link_parents.length).map (fkPose E s st.q) }) hq hqd hw hwl hst
    unfold step_loop at hst' ⊢
    rw [f₁] at hst'
    rw [f₂]
    simp only [ok_bind] at hst' ⊢
    rw [hst] at hst'
    rw [e]
    simp only [ok_bind] at hst' ⊢
    exact ih hsim hnq hdt (l1 ▸ hq) (l2 ▸ hqd) (htau.trans l2.symm) hu1 hst'

theorem unitQ_of_noQuat (hnq : s.NoQuat) (q : List ℝ) : s.UnitQ E q := by
  intro i hi hj
  rw [hnq _ (List.getElem_mem hi)] at hj
  cases hj

/-- **C120**: a simulation of hinges and sliders in another unit of time takes the same positions, and `k` times the
velocities, after any number of substeps. -/
theorem C120_simulation (hE : E.Std) (h : s.Simulable E) (hnq : s.NoQuat) (hdt : |s.dt| < 1e8) {k : ℝ} (hk : k ≠ 0)
    {st : State ℝ} {tau : List ℝ} {n : Nat} (hn : 0 < n)
    (hq : st.q.length = (s.link_types.map (wOf E.qw)).sum) (hqd : st.qd.length = (s.link_types.map (wOf E.dw)).sum)
    (htau : tau.length = st.qd.length) :
    ∃ st', step E s st (some tau) n = .ok st' ∧
      step E (s.tempo k) (st.tempo k) (some (tau.map (k * k * ·))) n = .ok (st'.tempo k) := by
  have hu := unitQ_of_noQuat (E := E) hnq st.q
  obtain ⟨st', h1, _⟩ := C28_step hE h hdt (taus := some tau) hn hq hqd
    (fun t ht => by cases ht; exact htau) hu
  refine ⟨st', h1, ?_⟩
  rw [step_eq_loop (taus := some tau) h hn hq hqd htau] at h1
  have l : (st.tempo k).qd.length = st.qd.length := List.length_map _
  rw [step_eq_loop (taus := some (tau.map (k * k * ·))) (tempo_simulable h k) hn (st := st.tempo k) hq
    (l.trans hqd) (by rw [Option.getD_some, List.length_map, l]; exact htau)]
  have same : SameButCache s { s with dt := s.dt / n } := ⟨rfl, rfl, fun i h1 h2 => ⟨rfl, rfl, rfl, rfl⟩⟩
  have e : ({ s.tempo k with dt := (s.tempo k).dt / n } : System ℝ π') = System.tempo k { s with dt := s.dt / n } := by
    have : s.dt / k / n = s.dt / n / k := div_right_comm _ _ _
    unfold System.tempo
    simp only [this]
  rw [e]
  exact tempo_loop (s := { s with dt := s.dt / n }) hE hk n (Simulable.of_same h same) hnq (by
    simp only [abs_div, Nat.abs_cast]
    apply lt_of_le_of_lt _ hdt
    apply div_le_self (abs_nonneg _)
    exact_mod_cast hn) hq hqd htau hu h1

/-- the double pendulum, with a damper, a spring and a torque, in a unit of time that is 60 times as long -/
example : ∃ st', step stdEnv pendSys ⟨[1, 2], [7, 3], []⟩ (some [5, 0]) 6 = .ok st' ∧
    step stdEnv (pendSys.tempo 60) (State.tempo 60 ⟨[1, 2], [7, 3], []⟩) (some ([5, 0].map (60 * 60 * ·))) 6 =
      .ok (st'.tempo 60) := by
  refine C120_simulation stdEnv_std pendSys_simulable ?_ ?_ (by norm_num) (st := ⟨[1, 2], [7, 3], []⟩) (by norm_num) ?_ ?_
    rfl
  · intro t ht
    simp only [pendSys, List.mem_cons, List.not_mem_nil, or_false] at ht
    rcases ht with rfl | rfl <;> decide
  · change |(1 / 100 : ℝ)| < 1e8
    rw [abs_of_pos (by norm_num)]
    norm_num
  · rw [pendSys_widths.1]; rfl
  · rw [pendSys_widths.2]; rfl

end RingLib
