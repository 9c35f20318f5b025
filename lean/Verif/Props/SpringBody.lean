import Verif.Model.SpringSim
import Verif.Props.FreeFall
import Verif.Props.QuasiPhysical

/-!
# C107: a body on springs in the physics engine

One body on a prismatic joint with three axes (`p3d`), with springs and dampers: what one step of the simulation does to
it, and when the IMU of `_quasi_physical_simulation_beautiful` settles.
-/

namespace RingLib
open maths jcalc algebra System
open Filter Topology
variable {π' : Type}

/-! ## Specification -/

/-- One step of a mass on a spring and a damper along one axis: the force is taken at the old position, the damping of
the mass matrix at the new velocity, and the position moves with the new velocity. `F` is the constant outer force. -/
def Hooke (M d k dt F z q v q' v' : ℝ) : Prop :=
  M * (v' - v) = dt * (F + k * (z - q) - d * v') ∧ q' = q + dt * v'

/-- One rigid body on a `p3d` joint. -/
structure SpringBody (E : JEnv ℝ π') (s : System ℝ π') : Prop where
  simulable : s.Simulable E
  parents : s.link_parents = [-1]
  types : s.link_types = ["p3d"]
  physical : ∀ g ∈ s.geoms, g.Physical
  damping : ∀ x ∈ s.link_damping, 0 ≤ x
  armature : ∀ x ∈ s.link_armature, 0 ≤ x
  dt : 0 ≤ s.dt
  dt_small : s.dt < 1e8
  exact_inverse : s.mass_mat_iters = 0

/-- a component of a vector by number -/
def comp (v : Vec3 ℝ) (r : Nat) : ℝ := [v.x, v.y, v.z].getD r 0

/-! ## Proofs -/

theorem p3d_widths {E : JEnv ℝ π'} (hE : E.Std) {s : System ℝ π'} (ht : s.link_types = ["p3d"]) :
    (s.link_types.map (wOf E.qw)).sum = 3 ∧ (s.link_types.map (wOf E.dw)).sum = 3 := by
  have w := wOf_std hE .p3d
  rw [ht]
  simp only [List.map_cons, List.map_nil, List.sum_cons, List.sum_nil]
  exact w

theorem p3d_own {E : JEnv ℝ π'} (hE : E.Std) {s : System ℝ π'} (ht : s.link_types = ["p3d"]) {u : List ℝ}
    (hu : u.length = 3) : ownSlice E.dw s.link_types u 0 = u ∧ ownSlice E.qw s.link_types u 0 = u := by
  have w := wOf_std hE .p3d
  have w1 : wOf E.qw "p3d" = 3 := w.1
  have w2 : wOf E.dw "p3d" = 3 := w.2
  unfold ownSlice
  rw [ht]
  constructor <;> simp [w1, w2, hu]

theorem spring_p3d {E : JEnv ℝ π'} (hE : E.Std) {s : System ℝ π'} (h : s.WF E.toEnv) (hp : s.link_parents = [-1])
    (ht : s.link_types = ["p3d"]) {q : List ℝ} (hq : q.length = 3) :
    _spring_force E s q = .ok (lsub s.link_spring_zeropoint q) := by
  have hw := p3d_widths hE ht
  have hz : s.link_spring_zeropoint.length = 3 := h.zeropoint_len.trans hw.1
  have w1 : wOf E.qw "p3d" = 3 := (wOf_std hE .p3d).1
  unfold _spring_force
  rw [scan_pure h.known h.types_len _ (arg := (argQ q).and <|
    (argQ s.link_spring_zeropoint).and (argL s.link_types)) (by
      intro x hx
      simp only [ScanArg.and, argQ, argL, List.mem_append, List.mem_singleton] at hx
      rcases hx with rfl | rfl | rfl
      · exact hq.trans hw.1.symm
      · exact h.zeropoint_len
      · exact h.types_len)
    (rows_and (rows_argQ rfl q) (rows_and (rows_argQ rfl _) (rows_argL _ _)))
    (by simp [h.types_len])]
  simp only [ok_bind]
  rw [jnpConcatenate_ok (by simp [ht])]
  have hf1 : joint_type_is_free_or_cor "p3d" = false := by decide
  have hf2 : joint_type_is_spherical "p3d" = false := by decide
  have t1 : q.take 3 = q := List.take_of_length_le (by omega)
  have t2 : s.link_spring_zeropoint.take 3 = s.link_spring_zeropoint := List.take_of_length_le (by omega)
  simp [ht, chunks, w1, t1, t2, _calc_spring_force_per_link, hf1, hf2]

/-- what forward dynamics returns for the body -/
theorem spring_accel {E : JEnv ℝ π'} (hE : E.Std) (hpi : 0 < E.pi) {s : System ℝ π'} (hb : SpringBody E s)
    (hdyn : s.Dynamic E) {q qd : List ℝ} (hq : q.length = 3) (hqd : qd.length = 3) :
    ∃ qdd, forward_dynamics E s q qd [0, 0, 0] = .ok qdd ∧ qdd.length = 3 ∧ ∀ r, r < 3 →
      ((s.linkI 0).mass + s.link_armature.getD r 0 + s.link_damping.getD r 0 * s.dt + 1e-6) * qdd.getD r 0 =
        s.link_spring_stiffness.getD r 0 * (s.link_spring_zeropoint.getD r 0 - q.getD r 0) -
        s.link_damping.getD r 0 * qd.getD r 0 - (s.linkI 0).mass * comp (rotate s.gravity (s.linkT 0).rot) r := by
  have hn : 0 < s.link_parents.length := by rw [hb.parents]; decide
  obtain ⟨hw7, hw6⟩ := p3d_widths hE hb.types
  have hJ : s.JointsIn fun _ => True := hb.simulable.builtin
  obtain ⟨qdd, tauID, spring, h1, h2, h3, h4, h5, h6, h7⟩ := C27_forward_dynamics hE hdyn hJ hn
    hpi hb.physical hb.armature hb.damping hb.dt
    hb.exact_inverse (q := q) (qd := qd) (tau := [0, 0, 0])
    (by rw [hq, hw7]) (by rw [hw6, hqd]) (by rw [hqd]; rfl)
  rw [hqd] at h2 h4 h7
  refine ⟨qdd, h1, h2, ?_⟩
  rw [spring_p3d hE hdyn.wf hb.parents hb.types hq] at h5
  cases h5
  have hz : s.link_spring_zeropoint.length = 3 := hdyn.wf.zeropoint_len.trans hw7
  obtain ⟨tau, v, a, f, n1, n2, ne⟩ := C26_newton_euler hdyn hn (qd := qd)
    (qdd := qdd) (by rw [hw6, hqd]) (by rw [h2, hqd])
  rw [h3] at n1
  cases n1
  have h0 : (0 : Nat) < s.link_types.length := by rw [hb.types]; decide
  obtain ⟨p, hp⟩ := jointParam_isSome hdyn.wf hdyn.jointed hn
  have hax : s.axesAt E 0 = [mp .x, mp .y, mp .z] := by
    unfold axesAt
    have hd : s.link_types.getD 0 "" = BuiltIn.p3d.name := by rw [hb.types]; rfl
    rw [hd, hE.joints, hp]
    rfl
  have hJM : ∀ u : List ℝ, u.length = 3 → s.jointMotion E u 0 = ⟨0, vecOf u 0⟩ := by
    intro u hu
    unfold jointMotion
    rw [hax, (p3d_own hE hb.types hu).1]
    match u, hu with
    | [a, b, c], _ => ext <;> simp [Motion.smul, mp, Axis.unit, vecOf]
  have hp0 : s.link_parents[0] = -1 := by simp [hb.parents]
  have hv : v 0 = ⟨0, vecOf qd 0⟩ := by
    have := ne.vel 0 hn
    rw [if_pos hp0] at this
    rw [this]
    have e := hJM qd hqd
    unfold jointMotion at e
    rw [e]
    ext <;> simp [vecOf]
  have ha : a 0 = ⟨0, rotate s.gravity (s.linkT 0).rot + vecOf qdd 0⟩ := by
    have := ne.acc 0 hn
    rw [if_pos hp0, hJM qdd h2, hJM qd hqd, hv] at this
    rw [this]
    simp only [transform_motion, motion_cross]
    ext <;> simp [vecOf, rotate_x, rotate_y, rotate_z]
  have hfv : (f 0).vel = Vec3.smul (s.linkI 0).mass (rotate s.gravity (s.linkT 0).rot + vecOf qdd 0) := by
    have := ne.force 0 hn
    rw [this, hv]
    have hch : ((List.range s.link_parents.length).filter fun c =>
        s.link_parents.getD c (-1) = ((0 : Nat) : Int)) = [] := by
      rw [hb.parents]
      decide
    rw [hch, ha]
    simp only [motion_cross_star, inertia_mul_motion]
    ext <;> simp
  have htau : tauID = [(f 0).vel.x, (f 0).vel.y, (f 0).vel.z] := by
    have := ne.torque 0 h0
    rw [(p3d_own hE hb.types h4).1, hax] at this
    rw [this]
    simp [motion_dot, mp, Axis.unit, Vec3.dot]
  intro r hr
  have key := h7 r hr
  have hsp : (lsub s.link_spring_zeropoint q).getD r 0 = s.link_spring_zeropoint.getD r 0 - q.getD r 0 := by
    match hs : s.link_spring_zeropoint, hz, q, hq with
    | [a, b, c], _, [d, e, g], _ =>
      match r, hr with
      | 0, _ => rfl
      | 1, _ => rfl
      | 2, _ => rfl
  have ht : tauID.getD r 0 = (s.linkI 0).mass * (comp (rotate s.gravity (s.linkT 0).rot) r + qdd.getD r 0) := by
    rw [htau, hfv]
    match r, hr with
    | 0, _ => simp [comp, Vec3.smul, vecOf]
    | 1, _ => simp [comp, Vec3.smul, vecOf]
    | 2, _ => simp [comp, Vec3.smul, vecOf]
  have z : ([0, 0, 0] : List ℝ).getD r 0 = 0 := zeros_getD (by simp) r
  rw [hsp, ht, z] at key
  linarith

/-- **C107**: one step of the simulation of the body, along every axis: a mass on a spring and a damper. Beside the mass
of the geometries the armature and a millionth count as mass; gravity acts in the coordinates of the link. -/
theorem C107_step {E : JEnv ℝ π'} (hE : E.Std) (hpi : 0 < E.pi) {s : System ℝ π'} (hb : SpringBody E s)
    {row : LinkRow ℝ} (hrow : s.links[0]? = some row) {st : State ℝ} (hq : st.q.length = 3) (hqd : st.qd.length = 3) :
    ∃ st', step E s st none 1 = .ok st' ∧ st'.q.length = 3 ∧ st'.qd.length = 3 ∧ ∀ r, r < 3 →
      Hooke (row.inertia.mass + s.link_armature.getD r 0 + 1e-6) (s.link_damping.getD r 0)
        (s.link_spring_stiffness.getD r 0) s.dt (-(row.inertia.mass * comp (rotate s.gravity row.transform1.rot) r))
        (s.link_spring_zeropoint.getD r 0)
        (st.q.getD r 0) (st.qd.getD r 0) (st'.q.getD r 0) (st'.qd.getD r 0) := by
  obtain ⟨hw7, hw6⟩ := p3d_widths hE hb.types
  set s1 : System ℝ π' := { s with dt := s.dt / (1 : Nat) } with hs1
  have hsame : SameButCache s s1 := ⟨rfl, rfl, fun i h1 h2 => by simp [hs1]⟩
  have hsim := Simulable.of_same hb.simulable hsame
  have hu : s1.UnitQ E st.q := by
    intro i hi h
    have hty : s1.link_types = ["p3d"] := hb.types
    have : i < 1 := by rw [hty] at hi; simpa using hi
    obtain rfl : i = 0 := by omega
    have h' : joint_type_is_free_or_cor_or_spherical "p3d" = true := by
      have e : s1.link_types[0] = "p3d" := by simp [hty]
      rw [← e]; exact h
    exact absurd h' (by decide)
  have hq1 : st.q.length = (s1.link_types.map (wOf E.qw)).sum := by
    show st.q.length = (s.link_types.map _).sum
    rw [hw7, hq]
  obtain ⟨s', x, hfk, same, hs', hdyn, hdt'⟩ := fk_simulable hE hsim hq1 hu
  have hft : s1.forward_kinematics_transforms E st.q = .ok (x, s') := by
    unfold forward_kinematics at hfk
    cases hx : s1.forward_kinematics_transforms E st.q with
    | error e => rw [hx] at hfk; cases hfk
    | ok y =>
      rw [hx] at hfk
      obtain ⟨y1, y2⟩ := y
      cases hfk
      rfl
  have fk := isFK_unique hsim.wf (hsim.jointed hE) hq1 hft
  have hpar : s1.link_parents = [-1] := hb.parents
  obtain ⟨T, ⟨jm, p, e1, e2, hT⟩, -, hrow'⟩ := fk.pose 0 (by rw [hpar]; decide) row hrow
  have hty1 : s1.link_types = ["p3d"] := hb.types
  have e1' : jm = BuiltIn.p3d.model := by
    have := hE.joints .p3d
    rw [show s1.link_types.getD 0 "" = BuiltIn.p3d.name by rw [hty1]; rfl, this] at e1
    exact (Option.some.inj e1).symm
  have hTr : T.rot = unitQuat := by
    rw [hT, e1']
    rfl
  have hlT : (s'.linkT 0).rot = row.transform1.rot := by
    unfold linkT
    rw [hrow']
    show quat_mul T.rot row.transform1.rot = _
    rw [hTr]
    ext <;> simp [quat_mul, unitQuat]
  have hlI : s'.linkI 0 = row.inertia := by
    unfold linkI
    rw [hrow']
    rfl
  have hrest := same.rest
  have hty : s'.link_types = s.link_types := by rw [hrest]
  have hdt : s'.dt = s.dt := by rw [hdt']; simp [hs1]
  have hbody : SpringBody E s' := {
    simulable := hs'
    parents := by rw [hrest]; exact hb.parents
    types := by rw [hty]; exact hb.types
    physical := by rw [hrest]; exact hb.physical
    damping := by rw [hrest]; exact hb.damping
    armature := by rw [hrest]; exact hb.armature
    dt := by rw [hdt]; exact hb.dt
    dt_small := by rw [hdt]; exact hb.dt_small
    exact_inverse := by rw [hrest]; exact hb.exact_inverse }
  obtain ⟨qdd, f1, f2, f3⟩ := spring_accel hE hpi hbody hdyn hq hqd
  have hJ : s'.JointsIn fun _ => True := hs'.builtin
  obtain ⟨qdd', st', g1, g2, g3, g4, g5, g6, g7, g8⟩ := C28_semi_implicit hE hdyn hJ
    hs'.nonempty (st := ⟨st.q, st.qd, x⟩) (tau := [0, 0, 0])
    (by rw [hty, hw7, hq]) (by rw [hty, hw6, hqd]) (by show 3 = st.qd.length; rw [hqd])
    (by rw [hrest]; exact hu) (by rw [hdt, abs_of_nonneg hb.dt]; exact hb.dt_small)
  have hqq : qdd' = qdd := by
    have : forward_dynamics E s' st.q st.qd [0, 0, 0] = .ok qdd' := g1
    rw [f1] at this
    exact (Except.ok.inj this).symm
  subst hqq
  have hq3 : st'.q.length = 3 := g4.trans hq
  have hd3 : st'.qd.length = 3 := g5.trans hqd
  have hzero : st.qd.map (fun _ => (0 : ℝ)) = [0, 0, 0] := by
    match h : st.qd, hqd with
    | [a, b, c], _ => rfl
  refine ⟨st', ?_, hq3, hd3, ?_⟩
  · unfold step
    have hk := hb.simulable.wf.known
    simp only [q_size, qd_size, sumWidths_known (fun t ht => (hk t ht).1),
      sumWidths_known (fun t ht => (hk t ht).2), ok_bind, hw7, hw6]
    rw [pyAssert_true (p := _) (by rw [hq])]
    simp only [ok_bind, Option.getD_none]
    rw [pyAssert_true (p := _) (by rw [hqd]; simp [hqd])]
    simp only [ok_bind]
    rw [pyAssert_true (p := _) hb.simulable.method]
    simp only [ok_bind]
    rw [if_neg (by decide)]
    unfold step_loop
    rw [hfk]
    simp only [ok_bind]
    rw [hzero, g3]
    rfl
  · intro r hr
    obtain ⟨gs, -⟩ := g8 0 (by rw [hty, hb.types]; decide)
    have hty' : s'.link_types = ["p3d"] := hty.trans hb.types
    have hfree : ¬ joint_type_is_free_or_cor_or_spherical "p3d" = true := by decide
    have e0 : s'.link_types[0]'(by rw [hty']; decide) = "p3d" := by simp [hty']
    rw [e0, (p3d_own hE hty' (u := st.q) hq).2, (p3d_own hE hty' hd3).1, (p3d_own hE hty' hq3).2, hdt] at gs
    unfold LinkStep at gs
    rw [if_neg hfree] at gs
    have c := gs r (by rw [hq]; exact hr)
    have d := g7 r (by show r < st.qd.length; rw [hqd]; exact hr)
    have f := f3 r hr
    rw [hlI, hlT, hdt, show s'.gravity = s.gravity by rw [hrest],
      show s'.link_armature = s.link_armature by rw [hrest],
      show s'.link_damping = s.link_damping by rw [hrest],
      show s'.link_spring_stiffness = s.link_spring_stiffness by rw [hrest],
      show s'.link_spring_zeropoint = s.link_spring_zeropoint by rw [hrest]] at f
    rw [hdt] at d
    refine ⟨?_, c⟩
    have d' : st'.qd.getD r 0 = st.qd.getD r 0 + s.dt * qdd'.getD r 0 := d
    rw [d']
    linear_combination s.dt * f

/-! ## a mass on a spring -/

theorem hooke_error {M d k dt F u : ℝ} (hM : 0 ≤ M) (hd : 0 < d) (hk : 0 < k) (h0 : 0 < dt) {z q v : ℕ → ℝ} {n0 : ℕ}
    (hz : ∀ n, n0 ≤ n → z (n + 1) = z n + dt * u)
    (h : ∀ n, Hooke M d k dt F (z n) (q n) (v n) (q (n + 1)) (v (n + 1))) (n : ℕ) (hn : n0 ≤ n) :
    q (n + 2) - z (n + 2) - (F - d * u) / k =
      (1 + M / (M + d * dt) - dt ^ 2 * k / (M + d * dt)) * (q (n + 1) - z (n + 1) - (F - d * u) / k) -
      M / (M + d * dt) * (q n - z n - (F - d * u) / k) := by
  have hMe : 0 < M + d * dt := by positivity
  obtain ⟨a1, a2⟩ := h n
  obtain ⟨b1, b2⟩ := h (n + 1)
  have z1 := hz n hn
  have z2 := hz (n + 1) (by omega)
  have hk' := hk.ne'
  have hMe' := hMe.ne'
  field_simp
  rw [show n + 1 + 1 = n + 2 from rfl] at b1 b2 z2
  have v1 : dt * v (n + 1) = q (n + 1) - q n := by linarith
  have v2 : dt * v (n + 2) = q (n + 2) - q (n + 1) := by linarith
  have key : (M + d * dt) * (q (n + 2) - q (n + 1)) = M * (q (n + 1) - q n) +
      dt ^ 2 * (F + k * (z (n + 1) - q (n + 1))) := by
    rw [← v1, ← v2]
    linear_combination dt * b1
  rw [z2, z1]
  rw [z1] at key
  linear_combination k * key

theorem hooke_tendsto {M d k dt F u : ℝ} (hM : 0 ≤ M) (hd : 0 < d) (hk : 0 < k) (h0 : 0 < dt)
    (hs : dt ^ 2 * k < 4 * M + 2 * d * dt) {z q v : ℕ → ℝ} {n0 : ℕ}
    (hz : ∀ n, n0 ≤ n → z (n + 1) = z n + dt * u)
    (h : ∀ n, Hooke M d k dt F (z n) (q n) (v n) (q (n + 1)) (v (n + 1))) :
    Tendsto (fun n => q n - z n) atTop (𝓝 ((F - d * u) / k)) := by
  have hMe : 0 < M + d * dt := by positivity
  have hdd : 0 < d * dt := by positivity
  have hkk : 0 < dt ^ 2 * k := by positivity
  have e : Tendsto (fun n => q (n + n0) - z (n + n0) - (F - d * u) / k) atTop (𝓝 0) := by
    apply sensors.recurrence_tendsto (t := 1 + M / (M + d * dt) - dt ^ 2 * k / (M + d * dt)) (d := M / (M + d * dt))
    · rw [div_lt_one hMe]; linarith
    · have : 0 < dt ^ 2 * k / (M + d * dt) := by positivity
      linarith
    · have : dt ^ 2 * k / (M + d * dt) < 2 + 2 * (M / (M + d * dt)) := by
        rw [div_lt_iff₀ hMe]
        have : M / (M + d * dt) * (M + d * dt) = M := div_mul_cancel₀ _ hMe.ne'
        nlinarith
      linarith
    · intro n
      have := hooke_error hM hd hk h0 hz h (n + n0) (by omega)
      rw [show n + 2 + n0 = n + n0 + 2 by omega, show n + 1 + n0 = n + n0 + 1 by omega]
      exact this
  have e2 := (tendsto_add_atTop_iff_nat (f := fun n => q n - z n - (F - d * u) / k) n0).1 e
  have e3 := e2.add_const ((F - d * u) / k)
  rw [zero_add] at e3
  exact e3.congr fun n => by ring

/-- a recurrence with a root beyond one grows -/
theorem recurrence_escapes {a D : ℝ} (hD : 0 ≤ D) (ha : 1 + D < a) {s : ℕ → ℝ}
    (hs : ∀ k, s (k + 2) = a * s (k + 1) - D * s k) (h0 : 0 ≤ s 0) (h1 : D * s 0 < s 1) : Tendsto s atTop atTop := by
  set w : ℕ → ℝ := fun k => s (k + 1) - D * s k with hw
  have hw0 : 0 < w 0 := by simp only [hw]; linarith
  have key : ∀ k, 0 ≤ s k ∧ w 0 + k * ((a - D - 1) * w 0) ≤ w k := by
    intro k
    induction k with
    | zero => exact ⟨h0, by simp⟩
    | succ k ih =>
      obtain ⟨i1, i2⟩ := ih
      have hp : 0 ≤ (k : ℝ) * ((a - D - 1) * w 0) := by
        have : 0 < a - D - 1 := by linarith
        positivity
      have e1 : s (k + 1) = w k + D * s k := by simp only [hw]; ring
      have hge : w 0 ≤ s (k + 1) := by
        have := mul_nonneg hD i1
        linarith
      refine ⟨by linarith, ?_⟩
      have e2 : w (k + 1) = w k + (a - D - 1) * s (k + 1) := by
        simp only [hw, hs k]
        ring
      rw [e2]
      push_cast
      nlinarith [mul_le_mul_of_nonneg_left hge (show 0 ≤ a - D - 1 by linarith)]
  have hlim : Tendsto (fun k : ℕ => w 0 + k * ((a - D - 1) * w 0)) atTop atTop := by
    apply tendsto_atTop_add_const_left
    exact tendsto_natCast_atTop_atTop.atTop_mul_const (mul_pos (by linarith) hw0)
  have h2 : Tendsto (fun k => s (k + 1)) atTop atTop := by
    refine tendsto_atTop_mono (fun k => ?_) hlim
    obtain ⟨i1, i2⟩ := key k
    have e1 : s (k + 1) = w k + D * s k := by simp only [hw]; ring
    have := mul_nonneg hD i1
    linarith
  exact (tendsto_add_atTop_iff_nat 1).1 h2

theorem hooke_escapes {M d k dt u : ℝ} (hM : 0 ≤ M) (hd : 0 < d) (hk : 0 < k) (h0 : 0 < dt)
    (hs : 4 * M + 2 * d * dt < dt ^ 2 * k) (hu : u ≠ 0) {z q v : ℕ → ℝ}
    (hz : ∀ n, z (n + 1) = z n + dt * u) (hq0 : q 0 = z 0) (hv0 : v 0 = 0)
    (h : ∀ n, Hooke M d k dt 0 (z n) (q n) (v n) (q (n + 1)) (v (n + 1))) :
    Tendsto (fun n => |q n - z n|) atTop atTop := by
  have hMe : 0 < M + d * dt := by positivity
  have hdd : 0 < d * dt := by positivity
  have hlarge : 2 * (d / k) < dt := by
    rw [mul_div_assoc', div_lt_iff₀ hk]
    by_contra hc
    push Not at hc
    nlinarith
  have hdk : 0 < d / k := by positivity
  set e : ℕ → ℝ := fun n => q n - z n - (0 - d * u) / k with he
  have e0 : e 0 = d / k * u := by
    simp only [he, hq0]
    ring
  have hv1 : v 1 = 0 := by
    obtain ⟨a1, -⟩ := h 0
    rw [hq0, hv0] at a1
    have : (M + d * dt) * v (0 + 1) = 0 := by linarith
    rcases mul_eq_zero.1 this with hh | hh
    · exact absurd hh hMe.ne'
    · exact hh
  have e1 : e 1 = -((dt - d / k) * u) := by
    obtain ⟨-, a2⟩ := h 0
    have z1 := hz 0
    rw [zero_add] at a2 z1
    rw [hv1] at a2
    simp only [he, a2, z1, hq0]
    ring
  have hD1 : M / (M + d * dt) < 1 := by rw [div_lt_one hMe]; linarith
  have hD0 : 0 ≤ M / (M + d * dt) := by positivity
  have huu : 0 < u * u := mul_self_pos.2 hu
  have grow : Tendsto (fun n => (-1) ^ n * (e n * u)) atTop atTop := by
    apply recurrence_escapes (a := dt ^ 2 * k / (M + d * dt) - 1 - M / (M + d * dt)) (D := M / (M + d * dt)) hD0
    · have : 2 + 2 * (M / (M + d * dt)) < dt ^ 2 * k / (M + d * dt) := by
        rw [lt_div_iff₀ hMe]
        have : M / (M + d * dt) * (M + d * dt) = M := div_mul_cancel₀ _ hMe.ne'
        nlinarith
      linarith
    · intro n
      have := hooke_error hM hd hk h0 (n0 := 0) (fun n _ => hz n) h n (Nat.zero_le n)
      simp only [he]
      rw [this]
      ring
    · simp only [pow_zero, e0]
      have := mul_pos hdk huu
      nlinarith
    · simp only [pow_zero, pow_one, e0, e1]
      have h3 : M / (M + d * dt) * (d / k * (u * u)) ≤ 1 * (d / k * (u * u)) :=
        mul_le_mul_of_nonneg_right hD1.le (by positivity)
      have h4 : d / k * (u * u) < (dt - d / k) * (u * u) := mul_lt_mul_of_pos_right (by linarith) huu
      nlinarith
  have habs : Tendsto (fun n => |e n| * |u|) atTop atTop := by
    refine tendsto_atTop_mono (fun n => ?_) grow
    refine (le_abs_self _).trans ?_
    rw [abs_mul, abs_mul, abs_pow, abs_neg, abs_one, one_pow, one_mul]
  have habs' : Tendsto (fun n => |e n|) atTop atTop := (tendsto_mul_const_atTop_of_pos (abs_pos.2 hu)).1 habs
  refine tendsto_atTop_mono (fun n => ?_) (tendsto_atTop_add_const_right _ (-|(0 - d * u) / k|) habs')
  have := abs_sub (q n - z n) ((0 - d * u) / k)
  simp only [he]
  linarith

/-! ## C107: a body with a fixed zero point -/

theorem body_mass {E : JEnv ℝ π'} {s : System ℝ π'} (hb : SpringBody E s) {row : LinkRow ℝ}
    (hrow : s.links[0]? = some row) : 0 ≤ row.inertia.mass := by
  obtain ⟨h, e⟩ := List.getElem?_eq_some_iff.1 hrow
  have := hb.simulable.wf.inertia_ok 0 h
  rw [e] at this
  rw [this, (C21_mass_and_com E.pi s.geoms (0 : Nat)).1]
  apply List.sum_nonneg
  intro x hx
  obtain ⟨g, hg, rfl⟩ := List.mem_map.1 hx
  exact (hb.physical g (List.mem_filter.1 hg).1).1

theorem getD_nonneg {l : List ℝ} (h : ∀ x ∈ l, 0 ≤ x) (r : Nat) : 0 ≤ l.getD r 0 := by
  rw [List.getD_eq_getElem?_getD]
  cases hx : l[r]? with
  | none => exact le_rfl
  | some x => exact h x (List.mem_of_getElem? hx)

theorem body_hooke {E : JEnv ℝ π'} (hE : E.Std) (hpi : 0 < E.pi) {s : System ℝ π'} (hb : SpringBody E s)
    {row : LinkRow ℝ} (hrow : s.links[0]? = some row) {st : ℕ → State ℝ} (hq : (st 0).q.length = 3)
    (hqd : (st 0).qd.length = 3) (hst : ∀ n, step E s (st n) none 1 = .ok (st (n + 1))) (n : ℕ) :
    (st n).q.length = 3 ∧ (st n).qd.length = 3 ∧ ∀ r, r < 3 →
      Hooke (row.inertia.mass + s.link_armature.getD r 0 + 1e-6) (s.link_damping.getD r 0)
        (s.link_spring_stiffness.getD r 0) s.dt (-(row.inertia.mass * comp (rotate s.gravity row.transform1.rot) r))
        (s.link_spring_zeropoint.getD r 0)
        ((st n).q.getD r 0) ((st n).qd.getD r 0) ((st (n + 1)).q.getD r 0) ((st (n + 1)).qd.getD r 0) := by
  have hl : (st n).q.length = 3 ∧ (st n).qd.length = 3 := by
    induction n with
    | zero => exact ⟨hq, hqd⟩
    | succ n ih =>
      obtain ⟨st', h1, h2, h3, -⟩ := C107_step hE hpi hb hrow ih.1 ih.2
      rw [hst n] at h1
      cases h1
      exact ⟨h2, h3⟩
  obtain ⟨st', h1, -, -, h4⟩ := C107_step hE hpi hb hrow hl.1 hl.2
  rw [hst n] at h1
  cases h1
  exact ⟨hl.1, hl.2, h4⟩

/-- **C107**: whatever state the body starts from, along every axis with a spring and a damper it comes to rest where
the spring holds the weight, provided that the time step is small enough for the spring. -/
theorem C107_hangs {E : JEnv ℝ π'} (hE : E.Std) (hpi : 0 < E.pi) {s : System ℝ π'} (hb : SpringBody E s)
    {row : LinkRow ℝ} (hrow : s.links[0]? = some row) {st : ℕ → State ℝ} (hq : (st 0).q.length = 3)
    (hqd : (st 0).qd.length = 3) (hst : ∀ n, step E s (st n) none 1 = .ok (st (n + 1))) {r : Nat} (hr : r < 3)
    (h0 : 0 < s.dt) (hd : 0 < s.link_damping.getD r 0) (hk : 0 < s.link_spring_stiffness.getD r 0)
    (hs : s.dt ^ 2 * s.link_spring_stiffness.getD r 0 <
      4 * (row.inertia.mass + s.link_armature.getD r 0 + 1e-6) + 2 * s.link_damping.getD r 0 * s.dt) :
    Tendsto (fun n => (st n).q.getD r 0) atTop (𝓝 (s.link_spring_zeropoint.getD r 0 -
      row.inertia.mass * comp (rotate s.gravity row.transform1.rot) r / s.link_spring_stiffness.getD r 0)) := by
  have hM : 0 ≤ row.inertia.mass + s.link_armature.getD r 0 + 1e-6 := by
    have := body_mass hb hrow
    have := getD_nonneg hb.armature r
    have : (0 : ℝ) ≤ 1e-6 := by norm_num
    linarith
  have := hooke_tendsto (u := 0) (n0 := 0) (z := fun _ => s.link_spring_zeropoint.getD r 0)
    (q := fun n => (st n).q.getD r 0) (v := fun n => (st n).qd.getD r 0) hM hd hk h0 hs (by simp)
    (fun n => (body_hooke hE hpi hb hrow hq hqd hst n).2.2 r hr)
  have h2 := this.add_const (s.link_spring_zeropoint.getD r 0)
  refine (h2.congr fun n => by ring).trans (le_of_eq ?_)
  congr 1
  ring

/-- **C107**: a time step too large for the spring: a body that starts at rest away from the zero point swings farther
and farther. -/
theorem C107_explodes_fails {E : JEnv ℝ π'} (hE : E.Std) (hpi : 0 < E.pi) {s : System ℝ π'} (hb : SpringBody E s)
    {row : LinkRow ℝ} (hrow : s.links[0]? = some row) {st : ℕ → State ℝ} (hq : (st 0).q.length = 3)
    (hqd : (st 0).qd.length = 3) (hst : ∀ n, step E s (st n) none 1 = .ok (st (n + 1))) {r : Nat} (hr : r < 3)
    (h0 : 0 < s.dt) (hd : 0 < s.link_damping.getD r 0) (hk : 0 < s.link_spring_stiffness.getD r 0)
    (hg : s.gravity = 0) (hrest : (st 0).qd.getD r 0 = 0)
    (haway : (st 0).q.getD r 0 ≠ s.link_spring_zeropoint.getD r 0)
    (hs : 4 * (row.inertia.mass + s.link_armature.getD r 0 + 1e-6) + 2 * s.link_damping.getD r 0 * s.dt <
      s.dt ^ 2 * s.link_spring_stiffness.getD r 0) :
    Tendsto (fun n => |(st n).q.getD r 0 - s.link_spring_zeropoint.getD r 0|) atTop atTop := by
  set M := row.inertia.mass + s.link_armature.getD r 0 + 1e-6 with hMd
  set d := s.link_damping.getD r 0
  set k := s.link_spring_stiffness.getD r 0
  set z := s.link_spring_zeropoint.getD r 0
  set dt := s.dt
  have hM : 0 ≤ M := by
    have := body_mass hb hrow
    have := getD_nonneg hb.armature r
    rw [hMd]
    have : (0 : ℝ) ≤ 1e-6 := by norm_num
    linarith
  have hMe : 0 < M + d * dt := by positivity
  have hD0 : 0 ≤ M / (M + d * dt) := by positivity
  have hF : -(row.inertia.mass * comp (rotate s.gravity row.transform1.rot) r) = 0 := by
    have : rotate s.gravity row.transform1.rot = 0 := by
      rw [hg]
      ext <;> simp [rotate_x, rotate_y, rotate_z]
    rw [this]
    match r, hr with
    | 0, _ => simp [comp]
    | 1, _ => simp [comp]
    | 2, _ => simp [comp]
  have hk2 : ∀ n, Hooke M d k dt 0 z ((st n).q.getD r 0) ((st n).qd.getD r 0) ((st (n + 1)).q.getD r 0)
      ((st (n + 1)).qd.getD r 0) := fun n => by
    have := (body_hooke hE hpi hb hrow hq hqd hst n).2.2 r hr
    rw [hF] at this
    exact this
  set e : ℕ → ℝ := fun n => (st n).q.getD r 0 - z with he
  have he0 : 0 < e 0 * e 0 := mul_self_pos.2 (sub_ne_zero.2 haway)
  have e1 : e 1 = (1 - dt ^ 2 * k / (M + d * dt)) * e 0 := by
    obtain ⟨a1, a2⟩ := hk2 0
    rw [hrest] at a1
    have hv : (st (0 + 1)).qd.getD r 0 = -(dt * k * e 0) / (M + d * dt) := by
      rw [eq_div_iff hMe.ne']
      simp only [he]
      linarith
    rw [hv] at a2
    simp only [he] at a2 ⊢
    rw [zero_add] at a2
    rw [a2]
    ring
  have ha : 2 + 2 * (M / (M + d * dt)) < dt ^ 2 * k / (M + d * dt) := by
    rw [lt_div_iff₀ hMe]
    have : M / (M + d * dt) * (M + d * dt) = M := div_mul_cancel₀ _ hMe.ne'
    nlinarith
  have grow : Tendsto (fun n => (-1) ^ n * (e n * e 0)) atTop atTop := by
    apply recurrence_escapes (a := dt ^ 2 * k / (M + d * dt) - 1 - M / (M + d * dt)) (D := M / (M + d * dt)) hD0
    · linarith
    · intro n
      have := hooke_error (u := 0) (z := fun _ => z) (q := fun n => (st n).q.getD r 0)
        (v := fun n => (st n).qd.getD r 0) hM hd hk h0 (n0 := 0) (by simp) hk2 n (Nat.zero_le n)
      simp only [mul_zero, sub_zero, zero_div] at this
      simp only [he]
      rw [this]
      ring
    · simp only [pow_zero]
      linarith
    · simp only [pow_zero, pow_one, e1]
      nlinarith
  have habs : Tendsto (fun n => |e n| * |e 0|) atTop atTop := by
    refine tendsto_atTop_mono (fun n => ?_) grow
    refine (le_abs_self _).trans ?_
    rw [abs_mul, abs_mul, abs_pow, abs_neg, abs_one, one_pow, one_mul]
  exact (tendsto_mul_const_atTop_of_pos (abs_pos.2 (sub_ne_zero.2 haway))).1 habs

/-! ## C107: the IMU on a spring -/

namespace sensors

/-- `out` is what `_quasi_physical_simulation_beautiful` makes of the motion `z`, sample by sample -/
def BeautifulSimulated (z out : ℕ → Vec3 ℝ) (dt : ℝ) : Prop :=
  ∀ n, _quasi_physical_simulation_beautiful stdEnv (samples z (n + 1)) dt =
    .ok ((samples out (n + 1)).map posList)

theorem qpSys_widths (dt : ℝ) : (qpSys dt).link_types.map (wOf stdEnv.qw) = [3] ∧
    (qpSys dt).link_types.map (wOf stdEnv.dw) = [3] := by
  have h1 : ["p3d"].map (wOf stdEnv.qw) = [3] := by decide
  have h2 : ["p3d"].map (wOf stdEnv.dw) = [3] := by decide
  exact ⟨h1, h2⟩

theorem qpSys_wf (dt : ℝ) (p : Vec3 ℝ) :
    ({ qpSys dt with link_spring_zeropoint := posList p } : System ℝ Unit).WF stdEnv.toEnv where
  types_len := rfl
  links_len := rfl
  omc_len := rfl
  names_len := rfl
  names_nodup := by show ["IMU"].Nodup; decide
  pos_ok := by
    intro l hl
    simp [qpSys] at hl
    subst hl
    simp [stdEnv]
  geoms_ok := by simp [qpSys, qpGeoms]
  known := by
    intro t ht
    simp [qpSys] at ht
    subst ht
    constructor <;> decide
  damping_len := by rw [(qpSys_widths dt).2]; simp [qpSys]
  armature_len := by rw [(qpSys_widths dt).2]; simp [qpSys]
  stiffness_len := by rw [(qpSys_widths dt).2]; simp [qpSys]
  zeropoint_len := by rw [(qpSys_widths dt).1]; simp [posList]
  unit_zero := by
    intro i hi
    have : i < 1 := hi
    obtain rfl : i = 0 := by omega
    intro h
    have h : joint_type_is_free_or_cor_or_spherical "p3d" = true := h
    exact absurd h (by decide)
  topo := by
    intro i hi
    have : i < 1 := hi
    obtain rfl : i = 0 := by omega
    simp [qpSys]
  jp_keys := by simp [qpSys]
  jp_len := by simp [qpSys]
  inertia_ok := by
    intro i hi
    have : i < 1 := hi
    obtain rfl : i = 0 := by omega
    rfl
  geoms_sorted := by simp [qpSys, qpGeoms]

theorem qpSys_body {dt : ℝ} (h0 : 0 ≤ dt) (h1 : dt < 1e8) (p : Vec3 ℝ) :
    SpringBody stdEnv { qpSys dt with link_spring_zeropoint := posList p } where
  simulable := {
    wf := qpSys_wf dt p
    default := by simp [qpSys]
    widths := kinSys_simulable.widths
    builtin := by
      intro t ht
      exact ⟨.p3d, trivial, List.mem_singleton.1 ht⟩
    nonempty := by simp [qpSys]
    unit := by
      intro l hl
      simp [qpSys] at hl
      subst hl
      simp [Transform.zero, Quat.normSq, unitQuat]
    geoms_unit := by
      intro g hg
      simp [qpSys, qpGeoms] at hg
      subst hg
      simp [Transform.zero, Quat.normSq, unitQuat]
    method := kinSys_simulable.method }
  parents := rfl
  types := rfl
  physical := by
    intro g hg
    simp [qpSys, qpGeoms] at hg
    subst hg
    simp [Geometry.Physical, Transform.IsUnit, Transform.zero, Quat.IsUnit, unitQuat]
    norm_num
  damping := by simp [qpSys]
  armature := by simp [qpSys]
  dt := h0
  dt_small := h1
  exact_inverse := rfl

theorem qp_mass : (compute_inertia_per_link Real.pi qpGeoms 0).mass = 2 / 1000 := by
  rw [(C21_mass_and_com Real.pi qpGeoms 0).1]
  simp [qpGeoms]

/-- one step of the simulation of the IMU -/
theorem qp_step {dt : ℝ} (h0 : 0 ≤ dt) (h1 : dt < 1e8) (p : Vec3 ℝ) {st : State ℝ} (hq : st.q.length = 3)
    (hqd : st.qd.length = 3) :
    ∃ st', step stdEnv { qpSys dt with link_spring_zeropoint := posList p } st = .ok st' ∧ st'.q.length = 3 ∧
      st'.qd.length = 3 ∧ ∀ r, r < 3 → Hooke (2001 / 1000000) (1 / 10) 3 dt 0 ((posList p).getD r 0)
        (st.q.getD r 0) (st.qd.getD r 0) (st'.q.getD r 0) (st'.qd.getD r 0) := by
  obtain ⟨st', e1, e2, e3, e4⟩ := C107_step stdEnv_std Real.pi_pos (qpSys_body h0 h1 p)
    (row := ⟨.zero, 0, 0, compute_inertia_per_link Real.pi qpGeoms 0, .zero, .zero⟩) rfl hq hqd
  refine ⟨st', e1, e2, e3, ?_⟩
  intro r hr
  have := e4 r hr
  have hz : rotate (0 : Vec3 ℝ) (unitQuat : Quat ℝ) = 0 := by
    ext <;> simp [rotate_x, rotate_y, rotate_z]
  have hM : (2 / 1000 : ℝ) + 1e-6 = 2001 / 1000000 := by norm_num
  simp only [qp_mass, qpSys, Transform.zero, hz] at this
  match r, hr with
  | 0, _ => simpa [comp, hM] using this
  | 1, _ => simpa [comp, hM] using this
  | 2, _ => simpa [comp, hM] using this

/-- the states of the simulation -/
noncomputable def qpStates (dt : ℝ) (z : ℕ → Vec3 ℝ) : ℕ → State ℝ
  | 0 => ⟨posList (z 0), [0, 0, 0], [.zero]⟩
  | n + 1 =>
    match step stdEnv { qpSys dt with link_spring_zeropoint := posList (z n) } (qpStates dt z n) with
    | .ok st => st
    | .error _ => qpStates dt z n

theorem qpStates_spec {dt : ℝ} (h0 : 0 ≤ dt) (h1 : dt < 1e8) (z : ℕ → Vec3 ℝ) (n : ℕ) :
    ((qpStates dt z n).q.length = 3 ∧ (qpStates dt z n).qd.length = 3) ∧
    step stdEnv { qpSys dt with link_spring_zeropoint := posList (z n) } (qpStates dt z n) =
      .ok (qpStates dt z (n + 1)) ∧
    ∀ r, r < 3 → Hooke (2001 / 1000000) (1 / 10) 3 dt 0 (comp (z n) r) ((qpStates dt z n).q.getD r 0)
      ((qpStates dt z n).qd.getD r 0) ((qpStates dt z (n + 1)).q.getD r 0) ((qpStates dt z (n + 1)).qd.getD r 0) := by
  have hl : (qpStates dt z n).q.length = 3 ∧ (qpStates dt z n).qd.length = 3 := by
    induction n with
    | zero => exact ⟨rfl, rfl⟩
    | succ n ih =>
      obtain ⟨st', e1, e2, e3, -⟩ := qp_step h0 h1 (z n) ih.1 ih.2
      have : qpStates dt z (n + 1) = st' := by
        conv_lhs => rw [qpStates]
        rw [e1]
      rw [this]
      exact ⟨e2, e3⟩
  refine ⟨hl, ?_⟩
  obtain ⟨st', e1, e2, e3, e4⟩ := qp_step h0 h1 (z n) hl.1 hl.2
  have : qpStates dt z (n + 1) = st' := by
    conv_lhs => rw [qpStates]
    rw [e1]
  rw [this]
  exact ⟨e1, e4⟩

theorem qpBeautifulScan_range {dt : ℝ} (h0 : 0 ≤ dt) (h1 : dt < 1e8) (z : ℕ → Vec3 ℝ) : ∀ n k,
    qpBeautifulScan stdEnv (qpSys dt) (qpStates dt z k) ((List.range' k n).map z) =
      .ok ((List.range' k n).map fun i => (qpStates dt z (i + 1)).q) := by
  intro n
  induction n with
  | zero => intro k; rfl
  | succ n ih =>
    intro k
    rw [List.range'_succ, List.map_cons, List.map_cons, qpBeautifulScan, (qpStates_spec h0 h1 z k).2.1]
    simp only [ok_bind]
    rw [ih (k + 1)]
    rfl

theorem posList_vecOf {q : List ℝ} (hq : q.length = 3) : posList (vecOf q 0) = q := by
  match q, hq with
  | [a, b, c], _ => rfl

theorem beautiful_simulated {dt : ℝ} (h0 : 0 ≤ dt) (h1 : dt < 1e8) (z : ℕ → Vec3 ℝ) :
    BeautifulSimulated z (fun k => vecOf (qpStates dt z (k + 1)).q 0) dt := by
  intro n
  have e0 : samples z (n + 1) = z 0 :: (List.range' 1 n).map z := by
    unfold samples
    rw [List.range_eq_range', List.range'_succ, List.map_cons]
  have e1 : samples z (n + 1) = (List.range' 0 (n + 1)).map z := by
    unfold samples
    rw [List.range_eq_range']
  have ec : State.create stdEnv (qpSys dt) (some (posList (z 0))) = .ok (qpStates dt z 0) := by
    have hk := (qpSys_wf dt 0).known
    have hw : (qpSys dt).qd_size stdEnv.toEnv = .ok 3 := by
      have : (qpSys dt).qd_size stdEnv.toEnv = .ok (((qpSys dt).link_types.map (wOf stdEnv.dw)).sum) := by
        unfold qd_size
        exact sumWidths_known (fun t ht => (hk t ht).2)
      rw [this, (qpSys_widths dt).2]
      rfl
    unfold State.create
    simp only [hw]
    rfl
  unfold _quasi_physical_simulation_beautiful
  conv_lhs => rw [e0]
  simp only
  rw [← e0, e1, ec]
  simp only [ok_bind]
  rw [qpBeautifulScan_range h0 h1 z (n + 1) 0]
  congr 1
  unfold samples
  rw [List.range_eq_range', List.map_map]
  apply List.map_congr_left
  intro i _
  exact (posList_vecOf (qpStates_spec h0 h1 z (i + 1)).1.1).symm

theorem comp_vecOf {q : List ℝ} {r : Nat} (hr : r < 3) : comp (vecOf q 0) r = q.getD r 0 := by
  match r, hr with
  | 0, _ => rfl
  | 1, _ => rfl
  | 2, _ => rfl

/-- **C107**: the IMU that the physics engine simulates stays behind a motion that is uniform from some sample on, in
the limit by what it covers in a thirtieth of a second, provided that the sample time is small enough. -/
theorem C107_settles {dt : ℝ} (h0 : 0 < dt) (hdt : 3 * dt ^ 2 < 8004 / 1000000 + dt / 5) (z : ℕ → Vec3 ℝ) (u : Vec3 ℝ)
    (k0 : ℕ) (hz : ∀ k, k0 ≤ k → z (k + 1) = z k + dt • u) :
    ∃ out, BeautifulSimulated z out dt ∧ ∀ r, r < 3 →
      Tendsto (fun k => comp (out k) r - comp (z (k + 1)) r) atTop (𝓝 (-(comp u r) / 30)) := by
  have h1 : dt < 1e8 := by
    by_contra hc
    push Not at hc
    have : (1 : ℝ) ≤ dt := le_trans (by norm_num) hc
    nlinarith
  refine ⟨_, beautiful_simulated h0.le h1 z, ?_⟩
  intro r hr
  have := hooke_tendsto (M := 2001 / 1000000) (d := 1 / 10) (k := 3) (dt := dt) (F := 0) (u := comp u r) (n0 := k0)
    (z := fun n => comp (z n) r) (q := fun n => (qpStates dt z n).q.getD r 0)
    (v := fun n => (qpStates dt z n).qd.getD r 0) (by norm_num) (by norm_num) (by norm_num) h0 (by linarith)
    (fun n hn => by
      rw [hz n hn]
      match r, hr with
      | 0, _ => rfl
      | 1, _ => rfl
      | 2, _ => rfl)
    (fun n => (qpStates_spec h0.le h1 z n).2.2 r hr)
  have h2 := (tendsto_add_atTop_iff_nat (f := fun n => (qpStates dt z n).q.getD r 0 - comp (z n) r) 1).2 this
  refine (h2.congr fun n => by rw [comp_vecOf hr]).trans (le_of_eq ?_)
  congr 1
  ring

/-- **C107**: at 11 Hz and faster the IMU settles. -/
theorem C107_rate {hz : ℝ} (h11 : 11 ≤ hz) (z : ℕ → Vec3 ℝ) (u : Vec3 ℝ) (k0 : ℕ)
    (hu : ∀ k, k0 ≤ k → z (k + 1) = z k + (1 / hz) • u) :
    ∃ out, BeautifulSimulated z out (1 / hz) ∧ ∀ r, r < 3 →
      Tendsto (fun k => comp (out k) r - comp (z (k + 1)) r) atTop (𝓝 (-(comp u r) / 30)) := by
  have hp : 0 < hz := by linarith
  refine C107_settles (by positivity) ?_ z u k0 hu
  have h1 : 1 / hz ≤ 1 / 11 := one_div_le_one_div_of_le (by norm_num) h11
  have h2 : 0 < 1 / hz := by positivity
  nlinarith

/-- **C107**: where the motion comes to rest, so does the IMU, and there. -/
theorem C107_rest {dt : ℝ} (h0 : 0 < dt) (hdt : 3 * dt ^ 2 < 8004 / 1000000 + dt / 5) (z : ℕ → Vec3 ℝ) (p : Vec3 ℝ)
    (k0 : ℕ) (hz : ∀ k, k0 ≤ k → z k = p) :
    ∃ out, BeautifulSimulated z out dt ∧ ∀ r, r < 3 → Tendsto (fun k => comp (out k) r) atTop (𝓝 (comp p r)) := by
  obtain ⟨out, h1, h2⟩ := C107_settles h0 hdt z 0 k0 (fun k hk => by
    rw [hz k hk, hz (k + 1) (by omega)]; simp)
  refine ⟨out, h1, ?_⟩
  intro r hr
  have hc : comp (0 : Vec3 ℝ) r = 0 := by
    match r, hr with
    | 0, _ => rfl
    | 1, _ => rfl
    | 2, _ => rfl
  have h3 := (h2 r hr).add_const (comp p r)
  rw [hc] at h3
  refine (h3.congr' ?_).trans (le_of_eq ?_)
  · filter_upwards [eventually_ge_atTop k0] with k hk
    rw [hz (k + 1) (by omega)]
    ring
  · congr 1
    ring

theorem beautiful_unique {z out out' : ℕ → Vec3 ℝ} {dt : ℝ} (h : BeautifulSimulated z out dt)
    (h' : BeautifulSimulated z out' dt) : out = out' := by
  funext k
  have e := (h k).symm.trans (h' k)
  have e2 := Except.ok.inj e
  have e3 := congrArg (·[k]?) e2
  simp [samples, posList] at e3
  exact Vec3.ext e3.1 e3.2.1 e3.2.2

/-- **C107**: so the two simulations of the same name do not agree: what `_quasi_physical_simulation` catches up with,
`_quasi_physical_simulation_beautiful` never does. -/
theorem C107_agree_fails {hz : ℝ} (h25 : 25 ≤ hz) (z : ℕ → Vec3 ℝ) (u : Vec3 ℝ) (hu0 : u.x ≠ 0)
    (hu : ∀ k, z (k + 1) = z k + (1 / hz) • u) {out out' : ℕ → Vec3 ℝ} (h : Simulated z out (1 / hz))
    (h' : BeautifulSimulated z out' (1 / hz)) :
    Tendsto (fun k => (out k).x - (out' k).x) atTop (𝓝 (u.x / 30)) := by
  obtain ⟨o, a1, a2⟩ := C96_rate coordX h25 z u 0 (fun k _ => hu k)
  obtain ⟨o', b1, b2⟩ := C107_rate (by linarith : 11 ≤ hz) z u 0 (fun k _ => hu k)
  rw [simulated_unique h a1, beautiful_unique h' b1]
  have := a2.sub (b2 0 (by decide))
  refine (this.congr fun k => ?_).trans (le_of_eq ?_)
  · show ((o k).x - (z (k + 1)).x) - ((o' k).x - (z (k + 1)).x) = _
    ring
  · congr 1
    show 0 - -u.x / 30 = _
    ring

/-- **C107**: if the sample time is too large, then the distance of the IMU to a uniform motion grows beyond every
bound. -/
theorem C107_diverges_fails {dt : ℝ} (h0 : 0 < dt) (h1 : dt < 1e8) (hdt : 8004 / 1000000 + dt / 5 < 3 * dt ^ 2)
    (z : ℕ → Vec3 ℝ) (u : Vec3 ℝ) {r : Nat} (hr : r < 3) (hu : comp u r ≠ 0) (hz : ∀ k, z (k + 1) = z k + dt • u) :
    ∃ out, BeautifulSimulated z out dt ∧ Tendsto (fun k => |comp (out k) r - comp (z (k + 1)) r|) atTop atTop := by
  refine ⟨_, beautiful_simulated h0.le h1 z, ?_⟩
  have := hooke_escapes (M := 2001 / 1000000) (d := 1 / 10) (k := 3) (dt := dt) (u := comp u r)
    (z := fun n => comp (z n) r) (q := fun n => (qpStates dt z n).q.getD r 0)
    (v := fun n => (qpStates dt z n).qd.getD r 0) (by norm_num) (by norm_num) (by norm_num) h0 (by linarith) hu
    (fun n => by
      rw [hz n]
      match r, hr with
      | 0, _ => rfl
      | 1, _ => rfl
      | 2, _ => rfl) rfl (zeros_getD (by simp [qpStates]) r)
    (fun n => (qpStates_spec h0.le h1 z n).2.2 r hr)
  have h2 := (tendsto_add_atTop_iff_nat (f := fun n => |(qpStates dt z n).q.getD r 0 - comp (z n) r|) 1).2 this
  exact h2.congr fun n => by rw [comp_vecOf hr]

/-! ## examples -/

/-- at 100 Hz the IMU on a uniform motion stays behind -/
example : ∃ out, BeautifulSimulated (fun k : ℕ => (⟨k / 100, 0, 5⟩ : Vec3 ℝ)) out (1 / 100) ∧ ∀ r, r < 3 →
    Tendsto (fun k => comp (out k) r - comp (⟨((k + 1 : ℕ) : ℝ) / 100, 0, 5⟩ : Vec3 ℝ) r) atTop
      (𝓝 (-(comp ⟨1, 0, 0⟩ r) / 30)) :=
  C107_rate (by norm_num : (11 : ℝ) ≤ 100) _ ⟨1, 0, 0⟩ 0 (by
    intro k _
    ext
    · show ((k + 1 : ℕ) : ℝ) / 100 = (k : ℝ) / 100 + 1 / 100 * 1
      push_cast
      ring
    · show (0 : ℝ) = 0 + 1 / 100 * 0
      ring
    · show (5 : ℝ) = 5 + 1 / 100 * 0
      ring)

/-- at 10 Hz it is lost -/
example : ∃ out, BeautifulSimulated (fun k : ℕ => (⟨k / 10, 0, 0⟩ : Vec3 ℝ)) out (1 / 10) ∧
    Tendsto (fun k => |comp (out k) 0 - comp (⟨((k + 1 : ℕ) : ℝ) / 10, 0, 0⟩ : Vec3 ℝ) 0|) atTop atTop :=
  C107_diverges_fails (by norm_num) (by norm_num) (by norm_num) _ ⟨1, 0, 0⟩ (by decide) (by simp [comp]) (by
    intro k
    ext
    · show ((k + 1 : ℕ) : ℝ) / 10 = (k : ℝ) / 10 + 1 / 10 * 1
      push_cast
      ring
    · show (0 : ℝ) = 0 + 1 / 10 * 0
      ring
    · show (0 : ℝ) = 0 + 1 / 10 * 0
      ring)

/-- a motion that stops -/
example : ∃ out, BeautifulSimulated (fun k : ℕ => if k < 7 then (⟨k, -k, 0⟩ : Vec3 ℝ) else ⟨7, -7, 0⟩) out (1 / 40) ∧
    ∀ r, r < 3 → Tendsto (fun k => comp (out k) r) atTop (𝓝 (comp ⟨7, -7, 0⟩ r)) :=
  C107_rest (by norm_num) (by norm_num) _ _ 7 (by
    intro k hk
    rw [if_neg (by omega)])

/-- a body whose simulation starts displaced and comes back: the IMU with a fixed zero point -/
example {st : ℕ → State ℝ} (h : st 0 = ⟨[1, 2, 3], [0, -5, 0], []⟩)
    (hst : ∀ n, step stdEnv { qpSys (1 / 100) with link_spring_zeropoint := posList ⟨7, 8, 9⟩ } (st n) none 1 =
      .ok (st (n + 1))) :
    Tendsto (fun n => (st n).q.getD 1 0) atTop (𝓝 8) := by
  have := C107_hangs stdEnv_std Real.pi_pos (qpSys_body (dt := 1 / 100) (by norm_num) (by norm_num) ⟨7, 8, 9⟩)
    (row := ⟨.zero, 0, 0, compute_inertia_per_link Real.pi qpGeoms 0, .zero, .zero⟩) rfl
    (by rw [h]; rfl) (by rw [h]; rfl) hst (r := 1) (by decide) (by simp [qpSys]) (by simp [qpSys])
    (by simp [qpSys]) (by simp only [qp_mass]; norm_num [qpSys])
  refine this.trans (le_of_eq ?_)
  congr 1
  have hz : rotate (0 : Vec3 ℝ) (unitQuat : Quat ℝ) = 0 := by
    ext <;> simp [rotate_x, rotate_y, rotate_z]
  simp [qpSys, posList, Transform.zero, hz, comp]

/-- the same body with a time step of a fifth of a second -/
example {st : ℕ → State ℝ} (h : st 0 = ⟨[1, 2, 3], [0, 0, 0], []⟩)
    (hst : ∀ n, step stdEnv { qpSys (1 / 5) with link_spring_zeropoint := posList ⟨7, 8, 9⟩ } (st n) none 1 =
      .ok (st (n + 1))) :
    Tendsto (fun n => |(st n).q.getD 1 0 - 8|) atTop atTop :=
  C107_explodes_fails stdEnv_std Real.pi_pos (qpSys_body (dt := 1 / 5) (by norm_num) (by norm_num) ⟨7, 8, 9⟩)
    (row := ⟨.zero, 0, 0, compute_inertia_per_link Real.pi qpGeoms 0, .zero, .zero⟩) rfl
    (by rw [h]; rfl) (by rw [h]; rfl) hst (r := 1) (by decide) (by simp [qpSys]) (by simp [qpSys])
    (by simp [qpSys]) rfl (by simp [h]) (by simp [h, posList])
    (by simp only [qp_mass]; norm_num [qpSys])

end sensors

end RingLib
