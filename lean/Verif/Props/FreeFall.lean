import Verif.Props.Twist

/-! # Free fall of a body with a free joint -/

namespace RingLib
open maths jcalc algebra System
variable {π' : Type}

/-- One rigid body on a free joint, with its centre of mass at the origin of the link, without
damping, armature and springs. -/
structure FreeBody (E : JEnv ℝ π') (s : System ℝ π') : Prop where
  dynamic : s.Dynamic E
  parents : s.link_parents = [-1]
  types : s.link_types = ["free"]
  physical : ∀ g ∈ s.geoms, g.Physical
  com : (s.linkI 0).h = 0
  damping : ∀ x ∈ s.link_damping, x = 0
  armature : ∀ x ∈ s.link_armature, x = 0
  stiffness : ∀ x ∈ s.link_spring_stiffness, x = 0
  dt : 0 ≤ s.dt
  exact_inverse : s.mass_mat_iters = 0

theorem zeros_getD {l : List ℝ} (h : ∀ x ∈ l, x = 0) (k : Nat) : l.getD k 0 = 0 := by
  rw [List.getD_eq_getElem?_getD]
  cases hx : l[k]? with
  | none => rfl
  | some x => exact h x (List.mem_of_getElem? hx)

/-- C78: what a body with a free joint does when it is released: the linear acceleration that
forward dynamics returns is gravity *seen from the turned body*; the integrator adds it (times
`dt`) to the velocity of the position in the coordinates of the world. -/
theorem C78_free_fall {E : JEnv ℝ π'} (hE : E.Std) (hpi : 0 < E.pi) {s : System ℝ π'}
    (hb : FreeBody E s) {q : List ℝ} (hq : q.length = 7) :
    ∃ qdd, forward_dynamics E s q [0, 0, 0, 0, 0, 0] [0, 0, 0, 0, 0, 0] = .ok qdd ∧
      qdd.length = 6 ∧
      Vec3.smul ((s.linkI 0).mass + 1e-6) (vecOf qdd 3) =
        -Vec3.smul (s.linkI 0).mass (rotate s.gravity (s.linkT 0).rot) := by
  have hn : 0 < s.link_parents.length := by rw [hb.parents]; decide
  have w := wOf_std hE .free
  have hw7 : (s.link_types.map (wOf E.qw)).sum = 7 := by
    rw [hb.types]
    simp only [List.map_cons, List.map_nil, List.sum_cons, List.sum_nil]
    exact w.1
  have hw6 : (s.link_types.map (wOf E.dw)).sum = 6 := by
    rw [hb.types]
    simp only [List.map_cons, List.map_nil, List.sum_cons, List.sum_nil]
    exact w.2
  have hJ : s.JointsIn fun _ => True := by
    intro t ht
    rw [hb.types] at ht
    exact ⟨.free, trivial, List.mem_singleton.1 ht⟩
  obtain ⟨qdd, tauID, spring, h1, h2, h3, h4, h5, h6, h7⟩ := C27_forward_dynamics hE hb.dynamic hJ hn
    hpi hb.physical (fun x hx => (hb.armature x hx).ge) (fun x hx => (hb.damping x hx).ge) hb.dt
    hb.exact_inverse (q := q) (qd := [0, 0, 0, 0, 0, 0]) (tau := [0, 0, 0, 0, 0, 0])
    (by rw [hq, hw7]) (by rw [hw6]; rfl) rfl
  refine ⟨qdd, h1, h2, ?_⟩
  obtain ⟨tau, v, a, f, n1, n2, ne⟩ := C26_newton_euler hb.dynamic hn (qd := [0, 0, 0, 0, 0, 0])
    (qdd := qdd) (by rw [hw6]; rfl) h2
  rw [h3] at n1
  cases n1
  -- the axes of the joint
  have h0 : (0 : Nat) < s.link_types.length := by rw [hb.types]; decide
  obtain ⟨p, hp⟩ := jointParam_isSome hb.dynamic.wf hb.dynamic.jointed hn
  have hax : s.axesAt E 0 = [mr .x, mr .y, mr .z, mp .x, mp .y, mp .z] := by
    unfold axesAt
    have hd : s.link_types.getD 0 "" = BuiltIn.free.name := by rw [hb.types]; rfl
    rw [hd, hE.joints, hp]
    rfl
  have hown : ∀ u : List ℝ, u.length = 6 → ownSlice E.dw s.link_types u 0 = u := by
    intro u hu
    unfold ownSlice
    rw [hb.types]
    have : wOf E.dw "free" = 6 := w.2
    simp [this, hu]
  have hJM : ∀ u : List ℝ, u.length = 6 → s.jointMotion E u 0 = ⟨vecOf u 0, vecOf u 3⟩ := by
    intro u hu
    unfold jointMotion
    rw [hax, hown u hu]
    exact declared_free (p := p) hu
  have hv : v 0 = ⟨0, 0⟩ := by
    have := ne.vel 0 hn
    have hp0 : s.link_parents[0] = -1 := by simp [hb.parents]
    rw [if_pos hp0] at this
    rw [this]
    have e := hJM [0, 0, 0, 0, 0, 0] rfl
    unfold jointMotion at e
    rw [e]
    ext <;> simp [vecOf]
  have ha : a 0 = ⟨vecOf qdd 0, rotate s.gravity (s.linkT 0).rot + vecOf qdd 3⟩ := by
    have := ne.acc 0 hn
    have hp0 : s.link_parents[0] = -1 := by simp [hb.parents]
    rw [if_pos hp0, hJM qdd h2, hJM [0, 0, 0, 0, 0, 0] rfl, hv] at this
    rw [this]
    simp only [transform_motion, motion_cross]
    ext <;> simp [vecOf, rotate_x, rotate_y, rotate_z]
  have hf : f 0 = inertia_mul_motion (s.linkI 0) (a 0) := by
    have := ne.force 0 hn
    rw [this, hv]
    have hch : ((List.range s.link_parents.length).filter fun c =>
        s.link_parents.getD c (-1) = ((0 : Nat) : Int)) = [] := by
      rw [hb.parents]
      decide
    rw [hch]
    simp only [motion_cross_star]
    ext <;> simp
  have hfv : (f 0).vel = Vec3.smul (s.linkI 0).mass (rotate s.gravity (s.linkT 0).rot + vecOf qdd 3) := by
    rw [hf, ha]
    simp only [inertia_mul_motion, hb.com]
    ext <;> simp
  have htau : tauID = [(f 0).ang.x, (f 0).ang.y, (f 0).ang.z, (f 0).vel.x, (f 0).vel.y, (f 0).vel.z] := by
    have := ne.torque 0 h0
    rw [hown tauID h4, hax] at this
    rw [this]
    simp [motion_dot, mr, mp, Axis.unit, Vec3.dot]
  have key : ∀ r : Nat, r < 6 → tauID.getD r 0 + 1e-6 * qdd.getD r 0 = 0 := by
    intro r hr
    have := h7 r hr
    rw [zeros_getD hb.armature, zeros_getD hb.damping, zeros_getD hb.stiffness] at this
    have z : ([0, 0, 0, 0, 0, 0] : List ℝ).getD r 0 = 0 := zeros_getD (by simp) r
    rw [z] at this
    simpa using this
  have k3 := key 3 (by decide)
  have k4 := key 4 (by decide)
  have k5 := key 5 (by decide)
  rw [htau] at k3 k4 k5
  simp only [List.getD_cons_zero, List.getD_cons_succ, hfv, Vec3.smul, Vec3.add_x, Vec3.add_y,
    Vec3.add_z] at k3 k4 k5
  ext
  · simp only [Vec3.smul, Vec3.neg_x, vecOf] at k3 ⊢
    linarith
  · simp only [Vec3.smul, Vec3.neg_y, vecOf] at k4 ⊢
    linarith
  · simp only [Vec3.smul, Vec3.neg_z, vecOf] at k5 ⊢
    linarith

/-! ## a concrete body -/

noncomputable def bodyGeoms : List (Geometry ℝ) := [⟨1, .zero, 0, .box 1 2 3, none, none⟩]

/-- a box of one kilogram on a free joint -/
noncomputable def bodySys : System ℝ Unit where
  link_parents := [-1]
  links := [⟨.zero, 0, ⟨1, 1, 1⟩, compute_inertia_per_link Real.pi bodyGeoms 0, .zero, .zero⟩]
  joint_params := [("default", [()])]
  link_types := ["free"]
  link_damping := [0, 0, 0, 0, 0, 0]
  link_armature := [0, 0, 0, 0, 0, 0]
  link_spring_stiffness := [0, 0, 0, 0, 0, 0]
  link_spring_zeropoint := [1, 0, 0, 0, 0, 0, 0]
  dt := 1 / 100
  geoms := bodyGeoms
  gravity := ⟨0, 0, 981 / 100⟩
  integration_method := "semi_implicit_euler"
  mass_mat_iters := 0
  link_names := ["a"]
  model_name := some "m"
  omc := [none]

theorem bodySys_widths : bodySys.link_types.map (wOf stdEnv.qw) = [7] ∧
    bodySys.link_types.map (wOf stdEnv.dw) = [6] := by
  refine ⟨?_, ?_⟩ <;> decide

theorem bodySys_wf : bodySys.WF stdEnv.toEnv where
  types_len := rfl
  links_len := rfl
  omc_len := rfl
  names_len := rfl
  names_nodup := by show ["a"].Nodup; decide
  pos_ok := by
    intro l hl
    simp [bodySys] at hl
    subst hl
    simp [stdEnv]
  geoms_ok := by simp [bodySys, bodyGeoms]
  known := by
    intro t ht
    simp [bodySys] at ht
    subst ht
    constructor <;> decide
  damping_len := by rw [bodySys_widths.2]; simp [bodySys]
  armature_len := by rw [bodySys_widths.2]; simp [bodySys]
  stiffness_len := by rw [bodySys_widths.2]; simp [bodySys]
  zeropoint_len := by rw [bodySys_widths.1]; simp [bodySys]
  unit_zero := by
    intro i hi
    have : i < 1 := hi
    obtain rfl : i = 0 := by omega
    intro _
    have h1 : wOf stdEnv.qw "free" = 7 := by decide
    have e : ownSlice stdEnv.qw bodySys.link_types bodySys.link_spring_zeropoint 0 =
        [1, 0, 0, 0, 0, 0, 0] := by simp [bodySys, ownSlice, h1]
    rw [e]
    simp [stdEnv]
  topo := by
    intro i hi
    have : i < 1 := hi
    obtain rfl : i = 0 := by omega
    simp [bodySys]
  jp_keys := by simp [bodySys]
  jp_len := by simp [bodySys]
  inertia_ok := by
    intro i hi
    have : i < 1 := hi
    obtain rfl : i = 0 := by omega
    rfl
  geoms_sorted := by simp [bodySys, bodyGeoms]

theorem bodySys_simulable : bodySys.Simulable stdEnv where
  wf := bodySys_wf
  default := by simp [bodySys]
  widths := kinSys_simulable.widths
  builtin := by
    intro t ht
    exact ⟨.free, trivial, List.mem_singleton.1 ht⟩
  nonempty := by simp [bodySys]
  unit := by
    intro l hl
    simp [bodySys] at hl
    subst hl
    simp [Transform.zero, Quat.normSq, unitQuat]
  geoms_unit := by
    intro g hg
    simp [bodySys, bodyGeoms] at hg
    subst hg
    simp [Transform.zero, Quat.normSq, unitQuat]
  method := kinSys_simulable.method

theorem bodySys_inertia : (bodySys.linkI 0).mass = 1 ∧ (bodySys.linkI 0).h = 0 := by
  obtain ⟨h1, h2⟩ := C21_mass_and_com Real.pi bodyGeoms 0
  have e : bodySys.linkI 0 = compute_inertia_per_link Real.pi bodyGeoms 0 := rfl
  rw [e, h1, h2]
  constructor
  · simp [bodyGeoms]
  · ext <;> simp [bodyGeoms, Transform.zero]

theorem bodySys_unitQ {q : List ℝ} (hq : q.length = 7) (hu : (quatOf q).IsUnit) :
    bodySys.UnitQ stdEnv q := by
  intro i hi _
  have : i < 1 := hi
  obtain rfl : i = 0 := by omega
  have h1 : wOf stdEnv.qw "free" = 7 := by decide
  have e : ownSlice stdEnv.qw bodySys.link_types q 0 = q := by simp [bodySys, ownSlice, h1, hq]
  simp only [e]
  simp only [Quat.IsUnit, quatOf] at hu
  rw [← hu]
  ring

/-- What one step does to the box, released with orientation `r`. -/
theorem C78_release {r : Quat ℝ} (hr : r.IsUnit) :
    ∃ st', step stdEnv bodySys ⟨quatList r ++ [0, 0, 0], [0, 0, 0, 0, 0, 0], []⟩ none 1 = .ok st' ∧
      Vec3.smul (1 + 1e-6) (vecOf st'.q 4) =
        -Vec3.smul (1 / 10000) (rotate bodySys.gravity r) := by
  set q : List ℝ := quatList r ++ [0, 0, 0] with hqd
  have hql : q.length = 7 := rfl
  have hqr : quatOf q = r := rfl
  have hsame : SameButCache bodySys { bodySys with dt := bodySys.dt / (1 : Nat) } :=
    ⟨rfl, rfl, fun i h1 h2 => by simp⟩
  have hsim := Simulable.of_same bodySys_simulable hsame
  have hu : bodySys.UnitQ stdEnv q := bodySys_unitQ hql (by rw [hqr]; exact hr)
  have hw7 := bodySys_widths.1
  have hw6 := bodySys_widths.2
  obtain ⟨s', x, hfk, same, hs', hdyn, hdt'⟩ := fk_simulable stdEnv_std hsim
    (st := ⟨q, [0, 0, 0, 0, 0, 0], []⟩) (by
      show q.length = (bodySys.link_types.map _).sum
      rw [hw7]; rfl) hu
  have hft : ({ bodySys with dt := bodySys.dt / (1 : Nat) } :
      System ℝ Unit).forward_kinematics_transforms stdEnv q = .ok (x, s') := by
    unfold forward_kinematics at hfk
    cases hx : ({ bodySys with dt := bodySys.dt / (1 : Nat) } :
      System ℝ Unit).forward_kinematics_transforms stdEnv q with
    | error e => rw [hx] at hfk; cases hfk
    | ok y =>
      rw [hx] at hfk
      obtain ⟨y1, y2⟩ := y
      cases hfk
      rfl
  have fk := isFK_unique hsim.wf (hsim.jointed stdEnv_std) (by
    show q.length = (bodySys.link_types.map _).sum
    rw [hw7]; rfl) hft
  obtain ⟨T, ⟨jm, p, e1, e2, hT⟩, -, hrow⟩ := fk.pose 0 (by decide)
    ⟨.zero, 0, ⟨1, 1, 1⟩, compute_inertia_per_link Real.pi bodyGeoms 0, .zero, .zero⟩ rfl
  have e1' : jm = BuiltIn.free.model := by
    have := stdEnv_std.joints .free
    have e3 : stdEnv.joints (bodySys.link_types.getD 0 "") = some jm := e1
    rw [show bodySys.link_types.getD 0 "" = BuiltIn.free.name from rfl, this] at e3
    exact (Option.some.inj e3).symm
  have h1 : wOf stdEnv.qw "free" = 7 := by decide
  have h1' : wOf stdEnv.dw "free" = 6 := by decide
  have hown : ∀ y : List ℝ, y.length = 7 → ownSlice stdEnv.qw bodySys.link_types y 0 = y := by
    intro y hy
    simp [bodySys, ownSlice, h1, hy]
  have hownd : ∀ y : List ℝ, y.length = 6 → ownSlice stdEnv.dw bodySys.link_types y 0 = y := by
    intro y hy
    simp [bodySys, ownSlice, h1', hy]
  have hTr : T.rot = r := by
    rw [hT, e1']
    show quatOf (ownSlice stdEnv.qw bodySys.link_types q 0) = r
    rw [hown q hql]
    exact hqr
  have hlT : (s'.linkT 0).rot = r := by
    unfold linkT
    rw [hrow]
    show quat_mul T.rot unitQuat = r
    rw [hTr]
    ext <;> simp [quat_mul, unitQuat]
  have hlI : s'.linkI 0 = bodySys.linkI 0 := by
    unfold linkI
    rw [hrow]
    rfl
  have hrest := same.rest
  have hty : s'.link_types = bodySys.link_types := by rw [hrest]
  have hdt : s'.dt = 1 / 100 := by rw [hdt']; simp [bodySys]
  have hbody : FreeBody stdEnv s' := {
    dynamic := hdyn
    parents := by rw [hrest]; rfl
    types := by rw [hty]; rfl
    physical := by
      intro g hg
      have : g ∈ bodySys.geoms := by rw [hrest] at hg; exact hg
      simp [bodySys, bodyGeoms] at this
      subst this
      simp [Geometry.Physical, Transform.IsUnit, Transform.zero, Quat.IsUnit, unitQuat]
    com := by rw [hlI]; exact bodySys_inertia.2
    damping := by rw [hrest]; simp [bodySys]
    armature := by rw [hrest]; simp [bodySys]
    stiffness := by rw [hrest]; simp [bodySys]
    dt := by rw [hdt]; norm_num
    exact_inverse := by rw [hrest]; rfl }
  obtain ⟨qdd, f1, f2, f3⟩ := C78_free_fall stdEnv_std Real.pi_pos hbody hql
  rw [hlI, bodySys_inertia.1, hlT, show s'.gravity = bodySys.gravity by rw [hrest]] at f3
  have hJ : s'.JointsIn fun _ => True := hs'.builtin
  obtain ⟨qdd', st', g1, g2, g3, g4, g5, g6, g7, g8⟩ := C28_semi_implicit stdEnv_std hdyn hJ
    hs'.nonempty (st := ⟨q, [0, 0, 0, 0, 0, 0], x⟩) (tau := [0, 0, 0, 0, 0, 0])
    (by rw [hty, hw7]; rfl) (by rw [hty, hw6]; rfl) rfl
    (by rw [hrest]; exact hu) (by rw [hdt]; norm_num)
  have hqq : qdd' = qdd := by
    have : forward_dynamics stdEnv s' q [0, 0, 0, 0, 0, 0] [0, 0, 0, 0, 0, 0] = .ok qdd' := g1
    rw [f1] at this
    exact (Except.ok.inj this).symm
  subst hqq
  refine ⟨st', ?_, ?_⟩
  · unfold step
    have hk : ∀ t ∈ bodySys.link_types, _ := bodySys_wf.known
    simp only [q_size, qd_size, sumWidths_known (fun t ht => (hk t ht).1),
      sumWidths_known (fun t ht => (hk t ht).2), ok_bind, hw7, hw6]
    rw [pyAssert_true (p := _) (by rw [hql]; rfl)]
    simp only [ok_bind]
    rw [pyAssert_true (p := _) (by constructor <;> rfl)]
    simp only [ok_bind]
    rw [pyAssert_true (p := _) bodySys_simulable.method]
    simp only [ok_bind]
    rw [if_neg (by decide)]
    unfold step_loop
    rw [hfk]
    simp only [ok_bind, Option.getD_none]
    have : (([0, 0, 0, 0, 0, 0] : List ℝ).map fun _ => (0 : ℝ)) = [0, 0, 0, 0, 0, 0] := rfl
    rw [this, g3]
    rfl
  · obtain ⟨gs, -⟩ := g8 0 (by rw [hty]; decide)
    have hq7 : st'.q.length = 7 := g4.trans hql
    have hd6 : st'.qd.length = 6 := g5
    simp only [hty] at gs
    rw [hown q hql, hown _ hq7, hownd _ hd6, hdt] at gs
    have hfree : joint_type_is_free_or_cor_or_spherical bodySys.link_types[0] = true := by
      show joint_type_is_free_or_cor_or_spherical "free" = true
      decide
    unfold LinkStep at gs
    rw [if_pos hfree] at gs
    have z : ∀ k : Nat, 4 ≤ k → q.getD k 0 = 0 := by
      intro k hk
      match k, hk with
      | 4, _ => rfl
      | 5, _ => rfl
      | 6, _ => rfl
      | k + 7, _ => simp [List.getD_eq_getElem?_getD, hqd, quatList]
    have z6 : ∀ k : Nat, ([0, 0, 0, 0, 0, 0] : List ℝ).getD k 0 = 0 := zeros_getD (by simp)
    have c4 := gs.2 0 (by rw [hql]; decide)
    have c5 := gs.2 1 (by rw [hql]; decide)
    have c6 := gs.2 2 (by rw [hql]; decide)
    simp only [Nat.add_zero, Nat.reduceAdd] at c4 c5 c6
    rw [z _ (by decide)] at c4 c5 c6
    have d3 := g7 3 (by simp)
    have d4 := g7 4 (by simp)
    have d5 := g7 5 (by simp)
    simp only [z6, hdt] at d3 d4 d5
    rw [d3] at c4
    rw [d4] at c5
    rw [d5] at c6
    have f4 := congrArg Vec3.x f3
    have f5 := congrArg Vec3.y f3
    have f6 := congrArg Vec3.z f3
    simp only [Vec3.smul, Vec3.neg_x, Vec3.neg_y, Vec3.neg_z, vecOf, Nat.reduceAdd] at f4 f5 f6
    ext
    · simp only [Vec3.smul, Vec3.neg_x, vecOf, c4]
      linarith
    · simp only [Vec3.smul, Vec3.neg_y, vecOf, c5, Nat.reduceAdd]
      linarith
    · simp only [Vec3.smul, Vec3.neg_z, vecOf, c6, Nat.reduceAdd]
      linarith

/-- C78: a box released in the orientation of the world falls. -/
theorem C78_falls_partial :
    ∃ st', step stdEnv bodySys ⟨[1, 0, 0, 0, 0, 0, 0], [0, 0, 0, 0, 0, 0], []⟩ none 1 = .ok st' ∧
      st'.q.getD 6 0 < 0 := by
  obtain ⟨st', h1, h2⟩ := C78_release (r := ⟨1, 0, 0, 0⟩) (by norm_num [Quat.IsUnit])
  refine ⟨st', h1, ?_⟩
  have := congrArg Vec3.z h2
  simp only [Vec3.smul, Vec3.neg_z, vecOf, rotate_z, bodySys, Nat.reduceAdd] at this
  norm_num [List.getD_eq_getElem?_getD] at this ⊢
  linarith

/-- C78: the same box, released upside down, rises, and released on its side it moves sideways
instead of falling. -/
theorem C78_falls_fails :
    (∃ st', step stdEnv bodySys ⟨[0, 1, 0, 0, 0, 0, 0], [0, 0, 0, 0, 0, 0], []⟩ none 1 = .ok st' ∧
      0 < st'.q.getD 6 0) ∧
    ∃ r : Quat ℝ, r.IsUnit ∧ ∃ st', step stdEnv bodySys ⟨quatList r ++ [0, 0, 0],
      [0, 0, 0, 0, 0, 0], []⟩ none 1 = .ok st' ∧ st'.q.getD 6 0 = 0 ∧ 0 < |st'.q.getD 5 0| := by
  constructor
  · obtain ⟨st', h1, h2⟩ := C78_release (r := ⟨0, 1, 0, 0⟩) (by norm_num [Quat.IsUnit])
    refine ⟨st', h1, ?_⟩
    have := congrArg Vec3.z h2
    simp only [Vec3.smul, Vec3.neg_z, vecOf, rotate_z, bodySys, Nat.reduceAdd] at this
    norm_num [List.getD_eq_getElem?_getD] at this ⊢
    linarith
  · have hs : (√2 / 2 : ℝ) * (√2 / 2) = 1 / 2 := by
      have := Real.mul_self_sqrt (show (0 : ℝ) ≤ 2 by norm_num)
      linear_combination this / 4
    set c : ℝ := √2 / 2
    have hu : (⟨c, c, 0, 0⟩ : Quat ℝ).IsUnit := by
      simp only [Quat.IsUnit]
      linarith
    obtain ⟨st', h1, h2⟩ := C78_release hu
    refine ⟨_, hu, st', h1, ?_, ?_⟩
    · have := congrArg Vec3.z h2
      simp only [Vec3.smul, Vec3.neg_z, vecOf, rotate_z, bodySys, Nat.reduceAdd, hs] at this
      norm_num at this
      exact this
    · have := congrArg Vec3.y h2
      simp only [Vec3.smul, Vec3.neg_y, vecOf, rotate_y, bodySys, Nat.reduceAdd, hs] at this
      rw [abs_pos]
      intro h0
      rw [h0] at this
      norm_num at this

/-! ## examples -/

noncomputable def armRow : LinkRow ℝ :=
  ⟨⟨⟨1, 0, 2⟩, ⟨0, 1, 0, 0⟩⟩, 0, ⟨1, 1, 1⟩, compute_inertia_per_link Real.pi [] 0, .zero, .zero⟩

/-- an arm: a hinge, and a spherical joint below it -/
noncomputable def armSys : System ℝ Unit where
  link_parents := [-1, 0]
  links := [armRow, armRow]
  joint_params := [("default", [(), ()])]
  link_types := ["rx", "spherical"]
  link_damping := [0, 0, 0, 0]
  link_armature := [0, 0, 0, 0]
  link_spring_stiffness := [0, 0, 0, 0]
  link_spring_zeropoint := [0, 1, 0, 0, 0]
  dt := 1 / 100
  geoms := []
  gravity := ⟨0, 0, 981 / 100⟩
  integration_method := "semi_implicit_euler"
  mass_mat_iters := 0
  link_names := ["a", "b"]
  model_name := some "m"
  omc := [none, none]

theorem armSys_widths : armSys.link_types.map (wOf stdEnv.qw) = [1, 4] ∧
    armSys.link_types.map (wOf stdEnv.dw) = [1, 3] := by
  refine ⟨?_, ?_⟩ <;> decide

theorem armSys_slices {w x y z a : ℝ} :
    ownSlice stdEnv.qw armSys.link_types [a, w, x, y, z] 0 = [a] ∧
    ownSlice stdEnv.qw armSys.link_types [a, w, x, y, z] 1 = [w, x, y, z] ∧
    ownSlice stdEnv.dw armSys.link_types [a, w, x, y] 0 = [a] ∧
    ownSlice stdEnv.dw armSys.link_types [a, w, x, y] 1 = [w, x, y] := by
  have h1 : wOf stdEnv.qw "rx" = 1 := by decide
  have h2 : wOf stdEnv.qw "spherical" = 4 := by decide
  have h3 : wOf stdEnv.dw "rx" = 1 := by decide
  have h4 : wOf stdEnv.dw "spherical" = 3 := by decide
  refine ⟨?_, ?_, ?_, ?_⟩ <;> simp [armSys, ownSlice, h1, h2, h3, h4]

theorem armSys_wf : armSys.WF stdEnv.toEnv where
  types_len := rfl
  links_len := rfl
  omc_len := rfl
  names_len := rfl
  names_nodup := by show ["a", "b"].Nodup; decide
  pos_ok := by
    intro l hl
    simp [armSys] at hl
    subst hl
    simp [stdEnv, armRow]
  geoms_ok := by simp [armSys]
  known := by
    intro t ht
    simp [armSys] at ht
    rcases ht with rfl | rfl <;> constructor <;> decide
  damping_len := by rw [armSys_widths.2]; simp [armSys]
  armature_len := by rw [armSys_widths.2]; simp [armSys]
  stiffness_len := by rw [armSys_widths.2]; simp [armSys]
  zeropoint_len := by rw [armSys_widths.1]; simp [armSys]
  unit_zero := by
    intro i hi
    have : i < 2 := hi
    match i, this with
    | 0, _ =>
      intro h
      have h : joint_type_is_free_or_cor_or_spherical "rx" = true := h
      exact absurd h (by decide)
    | 1, _ =>
      intro _
      rw [show armSys.link_spring_zeropoint = [0, 1, 0, 0, 0] from rfl, armSys_slices.2.1]
      simp [stdEnv]
  topo := by
    intro i hi
    have : i < 2 := hi
    match i, this with
    | 0, _ => simp [armSys]
    | 1, _ => simp [armSys]
  jp_keys := by simp [armSys]
  jp_len := by simp [armSys]
  inertia_ok := by
    intro i hi
    have : i < 2 := hi
    match i, this with
    | 0, _ => rfl
    | 1, _ => rfl
  geoms_sorted := by simp [armSys]

theorem armSys_jointed : armSys.Jointed stdEnv where
  known := by
    intro t ht
    simp [armSys] at ht
    rcases ht with rfl | rfl
    · exact ⟨_, stdEnv_std.joints (.r .x)⟩
    · exact ⟨_, stdEnv_std.joints .spherical⟩
  default := by simp [armSys]

/-- the arm while its hinge turns: both links move as the dynamics algorithms say -/
example {xs : ℝ → List (Transform ℝ)} {s' : ℝ → System ℝ Unit}
    (hf : ∀ τ, armSys.forward_kinematics_transforms stdEnv [2 * τ, 0, 1, 0, 0] = .ok (xs τ, s' τ))
    {v : Nat → Motion ℝ} (hv : (s' 3).IsLinkVel stdEnv [2, 0, 0, 0] v) (i : Nat) (hi : i < 2) :
    HasTwist (fun τ => poseAt (xs τ) i) (v i) 3 := by
  refine C78_link_velocity stdEnv_std armSys_wf armSys_jointed ?_ ?_ ?_ ?_ ?_ ?_ hf hv i hi
  · intro t ht
    simp [armSys] at ht
    rcases ht with rfl | rfl
    · exact ⟨.r .x, trivial, rfl⟩
    · exact ⟨.spherical, trivial, rfl⟩
  · intro l hl
    simp [armSys] at hl
    subst hl
    simp [armRow, Quat.normSq]
  · intro τ; rw [armSys_widths.1]; rfl
  · rw [armSys_widths.2]; rfl
  · intro τ i hi h
    have : i < 2 := hi
    match i, this with
    | 0, _ =>
      have h : joint_type_is_free_or_cor_or_spherical "rx" = true := h
      exact absurd h (by decide)
    | 1, _ =>
      simp [armSys_slices.2.1]
  · intro i b hb
    match i with
    | 0 =>
      obtain rfl : b = .r .x := by
        have : "rx" = b.name := by simpa [armSys] using hb
        have h1 := BuiltIn.ofName_name b
        have h2 := BuiltIn.ofName_name (.r .x)
        rw [← this] at h1
        exact Option.some.inj (h1.symm.trans h2)
      simp only [armSys_slices.1, (armSys_slices (z := 0)).2.2.1]
      intro j hj
      obtain rfl : j = 0 := by simp [BuiltIn.qd_width] at hj; exact hj
      simpa using (hasDerivAt_id' (3 : ℝ)).const_mul 2
    | 1 =>
      obtain rfl : b = .spherical := by
        have : "spherical" = b.name := by simpa [armSys] using hb
        have h1 := BuiltIn.ofName_name b
        have h2 := BuiltIn.ofName_name .spherical
        rw [← this] at h1
        exact Option.some.inj (h1.symm.trans h2)
      simp only [armSys_slices.2.1, (armSys_slices (z := 0)).2.2.2]
      refine ⟨?_, ?_, ?_, ?_⟩ <;> simpa using hasDerivAt_const _ _
    | i + 2 => simp [armSys] at hb

/-- … and such poses exist -/
example (τ : ℝ) : ∃ xs s', armSys.forward_kinematics_transforms stdEnv [2 * τ, 0, 1, 0, 0] =
    .ok (xs, s') ∧ armSys.IsFK stdEnv [2 * τ, 0, 1, 0, 0] xs s' :=
  C22_forward armSys_wf armSys_jointed (by rw [armSys_widths.1]; rfl)

example : ∃ k : ℝ, |k - 1| * norm3 (vecOf [1, 2, 3, 4, 5, 6] 0) ≤ 1e-8 ∧
    BuiltIn.free.Follows (fun dt => q_integrate dt ([0, 1, 0, 0, 7, 8, 9], [1, 2, 3, 4, 5, 6], "free"))
      [k * 1, k * 2, k * 3, 4, 5, 6] 0 := by
  exact C78_integrator_turn (b := .free) (c := [0, 1, 0, 0, 7, 8, 9]) (u := [1, 2, 3, 4, 5, 6])
    rfl rfl rfl (by norm_num [Quat.IsUnit, quatOf])

example : (BuiltIn.free_2d).Follows (fun dt => q_integrate dt ([1, 2, 3], [4, 5, 6], "free_2d"))
    [4, 5, 6] 0 := C78_integrator (b := .free_2d) rfl rfl rfl

example : FreeBody stdEnv bodySys where
  dynamic := {
    wf := bodySys_wf
    jointed := bodySys_simulable.jointed stdEnv_std
    widths := bodySys_simulable.widths
    unit := by
      intro l hl
      simp [bodySys] at hl
      subst hl
      simp [Transform.zero, Quat.normSq, unitQuat]
    geoms_unit := bodySys_simulable.geoms_unit }
  parents := rfl
  types := rfl
  physical := by
    intro g hg
    simp [bodySys, bodyGeoms] at hg
    subst hg
    simp [Geometry.Physical, Transform.IsUnit, Transform.zero, Quat.IsUnit, unitQuat]
  com := bodySys_inertia.2
  damping := by simp [bodySys]
  armature := by simp [bodySys]
  stiffness := by simp [bodySys]
  dt := by simp [bodySys]
  exact_inverse := rfl

end RingLib
